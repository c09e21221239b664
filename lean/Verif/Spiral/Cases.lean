import Verif.Spiral.Props
import Verif.Spiral.FollowProps

/-! # Cases that meet the hypotheses of the theorems on spirals, and counterexamples -/

namespace Verif.Spiral

/-- Lengths for which everything can be computed: along the axes, in millimetres. -/
def mm (p q : Pt) : ℚ := ((|p.1 - q.1| + |p.2 - q.2| : Int) : ℚ) / 1000

theorem mm_lengths : Lengths mm where
  nonneg p q := by
    have : 0 ≤ |p.1 - q.1| + |p.2 - q.2| := by positivity
    exact div_nonneg (by exact_mod_cast this) (by norm_num)
  zero p q h := by
    unfold mm at h
    have h' : ((|p.1 - q.1| + |p.2 - q.2| : Int) : ℚ) = 0 := by
      rcases div_eq_zero_iff.mp h with h | h
      · exact h
      · norm_num at h
    have h'' : |p.1 - q.1| + |p.2 - q.2| = 0 := by exact_mod_cast h'
    have h1 : |p.1 - q.1| = 0 := by have := abs_nonneg (p.1 - q.1); have := abs_nonneg (p.2 - q.2); omega
    have h2 : |p.2 - q.2| = 0 := by have := abs_nonneg (p.1 - q.1); have := abs_nonneg (p.2 - q.2); omega
    rw [abs_eq_zero] at h1 h2
    exact Prod.ext (by omega) (by omega)

def square' (x n : Int) : List Pt := [(x, 0), (x + n, 0), (x + n, n), (x, n)]
def seams : Seams := ⟨(0, 0), 500, fun _ _ _ => true⟩
def rough : Cfg := ⟨false, 400, 30, 10⟩
def smooth : Cfg := ⟨true, 400, 30, 10⟩
def vase : List Layer := [⟨200, 200, [square' 0 10000]⟩, ⟨400, 200, [square' 0 9500]⟩, ⟨600, 200, [square' 0 9000]⟩]

theorem vase_ok : Vase 0 vase := by
  refine ⟨?_, ?_, ?_⟩
  · rintro (_ | _ | _ | k) l - hl
    · cases hl; exact ⟨_, rfl, (0, 0), by decide, (10000, 0), by decide, by decide⟩
    · cases hl; exact ⟨_, rfl, (0, 0), by decide, (9500, 0), by decide, by decide⟩
    · cases hl; exact ⟨_, rfl, (0, 0), by decide, (9000, 0), by decide, by decide⟩
    · simp [vase] at hl
  · rintro (_ | _ | _ | k) l - hl
    · cases hl; decide
    · cases hl; decide
    · cases hl; decide
    · simp [vase] at hl
  · rintro (_ | _ | _ | k) l m - hl hm
    · cases hl; cases hm; rfl
    · cases hl; cases hm; rfl
    · simp [vase] at hm
    · simp [vase] at hl

/-- The hypotheses of `C103_print_partial` and `C103_chain_partial`, and what is written, with smoothed contours. -/
example : Vase 0 vase ∧ (∀ l, vase[0]? = some l → (200 : Int) = l.z) ∧ print mm seams smooth 0 ⟨(5, 5), 200⟩ vase = some [
    [⟨(0, 0), 200, none⟩, ⟨(10000, 0), 250, some (7 / 16)⟩, ⟨(10000, 10000), 300, some (5 / 8)⟩, ⟨(0, 10000), 350, some (13 / 16)⟩, ⟨(0, 0), 400, some 1⟩],
    [⟨(0, 0), 400, none⟩, ⟨(9500, 0), 449, some 1⟩, ⟨(9750, 9500), 500, some 1⟩, ⟨(0, 9500), 551, some 1⟩, ⟨(0, 0), 600, some 1⟩],
    [⟨(0, 0), 600, none⟩, ⟨(9000, 0), 625, some 1⟩, ⟨(9250, 9000), 650, some 1⟩, ⟨(0, 9000), 676, some 1⟩, ⟨(0, 0), 701, some 1⟩,
      ⟨(9000, 0), 800, some (3 / 4)⟩, ⟨(9000, 9000), 800, some (1 / 2)⟩, ⟨(0, 9000), 800, some (1 / 4)⟩, ⟨(0, 0), 800, some 0⟩]] := by
  refine ⟨vase_ok, ?_, by decide +kernel⟩
  intro l hl
  cases hl
  rfl

/-- The hypotheses of `C103_layer_partial`, `C103_written` and `C104_layer`: a wall that is 1 mm away from the last, not smoothed. -/
example : (slice mm rough 200 (square' 0 9000) (square' 1000 9000) 2 (some 2) false false).map Prod.fst = some (10000, 9000) ∧
    (slice mm rough 200 (square' 0 9000) (square' 1000 9000) 2 (some 2) false false).bind (fun s =>
      (write mm 400 200 ⟨(1, 1), 400⟩ ((s.2.foldl add (addTravel [] s.1)).reverse)).map Prod.snd) = some [⟨(10000, 9000), 400, none⟩, ⟨(9000, 9000), 405, some 1⟩, ⟨(0, 9000), 454, some 1⟩, ⟨(0, 0), 503, some 1⟩, ⟨(9000, 0), 551, some 1⟩,
      ⟨(9000, 9000), 600, some 1⟩] := by
  constructor <;> decide +kernel

/-- The hypotheses of `C103_top_partial` and `C104_top`. -/
example : (∀ p, (once (square' 0 9000) 2).head? = some p → p ≠ (9000, 9000)) ∧
    (slice mm rough 200 (square' 0 9000) (square' 1000 9000) 2 (some 2) true false).map Prod.fst = some (10000, 9000) ∧
    (slice mm rough 200 (square' 0 9000) (square' 1000 9000) 2 (some 2) true false).bind (fun s =>
      (write mm 400 200 ⟨(1, 1), 400⟩ ((s.2.foldl add (addTravel [] s.1)).reverse)).map Prod.snd) = some [⟨(10000, 9000), 400, none⟩, ⟨(9000, 9000), 403, some 1⟩, ⟨(0, 9000), 427, some 1⟩, ⟨(0, 0), 452, some 1⟩, ⟨(9000, 0), 477, some 1⟩,
        ⟨(9000, 9000), 501, some 1⟩, ⟨(0, 9000), 600, some (3 / 4)⟩, ⟨(0, 0), 600, some (1 / 2)⟩, ⟨(9000, 0), 600, some (1 / 4)⟩,
        ⟨(9000, 9000), 600, some 0⟩] := by
  refine ⟨?_, ?_, ?_⟩
  · intro p hp
    have : p = (0, 9000) := by simpa [once, square'] using hp.symm
    rw [this]; decide
  · decide +kernel
  · decide +kernel

/-- The hypotheses of `C104_speed`: at full speed the wall takes 37/30 s, which is slowed down by 4/7. -/
example : (slice mm rough 200 (square' 0 9000) (square' 1000 9000) 2 (some 2) true false).map (fun s => s.2.map Move.speed) =
    some [1, 4 / 7, 4 / 7, 4 / 7, 4 / 7, 4 / 7, 4 / 7, 4 / 7, 4 / 7] := by decide +kernel

/-- The hypotheses of `C104_seam_partial`: the closest vertex is 1 mm away, so what is on the left matters. -/
example : findSeams seams none [⟨200, 200, [square' 0 10000]⟩, ⟨400, 200, [square' 1000 9000]⟩] =
      some [some (square' 0 10000, 0), some (square' 1000 9000, 0)] ∧
    findSeams ⟨(0, 0), 500, fun _ _ _ => false⟩ none [⟨200, 200, [square' 0 10000]⟩, ⟨400, 200, [square' 1000 9000]⟩] =
      some [some (square' 0 10000, 0), some (square' 1000 9000, 1)] := by
  constructor <;> decide +kernel

/-- **C103 fails on the last layer**: the spiral climbs only half of the layer (the length of the taper counts as well) and what is left in
one move: from the seam at 700 µm to a corner at 800 µm. -/
theorem C103_top_counterexample : Vase 0 vase ∧
    (print mm seams rough 0 ⟨(0, 0), 200⟩ vase).bind (fun out => (out[2]?).map fun o => (o[4]?, o[5]?)) =
      some (some ⟨(0, 0), 700, some 1⟩, some ⟨(9000, 0), 800, some (3 / 4)⟩) := ⟨vase_ok, by decide +kernel⟩

/-- **C103 fails if there is more than one wall**: after the first spiral the nozzle goes down from 400 µm to 300 µm, through what it has just
printed, with a travel that is written as an extrusion of nothing, and prints the second wall flat. -/
theorem C103_rest_counterexample :
    (print mm seams rough 0 ⟨(0, 0), 200⟩ [⟨200, 200, [square' 0 10000, square' 20000 3000]⟩, ⟨400, 200, [square' 0 10000]⟩]).bind
      (fun out => (out[0]?).map fun o => o.drop 4) = some [⟨(0, 0), 400, some 1⟩, ⟨(20000, 0), 300, some 0⟩, ⟨(23000, 0), 300, some (7 / 16)⟩, ⟨(23000, 3000), 300, some (5 / 8)⟩,
      ⟨(20000, 3000), 300, some (13 / 16)⟩, ⟨(20000, 0), 300, some 1⟩, ⟨(0, 0), 300, some 0⟩] := by
  decide +kernel

/-- **C103 fails if thicknesses differ**: with a first layer of 300 µm and others of 200 µm the spiral climbs to 600 µm, and then the nozzle goes
down to 500 µm, where it has just printed. -/
theorem C103_first_counterexample :
    (print mm seams rough 0 ⟨(0, 0), 300⟩ [⟨300, 300, [square' 0 10000]⟩, ⟨500, 200, [square' 0 10000]⟩]).map
      (fun out => (((out[0]?).getD []).getLast?, ((out[1]?).getD []).head?)) = some (some ⟨(0, 0), 600, some 1⟩, some ⟨(0, 0), 500, none⟩) := by
  decide +kernel

/-- **Walls with fewer vertices**: the seam's index in the first wall is used for all, without regard to their number of vertices. Here it
is 3, and the second wall has three vertices: memory outside of it is read. -/
theorem C103_hole_counterexample :
    print mm { seams with hint := (1, 9000) } rough 0 ⟨(0, 0), 200⟩ [⟨200, 200, [square' 0 10000, [(20000, 0), (20000, 10000), (30000, 0)]]⟩] = none := by
  decide +kernel

/-- **C104 fails for the position the user wants**: the seam is to be at the vertex that is closest, but is at the one before it, even if the
position is exactly that of a vertex. -/
theorem C104_hint_counterexample : findSeams { seams with hint := (0, 10000) } none [⟨200, 200, [square' 0 10000]⟩] = some [some (square' 0 10000, 2)] ∧
    (square' 0 10000)[2]? = some (10000, 10000) ∧ (0, 10000) ∈ square' 0 10000 := by decide +kernel

end Verif.Spiral
