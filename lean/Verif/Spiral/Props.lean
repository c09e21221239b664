import Verif.Spiral.TopLemmas
import Mathlib.Data.List.Chain

/-! # C103: a spiralized wall is one continuous way up -/

namespace Verif.Spiral

variable {len : Pt → Pt → ℚ}

/-- **C103, a layer.** With the nozzle at the height of a layer that is neither the last nor below the spiral, and a wall that is not just
the point where the spiral begins, what is written is a travel to that point and then moves that all extrude and go up from there, in
proportion to the way, to exactly the height of the next layer at the seam. Partial, as is what follows: the last layer does not rise like
that (`C103_top_counterexample`). -/
theorem C103_layer_partial (hl : Lengths len) {c : Cfg} {z t : Int} {wall lastWall : List Pt} {seam : Nat} {lastSeam : Option Nat} {bottom : Bool}
    {o : Pt} {moves : List Move} {n m : Nozzle} {out : List Out} (ht : 0 ≤ t) (hseam : seam < wall.length) (hw : ∃ p ∈ wall, p ≠ o)
    (hs : slice len c t wall lastWall seam lastSeam false bottom = some (o, moves)) (hz : n.z = z)
    (h : write len z t n ((moves.foldl add (addTravel [] o)).reverse) = some (m, out)) :
    ∃ rest, out = ⟨o, z, none⟩ :: rest ∧ Climbs len z t o wall[seam] rest ∧ m = ⟨wall[seam], z + t⟩ := by
  obtain ⟨rest, h1, h2, -, -, h3⟩ := write_layer hl ht hseam hw hs hz h
  exact ⟨rest, h1, h2, h3⟩

/-- Writing does not fail if contours are not smoothed, or on the first layer of the spiral. -/
theorem C103_written (hl : Lengths len) {c : Cfg} {z t : Int} {wall lastWall : List Pt} {seam : Nat} {lastSeam : Option Nat} {bottom : Bool}
    {o : Pt} {moves : List Move} (n : Nozzle) (hseam : seam < wall.length) (hw : ∃ p ∈ wall, p ≠ o) (hsm : c.smooth = false ∨ bottom = true)
    (hs : slice len c t wall lastWall seam lastSeam false bottom = some (o, moves)) :
    (write len z t n ((moves.foldl add (addTravel [] o)).reverse)).isSome := by
  obtain ⟨up, h1, h2, ⟨u, h3, -, -⟩, first, -, h4⟩ := slice_up hl hseam hw hs
  simp only [Bool.false_eq_true, if_false, List.append_nil] at h1
  subst h1
  have hne : moves ≠ [] := by rintro rfl; simp at h3
  have := write_plan (len := len) (z := z) (t := t) (n := n) (o := o) (taper := []) (fun m hm => (h2 m hm).1) (by simp) hne (by simp)
  rw [List.append_nil] at this
  rw [this]
  have hA : along len o (moves.map Move.dst) ≠ 0 := by
    intro h0
    obtain ⟨p, hp, hpo⟩ := hw
    refine hpo (along_zero hl.nonneg hl.zero o _ h0 p ?_)
    rw [h4, List.map_append, spiralMoves_plain _ _ _ _ _ _ _ _ hsm, List.mem_append]
    exact Or.inr (once_mem.mpr hp)
  obtain ⟨q, hq⟩ := spiralFlat_isSome (len := len) (z0 := z) (t := t) hA false ⟨o, 0, z⟩ (moves.map Move.step)
  rw [hq]
  rfl

/-- **C103, the print.** If every layer from `b` on has one wall, and is as thick as the next one is higher, then on every layer the spiral
begins exactly where it ended on the layer before, in the plane and in height, and on all layers but the last it climbs to the next one. -/
theorem C103_print_partial (hl : Lengths len) {S : Seams} {c : Cfg} {b : Nat} {n : Nozzle} {layers : List Layer} {out : List (List Out)}
    (hv : Vase b layers) (hn : ∀ l, layers[b]? = some l → n.z = l.z) (h : print len S c b n layers = some out) :
    ∃ s : Nat → Pt, (∀ (k : Nat) (l : Layer) (w : List Pt), b ≤ k → layers[k]? = some l → l.walls = [w] → s k ∈ w) ∧ out.length = layers.length - b ∧
      ∀ (k : Nat) (l : Layer) (o : List Out), b ≤ k → layers[k]? = some l → out[k - b]? = some o →
        ∃ rest, o = ⟨if k = b then s b else s (k - 1), l.z, none⟩ :: rest ∧
          (k + 1 < layers.length → Climbs len l.z l.thickness (if k = b then s b else s (k - 1)) (s k) rest) := by
  simp only [print, Option.bind_eq_some_iff] at h
  obtain ⟨outlines, hs, plans, hp, hw⟩ := h
  obtain ⟨h1, h2, h3⟩ := print_layers hl hv hs (layers.drop b) b plans rfl (le_refl _) hp
  rw [h1] at hw
  obtain ⟨h4, h5⟩ := h3 n out (by intro l hl'; exact hn l (by rw [← hl', List.head?_drop])) hw
  refine ⟨seamOf outlines, ?_, by simpa using h4, ?_⟩
  · intro k l w hk hlk hlw
    obtain ⟨-, hget⟩ := findSeams_get hs
    obtain ⟨i, hi, hiw⟩ := hget k l w [] hlk hlw
    rw [seamOf_eq hi hiw]
    exact List.getElem_mem hiw
  · intro k l o hk hlk ho
    have := h5 (k - b) l o (by rw [List.getElem?_drop, show b + (k - b) = k by omega, hlk]) ho
    rw [show b + (k - b) = k by omega] at this
    obtain ⟨rest, e1, e2⟩ := this
    have e : (if k = b then seamOf outlines k else seamOf outlines (k - 1)) = (if k = b then seamOf outlines b else seamOf outlines (k - 1)) := by
      split
      · rename_i h; rw [h]
      · rfl
    rw [e] at e1 e2
    exact ⟨rest, e1, e2⟩

/-- **C103, one way.** Under the same conditions all that is written before the last layer is one chain of moves, of which none goes down
and none but the first is a travel to another place. -/
theorem C103_chain_partial (hl : Lengths len) {S : Seams} {c : Cfg} {b : Nat} {n : Nozzle} {layers : List Layer} {out : List (List Out)}
    (hv : Vase b layers) (hn : ∀ l, layers[b]? = some l → n.z = l.z) (h : print len S c b n layers = some out) :
    out.dropLast.flatten.IsChain Follows := by
  obtain ⟨s, -, hlen, hk⟩ := C103_print_partial hl hv hn h
  have main : ∀ (j : Nat) (o : List Out), out.dropLast[j]? = some o → ∃ l, layers[b + j]? = some l ∧ b + j + 1 < layers.length ∧
      ∃ rest, o = ⟨if b + j = b then s b else s (b + j - 1), l.z, none⟩ :: rest ∧
        Climbs len l.z l.thickness (if b + j = b then s b else s (b + j - 1)) (s (b + j)) rest := by
    intro j o ho
    have hj : j < out.length - 1 := by
      have := (List.getElem?_eq_some_iff.mp ho).1
      simpa using this
    have hj' : b + j < layers.length := by omega
    have ho' : out[j]? = some o := by
      rw [List.getElem?_dropLast, if_pos hj] at ho
      exact ho
    obtain ⟨rest, e1, e2⟩ := hk (b + j) layers[b + j] o (by omega) (by simp [hj']) (by rw [Nat.add_sub_cancel_left]; exact ho')
    exact ⟨layers[b + j], by simp [hj'], by omega, rest, e1, e2 (by omega)⟩
  rw [List.isChain_flatten]
  · constructor
    · intro o ho
      obtain ⟨j, hj⟩ := List.getElem?_of_mem ho
      obtain ⟨l, -, -, rest, rfl, hc⟩ := main j o hj
      apply List.Pairwise.isChain
      have hr := hc.rises
      rw [List.pairwise_cons] at hr ⊢
      have hsome : ∀ m ∈ rest, m.flow ≠ none := fun m hm e => by have := hc.extrudes m hm; rw [e] at this; simp at this
      refine ⟨fun m hm => ⟨hr.1 m.z (List.mem_map_of_mem hm), fun e => absurd e (hsome m hm)⟩, ?_⟩
      exact (List.pairwise_map.mp hr.2).imp_of_mem fun {a m} _ hm hle => ⟨hle, fun e => absurd e (hsome m hm)⟩
    · rw [List.isChain_iff_getElem]
      intro j hj x hx y hy
      obtain ⟨l, hl1, hl2, rest, e1, hc⟩ := main j out.dropLast[j] (List.getElem?_eq_getElem (by omega))
      obtain ⟨l', hl1', hl2', rest', e1', hc'⟩ := main (j + 1) out.dropLast[j + 1] (List.getElem?_eq_getElem (by omega))
      obtain ⟨m, hm, hm1, hm2⟩ := hc.last
      rw [e1] at hx
      rw [e1'] at hy
      simp only [List.head?_cons, Option.mem_def, Option.some.injEq] at hy
      rw [List.getLast?_cons, hm] at hx
      simp only [Option.getD_some, Option.mem_def, Option.some.injEq] at hx
      subst hx hy
      have hz := hv.heights (b + j) l l' (by omega) hl1 (by rw [← hl1']; rfl)
      refine ⟨by rw [hm2]; exact hz.ge, fun _ => ⟨?_, by rw [hm2]; exact hz⟩⟩
      rw [hm1, if_neg (by omega)]
      rfl
  · intro hnil
    obtain ⟨j, hj⟩ := List.getElem?_of_mem hnil
    obtain ⟨l, -, -, rest, e, -⟩ := main j [] hj
    simp at e

/-- **C103, the last layer.** If the wall's first two vertices from the seam on differ, what is written is a travel, moves that all extrude and
go up, at most to the height of the layer above, to the seam, and then the taper, all of it at twice half the thickness above the layer. -/
theorem C103_top_partial (hl : Lengths len) {c : Cfg} {z t : Int} {wall lastWall : List Pt} {seam : Nat} {lastSeam : Option Nat} {bottom : Bool}
    {o : Pt} {moves : List Move} {n m : Nozzle} {out : List Out} (ht : 0 ≤ t) (hseam : seam < wall.length) (hw : ∃ p ∈ wall, p ≠ o)
    (hd : ∀ p, (once wall seam).head? = some p → p ≠ wall[seam])
    (hs : slice len c t wall lastWall seam lastSeam true bottom = some (o, moves)) (hz : n.z = z)
    (h : write len z t n ((moves.foldl add (addTravel [] o)).reverse) = some (m, out)) :
    ∃ up down, out = ⟨o, z, none⟩ :: (up ++ down) ∧ (∀ a ∈ up ++ down, a.flow.isSome) ∧ (z :: up.map Out.z).Pairwise (· ≤ ·) ∧
      (∀ a ∈ up, a.z ≤ z + t) ∧ (∃ a, up.getLast? = some a ∧ a.dst = wall[seam]) ∧ ∀ a ∈ down, a.z = z + 2 * (t / 2) := by
  obtain ⟨-, up, down, h1, -, -, -, -, -, h2, h3, h4, h5, h6⟩ := write_top hl ht hseam hw hd hs hz h
  exact ⟨up, down, h1, h2, h3, h4, h5, h6⟩

end Verif.Spiral
