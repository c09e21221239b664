import Verif.Coasting.PlanLemmas
import Mathlib.Tactic.Ring

/-! # The nozzle coasts to the end of a stretch of extrusion (C100) -/

namespace Verif.Coasting
section
variable {X : Type} (G : Geo X) (c : Cfg)

/-- C100 (partial): when the coasting volume is positive and not above the minimal volume, every plan can be written, path by path. A
stretch of extrusion that ends in a wall and has at least the minimal volume is extruded up to a point on it, from which the nozzle goes on
through the remaining points without extruding, and exactly the coasting volume lies behind that point; any other stretch is extruded
entirely. Travels stay travels. The volumes are those without the factors of the line widths: see `C100_width_counterexample`. -/
theorem C100_coasting_partial (hlen : ∀ a b, 0 ≤ G.len a b) (hvol : 0 < c.volume) (hmin : c.volume ≤ c.minVolume) (x : X) (plan : List (Path X))
    (hpoints : ∀ p ∈ plan, p.points ≠ []) (hrate : ∀ p ∈ plan, 0 ≤ p.rate) :
    ∃ out, moves G c x plan = some out ∧ out.length = plan.length ∧
      (∀ (i : Nat) (p : Path X), plan[i]? = some p → p.travel = true → out[i]? = some (p.points.map .travel)) ∧
      ∀ before stretch after, Stretch plan before stretch after →
        let l := segs (endOf x before) stretch
        let o := ((out.drop before.length).take stretch.length).flatten
        ((∃ p, stretch.getLast? = some p ∧ p.wall = true) ∧ c.minVolume ≤ nominal G l → ∃ a s b t, CoastedFrom G l c.volume o a s b t) ∧
        (¬ ((∃ p, stretch.getLast? = some p ∧ p.wall = true) ∧ c.minVolume ≤ nominal G l) → o = extrudeAll l) := by
  obtain ⟨L, hL, hLp⟩ := starts_total x plan hpoints
  have hrateL : ∀ p ∈ L, 0 ≤ p.1.rate := fun p hp => hrate p.1 (by rw [← hLp]; exact List.mem_map_of_mem hp)
  obtain ⟨r, hr, hrl⟩ := chunks_total (G := G) hlen hvol hmin (L.reverse.splitBy together) (fun m hm => List.isChain_of_mem_splitBy hm)
    (fun m hm p hp => hrateL p (by
      have : p ∈ (L.reverse.splitBy together).flatten := List.mem_flatten.2 ⟨m, hm, hp⟩
      rw [List.flatten_splitBy] at this
      simpa using this))
  rw [List.flatten_splitBy] at hrl
  have hlenL : L.length = plan.length := by rw [← hLp, List.length_map]
  have hm : moves G c x plan = some (List.zipWith write plan r.flatten.reverse) := by
    unfold moves
    rw [split_eq x plan hL, hr]
    rfl
  refine ⟨_, hm, ?_, ?_, ?_⟩
  · rw [List.length_zipWith, List.length_reverse, hrl, List.length_reverse, hlenL, Nat.min_self]
  · intro i p hp ht
    have hi : i < plan.length := by
      rw [List.getElem?_eq_some_iff] at hp
      exact hp.1
    have hk : i < r.flatten.reverse.length := by rw [List.length_reverse, hrl, List.length_reverse, hlenL]; exact hi
    rw [List.getElem?_zipWith, hp, List.getElem?_eq_getElem hk]
    simp [write.eq_def, ht]
  · intro before stretch after hS
    have hpl := hS.eq
    subst hpl
    rw [List.append_assoc] at hL
    obtain ⟨B, M, rfl, hB, hM⟩ := starts_append x before (stretch ++ after) (fun p hp => hpoints p (by simp [hp])) hL
    have hps : ∀ p ∈ stretch, p.points ≠ [] := fun p hp => hpoints p (by simp [hp])
    obtain ⟨S, A, rfl, hSm, hA⟩ := starts_append _ stretch after hps hM
    obtain ⟨S', hS', hSm'⟩ := starts_total (endOf x before) stretch hps
    have hSS : S' = S := by
      obtain ⟨A', hA', hAm'⟩ := starts_total (endOf (endOf x before) stretch) after (fun p hp => hpoints p (by simp [hp]))
      clear hA' hAm' A' hrl hlenL hrateL hL hLp hr hm hA hS
      clear hpoints hrate
      generalize endOf x before = y at *
      induction stretch generalizing y S S' with
      | nil =>
        rw [List.map_eq_nil_iff] at hSm hSm'
        rw [hSm, hSm']
      | cons p l ih =>
        have hp := hps p (by simp)
        rw [List.cons_append, starts, List.getLast?_eq_some_getLast hp] at hM
        rw [starts, List.getLast?_eq_some_getLast hp] at hS'
        dsimp only at hM hS'
        rw [Option.map_eq_some_iff] at hM hS'
        obtain ⟨M', m1, m2⟩ := hM
        obtain ⟨N', n1, rfl⟩ := hS'
        cases S with
        | nil => cases hSm
        | cons s S =>
          rw [List.cons_append, List.cons.injEq] at m2
          rw [m2.2] at m1
          simp only [List.map_cons, List.cons.injEq] at hSm hSm'
          rw [ih (fun q hq => hps q (by simp [hq])) S hSm.2 N' hSm'.2 _ m1 n1, m2.1]
    rw [hSS] at hS'
    have hseg := segs_eq (endOf x before) stretch hps hS'
    have map_last : ∀ {l : List (Path X)} {N : List (Path X × X)}, N.map (·.1) = l → ∀ q, N.getLast? = some q → l.getLast? = some q.1 := by
      intro l N h q hq
      rw [← h, List.getLast?_map, hq]
      rfl
    have hSne : S ≠ [] := by
      intro h
      rw [h] at hSm
      exact hS.nonempty hSm.symm
    obtain ⟨kb, ks, ka, r', h1, h2, h3, h4, h5, h6, h7⟩ := coastings_stretch (G := G) hlen hvol hmin B S A hSne
      (fun p hp => hS.extrudes p.1 (by rw [← hSm]; exact List.mem_map_of_mem hp))
      (fun p hp => hS.left p.1 (map_last hB p hp))
      (fun p hp => hS.right p.1 (by
        have hAm : A.map (·.1) = after := by
          simp only [List.map_append, hB, hSm, List.append_assoc, List.append_cancel_left_eq] at hLp
          exact hLp
        rw [← hAm, List.head?_map, hp]
        rfl))
      (fun p hp => hrateL p (by simpa using hp))
    rw [← List.append_assoc] at hr
    have hrr : r' = r := Option.some.inj (h1.symm.trans hr)
    subst hrr
    have ho : ((List.zipWith write (before ++ stretch ++ after) r'.flatten.reverse).drop before.length).take stretch.length =
        List.zipWith (fun p k => write p.1 k) S ks := by
      have hb : before.length = kb.length := by rw [h3, ← hB, List.length_map]
      have hs : stretch.length = ks.length := by rw [h4, ← hSm, List.length_map]
      rw [h2, List.append_assoc, List.append_assoc, List.zipWith_append hb, List.zipWith_append hs]
      rw [List.drop_left' (by rw [List.length_zipWith, ← hb, Nat.min_self]), List.take_left' (by rw [List.length_zipWith, ← hs, Nat.min_self])]
      rw [← hSm, List.zipWith_map_left]
    have hlast : (∃ p, stretch.getLast? = some p ∧ p.wall = true) ↔ ∃ p, S.getLast? = some p ∧ p.1.wall = true := by
      rw [← hSm, List.getLast?_map]
      constructor
      · rintro ⟨p, hp, hw⟩
        rw [Option.map_eq_some_iff] at hp
        obtain ⟨q, hq, rfl⟩ := hp
        exact ⟨q, hq, hw⟩
      · rintro ⟨p, hp, hw⟩
        exact ⟨p.1, by rw [hp]; rfl, hw⟩
    dsimp only
    rw [ho, hseg, hlast]
    exact ⟨h6, h7⟩

/-- C100 (partial): when no line is wider or narrower than its configuration, the material extruded on a stretch with coasting is that of the
stretch less the coasting volume. -/
theorem C100_volume_partial (l a b : List (Seg X)) (v : ℚ) (o : List (Move X)) (s : Seg X) (t : ℚ) (hw : ∀ s ∈ l, s.width = 1)
    (h : CoastedFrom G l v o a s b t) : volume G a + t * (G.len s.src s.dst * (s.rate * s.width)) = volume G l - v := by
  have hv : ∀ m : List (Seg X), (∀ s ∈ m, s.width = 1) → volume G m = nominal G m := by
    intro m hm
    unfold volume nominal
    congr 1
    apply List.map_congr_left
    intro s hs
    rw [hm s hs, mul_one]
  rw [h.eq] at hw
  rw [h.eq, hv (a ++ s :: b) hw, hv a (fun s hs => hw s (by simp [hs])), hw s (by simp), nominal_append]
  have hl := h.left
  have : nominal G (s :: b) = G.len s.src s.dst * s.rate + nominal G b := by simp [nominal]
  rw [this]
  rw [mul_one, ← hl]
  ring

end

/-- Positions on a line. -/
def line : Geo ℚ := ⟨fun a b => if a ≤ b then b - a else a - b, fun a b t => a + (b - a) * t⟩

/-- The volume of what is extruded, from a position on. -/
def extruded : ℚ → List (Move ℚ) → ℚ
  | _, [] => 0
  | x, .extrude d m :: l => line.len x d * m + extruded d l
  | _, .travel d :: l => extruded d l

/-- C100 fails for walls whose lines are wider than configured: with a coasting volume of 1 and lines of twice the width, twice the coasting
volume is left out. -/
theorem C100_width_counterexample :
    (moves line ⟨1, 2⟩ 0 [⟨false, true, 1, 1, [10]⟩]).map (fun o => extruded 0 o.flatten) = some (10 - 1) ∧
    (moves line ⟨1, 2⟩ 0 [⟨false, true, 1, 2, [10]⟩]).map (fun o => extruded 0 o.flatten) = some (20 - 2) := by decide +kernel

/-- C100 fails when the coasting volume is above the minimal volume: a stretch with a volume between them is not extruded at all. -/
theorem C100_minimal_counterexample :
    (moves line ⟨5, 2⟩ 0 [⟨true, false, 0, 1, [10]⟩, ⟨false, true, 1, 1, [13]⟩]).map List.flatten = some [.travel 10, .travel 13] ∧
    (moves line ⟨5, 4⟩ 0 [⟨true, false, 0, 1, [10]⟩, ⟨false, true, 1, 1, [13]⟩]).map List.flatten = some [.travel 10, .extrude 13 1] := by decide +kernel

/-- C100 looks at the end of a stretch only: a wall that goes over into skin is extruded entirely, skin that goes over into a wall coasts. -/
theorem C100_last_counterexample :
    (moves line ⟨1, 2⟩ 0 [⟨false, true, 1, 1, [10]⟩, ⟨false, false, 1, 1, [20]⟩]).map List.flatten = some [.extrude 10 1, .extrude 20 1] ∧
    (moves line ⟨1, 2⟩ 0 [⟨false, false, 1, 1, [10]⟩, ⟨false, true, 1, 1, [10.5]⟩]).map List.flatten =
      some [.extrude 9.5 1, .travel 10, .travel 10.5] := by decide +kernel

end Verif.Coasting
