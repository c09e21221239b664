import Verif.Walls.InsetLemmas
import Verif.Order.Props

/-! # The order of walls: C106 -/

namespace Verif.Walls

open Verif.Order (Pt Edges)

variable {S : Shapes} {ws : List Wall} {env : Order.Env}

/-- C106: which walls an extruder prints. `paths` are grouped by inset. With one extruder for all walls it prints each of them once, otherwise the
extruder of the inner walls those and the other one the outer walls. Empty walls are left out. -/
theorem C106_walls (one isX outerToInner : Bool) {paths : List (List Wall)} (hg : ∀ (k : Nat) (l : List Wall), paths[k]? = some l → ∀ w ∈ l, w.inset = k) :
    (wallsToBeAdded (shouldReverse one isX outerToInner) one paths).Perm
      (paths.flatten.filter fun w => w.junctions ≠ [] ∧ (one = true ∨ (isX = true ↔ w.inset ≠ 0))) := by
  have h0 : (fun w : Wall => !w.junctions.isEmpty) = fun w : Wall => decide (w.junctions ≠ []) := by
    funext w; cases w.junctions <;> rfl
  unfold wallsToBeAdded shouldReverse
  rw [h0]
  cases one
  · have hrest : ∀ (q : List (List Wall)) (c : Nat), (∀ (k : Nat) (l : List Wall), q[k]? = some l → ∀ w ∈ l, w.inset = c + 1 + k) → ∀ w ∈ q.flatten, w.inset ≠ 0 := by
      intro q c hq w hw
      obtain ⟨l, hl, hwl⟩ := List.mem_flatten.mp hw
      obtain ⟨k, hk⟩ := List.mem_iff_getElem?.mp hl
      have := hq k l hk w hwl
      omega
    cases paths with
    | nil => cases isX <;> simp
    | cons p q =>
      have hp : ∀ w ∈ p, w.inset = 0 := hg 0 p rfl
      have hq : ∀ w ∈ q.flatten, w.inset ≠ 0 := hrest q 0 (fun k l h w hw => by have := hg (k + 1) l h w hw; omega)
      cases isX
      · simp only [Bool.false_and, Bool.false_eq_true, if_false, false_iff, not_not, List.flatten_cons, List.filter_append, List.take_succ_cons,
          List.take_zero, List.flatten_nil, List.append_nil, false_or]
        have e1 : (q.flatten.filter fun w => decide (w.junctions ≠ [] ∧ w.inset = 0)) = [] := by
          rw [List.filter_eq_nil_iff]; intro w hw; simp [hq w hw]
        have e2 : (p.filter fun w => decide (w.junctions ≠ [] ∧ w.inset = 0)) = p.filter fun w => decide (w.junctions ≠ []) := by
          apply List.filter_congr; intro w hw; simp [hp w hw]
        rw [e1, e2, List.append_nil]
      · simp only [Bool.false_and, Bool.false_eq_true, if_false, if_true, true_iff, List.flatten_cons, List.filter_append, false_or]
        have e1 : (p.filter fun w => decide (w.junctions ≠ [] ∧ w.inset ≠ 0)) = [] := by
          rw [List.filter_eq_nil_iff]; intro w hw; simp [hp w hw]
        have e2 : (q.flatten.filter fun w => decide (w.junctions ≠ [] ∧ w.inset ≠ 0)) = q.flatten.filter fun w => decide (w.junctions ≠ []) := by
          apply List.filter_congr; intro w hw; simp [hq w hw]
        rw [e1, e2, List.nil_append, List.reverse_cons, List.dropLast_concat]
        exact (List.Perm.flatten (List.reverse_perm q)).filter _
  · simp only [Bool.true_and, if_true, true_or, and_true]
    have h : ∀ b : Bool, (List.filter (fun w : Wall => decide (w.junctions ≠ [])) (if b = true then paths.reverse else paths).flatten).Perm
        (List.filter (fun w => decide (w.junctions ≠ [])) paths.flatten) := by
      rintro (- | -)
      · exact List.Perm.refl _
      · exact (List.Perm.flatten (List.reverse_perm paths)).filter _
    cases isX <;> exact h _

/-- C106, with `optimize_wall_printing_order` off: every wall is printed once. If one wall is further inside than another, by number of inset and with
a wall of each inset in between, they are printed in the direction that is set. A filler is printed after the walls of the inset before its own. -/
theorem C106_inset (hs : env.Sane) (hw : AreWalls env ws) (nb : Nat → List Nat) (outerToInner : Bool) {fuel : Nat} (hf : env.paths.length < fuel) :
    ∃ es out, requirements nb ws true outerToInner = some es ∧ Order.optimize env es fuel = .ok out ∧ Order.EachOnce env out ∧
      (∀ i j u v, ws[i]? = some u → ws[j]? = some v → u.odd = false → v.odd = false → u.inset < v.inset →
        (∀ k, u.inset < k → k < v.inset → HasInset ws k) → InDirection outerToInner (env.printed out) i j) ∧
      ∀ i j u v, ws[i]? = some u → ws[j]? = some v → u.odd = false → v.odd = true → v.inset = u.inset + 1 → Before (env.printed out) i j := by
  have hab : Order.About env (insetOrder ws outerToInner) := by
    apply about_of hw
    rintro ⟨a, b⟩ he
    rcases mem_insetOrder.mp he with ⟨i, j, u, v, h, hu, hv, -⟩ | ⟨u, v, hu, hv, -⟩
    · have h1 := (List.getElem?_eq_some_iff.mp hu).1
      have h2 := (List.getElem?_eq_some_iff.mp hv).1
      unfold edge at h
      split at h <;> simp only [Prod.mk.injEq] at h <;> omega
    · exact ⟨(List.getElem?_eq_some_iff.mp hu).1, (List.getElem?_eq_some_iff.mp hv).1⟩
  obtain ⟨out, h1, h2, h3, -⟩ := Order.C29_required hs hw.2 hab (insetOrder_acyclic outerToInner) fuel hf
  refine ⟨_, out, rfl, h1, h2, ?_, ?_⟩
  · intro i j u v hu hv hu1 hv1 hlt hk
    refine direction_chain (ws := ws) ?_ (v.inset - u.inset - 1) i j u v hu hv hu1 hv1 (by omega) hk
    intro i j u v hu hv hu1 hv1 hi
    refine respects_direction h3 ?_
    exact mem_insetOrder.mpr (Or.inl ⟨i, j, u, v, rfl, hu, hv, hu1, hv1, hi⟩)
  · intro i j u v hu hv hu1 hv1 hi
    exact h3 i j (mem_insetOrder.mpr (Or.inr ⟨u, v, hu, hv, hu1, hv1, hi⟩))

/-- C106, with `optimize_wall_printing_order` on: every wall is printed once. Take a wall from which an outer wall can be reached by steps between
walls next to each other, and which is not an outer wall itself. It is printed in the direction that is set with respect to one of the walls next to
it that are one step closer to the outer walls. Nothing is required of other pairs of walls. `nb` is the order in which a hash map yields its
elements, which is not known. -/
theorem C106_region (hs : env.Sane) (hw : AreWalls env ws) {nb : Nat → List Nat} (hnb : ∀ v, (nb v).Perm (neighbours (nest S ws).pairs v))
    (outerToInner : Bool) {fuel : Nat} (hf : env.paths.length < fuel) :
    ∃ es out, requirements nb ws false outerToInner = some es ∧ Order.optimize env es fuel = .ok out ∧ Order.EachOnce env out ∧
      (∀ d v, Depth S ws (d + 1) v → ∃ u, Depth S ws d u ∧ NextTo S ws u v ∧ InDirection outerToInner (env.printed out) u v) ∧
      ∀ a b, (a, b) ∈ es → NextTo S ws a b := by
  obtain ⟨es, h1, h2, h3⟩ := regionOrder_spec hnb outerToInner
  have hnext : ∀ a b, (a, b) ∈ es → NextTo S ws a b := by
    intro a b he
    obtain ⟨d, u, v, h, hn, -⟩ := h2 _ he
    unfold edge at h
    split at h <;> simp only [Prod.mk.injEq] at h <;> obtain ⟨rfl, rfl⟩ := h
    · exact hn
    · exact Or.symm hn
  have hab : Order.About env es := by
    apply about_of hw
    rintro ⟨a, b⟩ he
    have h := hnext a b he
    exact ⟨adj_lt (S := S) (v := b) (Or.symm h), adj_lt (S := S) (v := a) h⟩
  obtain ⟨out, h4, h5, h6, -⟩ := Order.C29_required hs hw.2 hab (region_acyclic h2) fuel hf
  refine ⟨es, out, h1, h4, h5, ?_, hnext⟩
  intro d v hv
  obtain ⟨u, hu, hn, he⟩ := h3 d v hv
  exact ⟨u, hu, hn, respects_direction h6 he⟩

/-- C106: the direction in which a wall is followed is turned around if walls alternate and exactly one of its inset and the layer is odd, otherwise
it is as planned. An open wall that was to be started at one of its ends is still. -/
theorem C106_alternate (alternate : Bool) (layer : Int) (w : Wall) (start : Nat) (backwards : Bool) :
    ((placed alternate layer w start backwards).2 ≠ backwards ↔ alternate = true ∧ ¬(w.inset % 2 = 0 ↔ layer % 2 = 0)) ∧
    ((placed alternate layer w start backwards).2 = backwards → (placed alternate layer w start backwards).1 = start) ∧
    ((start = 0 ∧ backwards = false ∨ start = w.junctions.length - 1 ∧ backwards = true) → w.junctions ≠ [] →
      ((placed alternate layer w start backwards).1 = 0 ∧ (placed alternate layer w start backwards).2 = false ∨
        (placed alternate layer w start backwards).1 = w.junctions.length - 1 ∧ (placed alternate layer w start backwards).2 = true)) := by
  have hl : layer.tmod 2 ≠ 0 ↔ layer % 2 ≠ 0 := by
    rw [ne_eq, ne_eq, ← Int.dvd_iff_tmod_eq_zero, ← Int.dvd_iff_emod_eq_zero]
  have hle : w.junctions ≠ [] → 0 < w.junctions.length := List.length_pos_iff.mpr
  unfold placed
  by_cases h1 : w.inset % 2 = 0 <;> by_cases h2 : layer % 2 = 0 <;>
    simp only [h1, hl, h2, ne_eq, not_true, not_false_eq_true, decide_true, decide_false, Bool.and_true, Bool.and_false, iff_true, iff_false] <;>
    cases alternate <;> cases backwards <;> simp <;> omega

/-- C106: the place for the seam is a junction of the wall: one that was there within 5 µm, or a new one exactly there, on the segment it was found
on. The other junctions stay, and there is no division by zero when the place is not farther from the start of the segment than its end is. -/
theorem C106_seam {js : List Junction} {i : Nat} {q : Pt} {a b : Junction} (ha : js[i]? = some a) (hb : js[(i + 1) % js.length]? = some b)
    (hq : dist2 q a.p ≤ dist2 b.p a.p) :
    ∃ out k j, insertSeam js i q = some (out, k) ∧ out[k]? = some j ∧
      ((out = js ∧ dist2 q j.p ≤ 25 ∧ (k = i ∨ k = (i + 1) % js.length)) ∨
        (j.p = q ∧ k = i + 1 ∧ out.take k = js.take k ∧ out.drop (k + 1) = js.drop k ∧ 25 < dist2 q a.p ∧ 25 < dist2 q b.p)) := by
  have hi : i < js.length := (List.getElem?_eq_some_iff.mp ha).1
  unfold insertSeam
  rw [ha, hb]
  dsimp only [Option.bind_some]
  by_cases h1 : dist2 q a.p ≤ 25
  · rw [if_pos h1]
    exact ⟨js, i, a, rfl, ha, Or.inl ⟨rfl, h1, Or.inl rfl⟩⟩
  · rw [if_neg h1]
    by_cases h2 : dist2 q b.p ≤ 25
    · rw [if_pos h2]
      exact ⟨js, _, b, rfl, hb, Or.inl ⟨rfl, h2, Or.inr rfl⟩⟩
    · rw [if_neg h2]
      have hz : size b.p a.p ≠ 0 := by
        unfold size Simplify.roundSqrt
        have h3 : 25 < (dist2 b.p a.p).toNat := by omega
        have h4 : 5 ≤ Nat.sqrt (dist2 b.p a.p).toNat := by
          rw [Nat.le_sqrt]; omega
        split <;> omega
      rw [if_neg hz]
      refine ⟨_, _, ⟨q, (b.w * size q b.p).tdiv (size b.p a.p) + (a.w * size q a.p).tdiv (size b.p a.p)⟩, rfl, ?_, Or.inr ⟨rfl, rfl, ?_, ?_, by omega, by omega⟩⟩
      · rw [List.getElem?_insertIdx_self, if_pos (by omega)]
      · exact List.take_insertIdx_eq_take_of_le _ _ _ _ (le_refl _)
      · apply List.ext_getElem?
        intro n
        rw [List.getElem?_drop, List.getElem?_drop, List.getElem?_insertIdx_of_gt (by omega)]
        congr 1
        omega

end Verif.Walls
