import Verif.Ooze.RouteLemmas

namespace Verif.Ooze
section
variable {X : Type}

theorem get_mid {α : Type} (a : List α) (x : α) (b : List α) : (a ++ x :: b)[a.length]? = some x := by
  simp

theorem write_none (points : List X) (R P : Split X) (done rest : List X) (h : points = done ++ rest) :
    writeFrom points R P false rest.length done.length .none = some (rest.map (.move · none)) := by
  induction rest generalizing done with
  | nil => rfl
  | cons x rest ih =>
    have hx : points[done.length]? = some x := by rw [h]; exact get_mid done x rest
    rw [List.length_cons, writeFrom, writeSegment, hx]
    have := ih (done ++ [x]) (by rw [h]; simp)
    rw [show (done ++ [x]).length = done.length + 1 by simp] at this
    simp only [Option.map_some, Option.bind_some, this, Bool.false_and, Bool.false_eq_true, if_false, List.nil_append, List.map_cons, List.singleton_append]

theorem write_priming (points : List X) (R P : Split X) (done rest : List X) (h : points = done ++ rest) (hP : rest.length ≤ P.bySegment.length) :
    writeFrom points R P false rest.length done.length .priming =
      some (List.zipWith (fun x t => .move x (some t)) rest (P.bySegment.take rest.length).reverse) := by
  induction rest generalizing done with
  | nil => rfl
  | cons x rest ih =>
    have hx : points[done.length]? = some x := by rw [h]; exact get_mid done x rest
    have hi : points.length - 1 - done.length = rest.length := by rw [h, List.length_append, List.length_cons]; omega
    have hlt : rest.length < P.bySegment.length := by rw [List.length_cons] at hP; omega
    rw [List.length_cons, writeFrom, writeSegment, writePriming, hx, hi, List.getElem?_eq_getElem hlt]
    have := ih (done ++ [x]) (by rw [h]; simp) (by omega)
    rw [show (done ++ [x]).length = done.length + 1 by simp] at this
    simp only [Option.map_some, Option.bind_some, this, Bool.false_and, Bool.false_eq_true, if_false, List.nil_append, List.singleton_append]
    rw [List.take_succ_eq_append_getElem hlt, List.reverse_append, List.reverse_singleton, List.singleton_append, List.zipWith_cons_cons]

theorem write_travelling (points : List X) (R P : Split X) (done b c : List X) (h : points = done ++ b ++ c) (hP : c.length = P.bySegment.length)
    (hc : c ≠ []) :
    writeFrom points R P false (b ++ c).length done.length .travelling =
      some (b.map (.move · none) ++ .move P.position none :: List.zipWith (fun x t => .move x (some t)) c P.bySegment.reverse) := by
  induction b generalizing done with
  | nil =>
    cases c with
    | nil => exact absurd rfl hc
    | cons x rest =>
      rw [List.append_nil] at h
      have hx : points[done.length]? = some x := by rw [h]; exact get_mid done x rest
      have hi : points.length - 1 - done.length = rest.length := by rw [h, List.length_append, List.length_cons]; omega
      have hlt : rest.length < P.bySegment.length := by rw [List.length_cons] at hP; omega
      rw [List.nil_append, List.length_cons, writeFrom, writeSegment, writeTravelling, hi, if_pos (by rw [← hP, List.length_cons]), writePriming, hx, hi,
        List.getElem?_eq_getElem hlt]
      have := write_priming points R P (done ++ [x]) rest (by rw [h]; simp) (by omega)
      rw [show (done ++ [x]).length = done.length + 1 by simp] at this
      simp only [Option.map_some, Option.bind_some, this, Bool.false_and, Bool.false_eq_true, if_false, List.nil_append, List.map_nil, List.cons_append]
      have e : P.bySegment = P.bySegment.take (rest.length + 1) := by rw [List.take_of_length_le]; rw [← hP, List.length_cons]
      conv_rhs => rw [e, List.take_succ_eq_append_getElem hlt, List.reverse_append, List.reverse_singleton, List.singleton_append, List.zipWith_cons_cons]
  | cons x b ih =>
    have hx : points[done.length]? = some x := by
      rw [h, List.append_assoc, List.cons_append]
      exact get_mid done x _
    have hi : points.length - 1 - done.length + 1 ≠ P.bySegment.length := by
      rw [h, ← hP]
      simp
      have : 0 < c.length := List.length_pos_of_ne_nil hc
      omega
    rw [List.cons_append, List.length_cons, writeFrom, writeSegment, writeTravelling, if_neg hi, hx]
    have := ih (done ++ [x]) (by rw [h]; simp)
    rw [show (done ++ [x]).length = done.length + 1 by simp] at this
    simp only [Option.map_some, Option.bind_some, this, Bool.false_and, Bool.false_eq_true, if_false, List.nil_append, List.map_cons, List.cons_append]

theorem write_retracting (points : List X) (R P : Split X) (done a b c : List X) (before : List ℚ) (ra : List ℚ) (top : ℚ) (h : points = done ++ a ++ b ++ c)
    (hP : c.length = P.bySegment.length) (hc : c ≠ []) (hR : R.bySegment = before ++ ra ++ [top]) (hb : before.length = done.length) (hra : ra.length = a.length) :
    writeFrom points R P false (a ++ b ++ c).length done.length .retracting =
      some (List.zipWith (fun x t => .move x (some t)) a ra ++ .move R.position (some top) ::
        (b.map (.move · none) ++ .move P.position none :: List.zipWith (fun x t => .move x (some t)) c P.bySegment.reverse)) := by
  induction a generalizing done before ra with
  | nil =>
    have hra' : ra = [] := List.eq_nil_of_length_eq_zero hra
    subst hra'
    rw [List.append_nil] at h hR
    have ht := write_travelling points R P done b c h hP hc
    obtain ⟨n, hn⟩ : ∃ n, (b ++ c).length = n + 1 := by
      have : 0 < c.length := List.length_pos_of_ne_nil hc
      exact ⟨b.length + c.length - 1, by simp; omega⟩
    rw [List.nil_append]
    rw [hn] at ht ⊢
    rw [writeFrom] at ht ⊢
    simp only [writeSegment] at ht ⊢
    have hl : done.length + 1 = R.bySegment.length := by rw [hR]; simp [hb]
    have hg : R.bySegment[done.length]? = some top := by
      rw [hR, ← hb]
      exact get_mid before top []
    rw [writeRetracting, if_pos hl, hg, Option.bind_some]
    cases hw : writeTravelling points P done.length with
    | none => rw [hw] at ht; cases ht
    | some r =>
      rw [hw, Option.bind_some] at ht
      rw [Option.map_some, Option.bind_some]
      dsimp only at ht ⊢
      cases hf : writeFrom points R P false n (done.length + 1) r.1 with
      | none => rw [hf] at ht; cases ht
      | some rest =>
        rw [hf, Option.map_some] at ht
        rw [Option.map_some]
        simp only [Bool.false_and, Bool.false_eq_true, if_false, List.nil_append, List.zipWith_nil_left, List.cons_append, Option.some.injEq] at ht ⊢
        rw [ht]
  | cons x a ih =>
    cases ra with
    | nil => cases hra
    | cons r ra =>
      have hx : points[done.length]? = some x := by
        rw [h, List.append_assoc, List.append_assoc, List.cons_append]
        exact get_mid done x _
      have hg : R.bySegment[done.length]? = some r := by
        rw [hR, ← hb, List.append_assoc]
        exact get_mid before r _
      have hl : done.length + 1 ≠ R.bySegment.length := by rw [hR]; simp [hb]
      rw [List.cons_append, List.cons_append, List.length_cons, writeFrom, writeSegment, writeRetracting, if_neg hl, hx, hg]
      have := ih (done ++ [x]) (before ++ [r]) ra (by rw [h]; simp) (by rw [hR]; simp) (by simp [hb]) (by simpa using hra)
      rw [show (done ++ [x]).length = done.length + 1 by simp] at this
      simp only [Option.map_some, Option.bind_some, this, Bool.false_and, Bool.false_eq_true, if_false, List.nil_append, List.zipWith_cons_cons, List.cons_append]

end
end Verif.Ooze
