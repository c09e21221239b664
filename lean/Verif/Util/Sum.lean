/-! # Sums over lists: helper lemmas -/

namespace Verif.Util

theorem sum_set {α : Type} (f : α → Nat) (l : List α) (k : Nat) (old new : α) (h : l[k]? = some old) :
    ((l.set k new).map f).sum + f old = (l.map f).sum + f new := by
  induction l generalizing k with
  | nil => simp at h
  | cons a l ih =>
    cases k with
    | zero => simp at h; subst h; simp; omega
    | succ k => simp at h; have := ih k h; simp only [List.set_cons_succ, List.map_cons, List.sum_cons]; omega

theorem le_sum_of_getElem? {α : Type} (f : α → Nat) (l : List α) (k : Nat) (x : α) (h : l[k]? = some x) :
    f x ≤ (l.map f).sum := by
  induction l generalizing k with
  | nil => simp at h
  | cons a l ih =>
    cases k with
    | zero => simp at h; subst h; simp
    | succ k => simp at h; have := ih k h; simp; omega

theorem exists_of_sum_pos {α : Type} (f : α → Nat) (l : List α) (h : 0 < (l.map f).sum) :
    ∃ (k : Nat) (x : α), l[k]? = some x ∧ 0 < f x := by
  induction l with
  | nil => simp at h
  | cons a l ih =>
    by_cases ha : 0 < f a
    · exact ⟨0, a, rfl, ha⟩
    · obtain ⟨k, x, h1, h2⟩ := ih (by simp at h; omega)
      exact ⟨k + 1, x, h1, h2⟩

theorem sum_map_eq_zero {α : Type} (f : α → Nat) (l : List α) (h : ∀ x ∈ l, f x = 0) : (l.map f).sum = 0 := by
  induction l with
  | nil => rfl
  | cons a l ih =>
    simp only [List.map_cons, List.sum_cons, h a (List.mem_cons_self ..),
      ih (fun x hx => h x (List.mem_cons_of_mem _ hx))]

end Verif.Util
