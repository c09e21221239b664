import Verif.Simplify.Spec
import Mathlib.Data.List.Nodup
import Mathlib.Data.List.Range

/-! # Neighbours by number and by place -/

namespace Verif.Simplify

theorem range_split {n i : Nat} (h : i < n) : List.range n = List.range i ++ i :: List.range' (i + 1) (n - 1 - i) := by
  rw [List.range_eq_range', List.range_eq_range']
  have h1 : i :: List.range' (i + 1) (n - 1 - i) = List.range' i (n - 1 - i + 1) := by rw [List.range'_succ]
  rw [h1]
  have h2 := List.range'_append_1 (s := 0) (m := i) (n := n - 1 - i + 1)
  rw [Nat.zero_add] at h2
  rw [h2]
  congr 1
  omega

theorem next_list {n i : Nat} (h : i < n) :
    ((List.range n).map fun k : Nat => (i + 1 + k) % n) = List.range' (i + 1) (n - 1 - i) ++ (List.range i ++ [i]) := by
  rw [← List.range_succ]
  apply List.ext_getElem
  · simp; omega
  · intro k h1 h2
    simp only [List.length_map, List.length_range] at h1
    rw [List.getElem_map, List.getElem_range, List.getElem_append]
    split
    · rename_i hk
      simp only [List.length_range'] at hk
      rw [List.getElem_range', Nat.mod_eq_of_lt (by omega)]
      omega
    · rename_i hk
      simp only [List.length_range'] at hk
      rw [List.getElem_range, List.length_range', Nat.mod_eq_sub_mod (by omega), Nat.mod_eq_of_lt (by omega)]
      omega

theorem prev_list {n i : Nat} (h : i < n) :
    ((List.range n).map fun k : Nat => (i + n - 1 - k) % n) = (List.range i).reverse ++ ((List.range' (i + 1) (n - 1 - i)).reverse ++ [i]) := by
  rw [← List.reverse_cons, ← List.range'_succ]
  apply List.ext_getElem
  · simp; omega
  · intro k h1 h2
    simp only [List.length_map, List.length_range] at h1
    rw [List.getElem_map, List.getElem_range, List.getElem_append]
    split
    · rename_i hk
      simp only [List.length_reverse, List.length_range] at hk
      rw [List.getElem_reverse, List.getElem_range, Nat.mod_eq_sub_mod (by omega), Nat.mod_eq_of_lt (by omega), List.length_range]
      omega
    · rename_i hk
      simp only [List.length_reverse, List.length_range] at hk
      rw [List.getElem_reverse, List.getElem_range', Nat.mod_eq_of_lt (by omega)]
      simp only [List.length_reverse, List.length_range, List.length_range']
      omega

theorem split_unique {α : Type} {A B A' B' : List α} {i : α} (hn : (A ++ i :: B).Nodup) (h : A ++ i :: B = A' ++ i :: B') : A = A' ∧ B = B' := by
  induction A generalizing A' with
  | nil =>
    cases A' with
    | nil => simpa using h
    | cons a A' =>
      simp only [List.nil_append, List.cons_append, List.cons.injEq] at h
      obtain ⟨rfl, h2⟩ := h
      simp [h2] at hn
  | cons a A ih =>
    cases A' with
    | nil =>
      simp only [List.nil_append, List.cons_append, List.cons.injEq] at h
      obtain ⟨rfl, h2⟩ := h
      simp at hn
    | cons b A' =>
      simp only [List.cons_append, List.cons.injEq] at h
      obtain ⟨rfl, h2⟩ := h
      have := ih (List.nodup_cons.mp hn).2 h2
      exact ⟨by rw [this.1], this.2⟩

section
variable {V : Type} {n : Nat}

theorem alive_nodup (s : St V) : (alive n s).Nodup := List.nodup_range.filter _

theorem mem_alive {s : St V} {i : Nat} : i ∈ alive n s ↔ i < n ∧ s.del i = false := by simp [alive]

theorem alive_split {s : St V} {i : Nat} {A B : List Nat} (h : alive n s = A ++ i :: B) :
    A = (List.range i).filter (fun j => !s.del j) ∧ B = (List.range' (i + 1) (n - 1 - i)).filter fun j => !s.del j := by
  have hi : i ∈ alive n s := by rw [h]; simp
  obtain ⟨h1, h2⟩ := mem_alive.mp hi
  have hn := alive_nodup (n := n) s
  have e : alive n s = (List.range i).filter (fun j => !s.del j) ++ i :: (List.range' (i + 1) (n - 1 - i)).filter fun j => !s.del j := by
    unfold alive
    rw [range_split h1, List.filter_append, List.filter_cons]
    simp [h2]
  rw [e] at hn
  have := split_unique hn (e.symm.trans h)
  exact ⟨this.1.symm, this.2.symm⟩

theorem headD_append_single {α : Type} (l : List α) (a : α) : (l ++ [a]).head? = some (l.headD a) := by cases l <;> rfl

theorem next_eq {s : St V} {i : Nat} {A B : List Nat} (h : alive n s = A ++ i :: B) : next n s.del i = some ((B ++ A).headD i) := by
  have hi : i ∈ alive n s := by rw [h]; simp
  obtain ⟨h1, h2⟩ := mem_alive.mp hi
  obtain ⟨hA, hB⟩ := alive_split h
  unfold next
  rw [← List.head?_filter, next_list h1, List.filter_append, List.filter_append, ← hA, ← hB]
  simp only [List.filter_cons, h2, Bool.not_false, if_true, List.filter_nil]
  rw [← List.append_assoc, headD_append_single]

theorem headD_reverse {α : Type} (l : List α) (a : α) : l.reverse.headD a = l.getLastD a := by
  rcases List.eq_nil_or_concat l with rfl | ⟨l, b, rfl⟩
  · rfl
  · simp [List.getLastD_eq_getLast?]

theorem prev_eq {s : St V} {i : Nat} {A B : List Nat} (h : alive n s = A ++ i :: B) : prev n s.del i = some ((B ++ A).getLastD i) := by
  have hi : i ∈ alive n s := by rw [h]; simp
  obtain ⟨h1, h2⟩ := mem_alive.mp hi
  obtain ⟨hA, hB⟩ := alive_split h
  unfold prev
  rw [← List.head?_filter, prev_list h1, List.filter_append, List.filter_append, List.filter_reverse, List.filter_reverse, ← hA, ← hB]
  simp only [List.filter_cons, h2, Bool.not_false, if_true, List.filter_nil]
  rw [← List.append_assoc, ← List.reverse_append, headD_append_single, headD_reverse]

theorem getLastD_cons_ne {α : Type} (a b c : α) (l : List α) : (a :: l).getLastD b = (a :: l).getLastD c := by
  rw [List.getLastD_cons, List.getLastD_cons]

theorem prev_prev {s : St V} {i : Nat} {A B : List Nat} (h : alive n s = A ++ i :: B) :
    prev n s.del ((B ++ A).getLastD i) = some ((i :: (B ++ A).dropLast).getLastD i) := by
  rcases List.eq_nil_or_concat A with rfl | ⟨A0, b, rfl⟩
  · rw [List.append_nil]
    rcases List.eq_nil_or_concat B with rfl | ⟨B0, b, rfl⟩
    · simpa using prev_eq h
    · have e : alive n s = (i :: B0) ++ b :: [] := by rw [h]; simp
      have := prev_eq e
      rw [List.concat_eq_append]
      have h1 : (B0 ++ [b]).getLastD i = b := by simp [List.getLastD_eq_getLast?]
      rw [h1, this, List.dropLast_concat, List.nil_append, getLastD_cons_ne]
  · have e : alive n s = A0 ++ b :: (i :: B) := by rw [h]; simp
    have := prev_eq e
    rw [List.concat_eq_append]
    have h1 : (B ++ (A0 ++ [b])).getLastD i = b := by simp [List.getLastD_eq_getLast?]
    rw [h1, this, ← List.append_assoc, List.dropLast_concat, List.cons_append, getLastD_cons_ne]

theorem next_next {s : St V} {i : Nat} {A B : List Nat} (h : alive n s = A ++ i :: B) :
    next n s.del ((B ++ A).headD i) = some (((B ++ A).tail ++ [i]).headD i) := by
  cases B with
  | nil =>
    cases A with
    | nil => simpa using next_eq h
    | cons a A =>
      have e : alive n s = [] ++ a :: (A ++ [i]) := by rw [h]; simp
      have := next_eq e
      simp only [List.nil_append, List.headD_cons, List.tail_cons]
      rw [this, List.append_nil]
      cases A <;> rfl
  | cons b B =>
    have e : alive n s = (A ++ [i]) ++ b :: B := by rw [h]; simp
    have := next_eq e
    simp only [List.cons_append, List.headD_cons, List.tail_cons]
    rw [this, ← List.append_assoc]
    congr 1
    cases B <;> cases A <;> rfl

/-! ## Paths -/

def lab (s : St V) (j : Nat) : Nat × V := (j, s.poly j)

def path (n : Nat) (s : St V) : Path V := (alive n s).map (lab s)

theorem map_headD {α β : Type} (f : α → β) (l : List α) (a : α) : (l.map f).headD (f a) = f (l.headD a) := by cases l <;> rfl

theorem map_getLastD {α β : Type} (f : α → β) (l : List α) (a : α) : (l.map f).getLastD (f a) = f (l.getLastD a) := by
  rw [← headD_reverse, ← headD_reverse, ← List.map_reverse, map_headD]

theorem nextOf_map (s : St V) (A B : List Nat) (i : Nat) : nextOf (A.map (lab s)) (lab s i) (B.map (lab s)) = lab s ((B ++ A).headD i) := by
  unfold nextOf
  rw [← List.map_append, map_headD]

theorem prevOf_map (s : St V) (A B : List Nat) (i : Nat) : prevOf (A.map (lab s)) (lab s i) (B.map (lab s)) = lab s ((B ++ A).getLastD i) := by
  unfold prevOf
  rw [← List.map_append, map_getLastD]

theorem nextNextOf_map (s : St V) (A B : List Nat) (i : Nat) :
    nextNextOf (A.map (lab s)) (lab s i) (B.map (lab s)) = lab s (((B ++ A).tail ++ [i]).headD i) := by
  unfold nextNextOf
  rw [← List.map_append, ← List.map_tail, ← List.map_singleton (f := lab s), ← List.map_append, map_headD]

theorem prevPrevOf_map (s : St V) (A B : List Nat) (i : Nat) :
    prevPrevOf (A.map (lab s)) (lab s i) (B.map (lab s)) = lab s ((i :: (B ++ A).dropLast).getLastD i) := by
  unfold prevPrevOf
  rw [← List.map_append, ← List.map_dropLast, ← List.map_cons, map_getLastD]

theorem split_path {s : St V} {l r : Path V} {v : Nat × V} (h : path n s = l ++ v :: r) :
    ∃ A B, alive n s = A ++ v.1 :: B ∧ l = A.map (lab s) ∧ v = lab s v.1 ∧ r = B.map (lab s) := by
  unfold path at h
  rw [List.map_eq_append_iff] at h
  obtain ⟨A, B', e, h1, h2⟩ := h
  rw [List.map_eq_cons_iff] at h2
  obtain ⟨i, B, rfl, h3, h4⟩ := h2
  subst h3
  exact ⟨A, B, e, h1.symm, rfl, h4.symm⟩

theorem alive_drop {s : St V} {i : Nat} {A B : List Nat} (h : alive n s = A ++ i :: B) : alive n (s.drop i) = A ++ B := by
  have hn := alive_nodup (n := n) s
  have e : alive n (s.drop i) = (alive n s).filter (fun j => decide (j ≠ i)) := by
    unfold alive St.drop
    rw [List.filter_filter]
    apply List.filter_congr
    intro j _
    by_cases hj : j = i
    · subst hj; simp
    · simp [hj]
  rw [e, h, List.filter_append, List.filter_cons]
  rw [h] at hn
  simp only [ne_eq, not_true, decide_false, Bool.false_eq_true, if_false]
  rw [List.nodup_append] at hn
  rw [List.filter_eq_self.mpr, List.filter_eq_self.mpr]
  · intro a ha
    simp only [decide_not, Bool.not_eq_eq_eq_not, Bool.not_true, decide_eq_false_iff_not]
    rintro rfl
    exact (List.nodup_cons.mp hn.2.1).1 ha
  · intro a ha
    simp only [decide_not, Bool.not_eq_eq_eq_not, Bool.not_true, decide_eq_false_iff_not]
    rintro rfl
    exact hn.2.2 a ha a (by simp) rfl

theorem path_drop {s : St V} {i : Nat} {A B : List Nat} (h : alive n s = A ++ i :: B) : path n (s.drop i) = A.map (lab s) ++ B.map (lab s) := by
  unfold path
  rw [alive_drop h, List.map_append]
  rfl

theorem path_move (s : St V) (j : Nat) (v : V) : path n (s.move j v) = replace (path n s) j v := by
  unfold path replace
  rw [List.map_map]
  have : alive n (s.move j v) = alive n s := rfl
  rw [this]
  apply List.map_congr_left
  intro k _
  simp only [Function.comp, lab, St.move]
  by_cases hk : k = j
  · subst hk; simp
  · simp [hk]

end
end Verif.Simplify
