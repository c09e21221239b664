import Verif.Monotonic.Spec

/-! # Sequences of lines whose ends do not touch -/

namespace Verif.Monotonic

/-- The lines behind a line in a list. -/
def behind (ids : List Nat) (i : Nat) : List Nat := (ids.dropWhile (· ≠ i)).drop 1

theorem behind_append {P Q : List Nat} {i : Nat} (h : (P ++ i :: Q).Nodup) : behind (P ++ i :: Q) i = Q := by
  unfold behind
  have hp : ∀ x ∈ P, x ≠ i := by
    intro x hx he
    subst he
    rw [List.nodup_append] at h
    exact h.2.2 x hx x (by simp) rfl
  rw [List.dropWhile_append_of_pos (by simpa using hp)]
  simp

/-- The ends of different lines do not touch. -/
def ApartIds (path : Nat → Path) (ids : List Nat) : Prop :=
  ∀ i ∈ ids, ∀ j ∈ ids, i ≠ j → ∀ p ∈ [(path i).front, (path i).back], ∀ q ∈ [(path j).front, (path j).back], 100 ≤ dist2 p q

section
variable {c : Config} {path : Nat → Path} {ids : List Nat} {d : Int}

theorem findNear_none (hf : Fair c) (ha : ApartIds path ids) {i : Nat} (hi : i ∈ ids) {p : Pt} (hp : p ∈ [(path i).front, (path i).back]) :
    findNear c (endpoints path ids) (set (fun _ => .unknown) i .first) p = none := by
  unfold findNear
  rw [List.find?_eq_none]
  intro x hx
  have hx := hf.2 _ _ _ hx
  unfold endpoints at hx
  rw [List.mem_flatMap] at hx
  obtain ⟨j, hj, hx⟩ := hx
  rw [decide_eq_true_eq, not_and]
  intro hs
  have hne : x.1 ≠ i := by
    intro he
    unfold set at hs
    rw [if_pos he] at hs
    cases hs
  have hxj : x.1 = j ∧ x.2 ∈ [(path j).front, (path j).back] := by
    simp only [List.mem_cons, List.not_mem_nil, or_false] at hx ⊢
    rcases hx with rfl | rfl
    · exact ⟨rfl, .inl rfl⟩
    · exact ⟨rfl, .inr rfl⟩
  have := ha j hj i hi (hxj.1 ▸ hne) x.2 hxj.2 p hp
  omega

theorem follow_none (ends : List (Nat × Pt)) (fwd : Bool) (n : Nat) (st : Nat → Start) (p : Pt) :
    follow c path ends fwd n none st p = ([], st, p) := by
  cases n <;> rfl

theorem findString_single (hf : Fair c) (ha : ApartIds path ids) {i : Nat} (hi : i ∈ ids) :
    findString c path ids i (fun _ => .unknown) = ([i], fun _ => .unknown) := by
  have h1 := findNear_none hf ha hi (p := (path i).front) (by simp)
  have h2 := findNear_none hf ha hi (p := (path i).back) (by simp)
  unfold findString
  dsimp only
  rw [h1, h2, follow_none, follow_none]
  dsimp only [List.reverse_nil, List.nil_append]
  generalize decide (project c.v (path i).back < project c.v (path i).front) = b
  cases b
  all_goals
    simp only [Bool.false_eq_true, if_false, if_true, List.reverse_singleton, List.length_singleton]
    congr 1
    funext j
    by_cases hj : j = i
    · simp [set, hj]
    · simp [set, hj, flipAll]

theorem overlapping_subset {i : Nat} {rest : List Nat} {j : Nat} (h : j ∈ overlapping c path d i rest) : j ∈ rest := by
  unfold overlapping at h
  exact (List.takeWhile_sublist _).subset (List.mem_of_mem_filter h)

/-- The lines next to a line, behind it in the list. -/
def ov (c : Config) (path : Nat → Path) (ids : List Nat) (d : Int) (i : Nat) : List Nat := overlapping c path d i (behind ids i)

/-- What holds after some of the lines. -/
structure LInv (c : Config) (path : Nat → Path) (ids : List Nat) (d : Int) (P : List Nat) (l : Links) : Prop where
  st : l.st = fun _ => .unknown
  next : ∀ i j, l.next i = some j ↔ i ∈ P ∧ ov c path ids d i = [j]
  conn : ∀ j, j ∈ l.connected ↔ ∃ i ∈ P, ov c path ids d i = [j]
  start : ∀ j, j ∈ l.starting ↔ (j ∈ P ∧ ¬ ∃ i ∈ P, ov c path ids d i = [j]) ∨ (∃ i ∈ P, 2 ≤ (ov c path ids d i).length ∧ j ∈ ov c path ids d i) ∨
    ∃ i ∈ P, ∃ i' ∈ P, i ≠ i' ∧ ov c path ids d i = [j] ∧ ov c path ids d i' = [j]
  nodup : l.starting.Nodup

theorem foldl_insert_mem (l s : List Nat) (j : Nat) : j ∈ l.foldl (fun s k => s.insert k) s ↔ j ∈ l ∨ j ∈ s := by
  induction l generalizing s with
  | nil => simp
  | cons x l ih => rw [List.foldl_cons, ih, List.mem_insert_iff, List.mem_cons]; tauto

theorem foldl_insert_nodup (l s : List Nat) (h : s.Nodup) : (l.foldl (fun s k => s.insert k) s).Nodup := by
  induction l generalizing s with
  | nil => exact h
  | cons x l ih => exact ih _ (h.insert)

theorem linkOne_inv (hf : Fair c) (ha : ApartIds path ids) {P Q : List Nat} {i : Nat} (hids : ids = P ++ i :: Q) (hn : ids.Nodup) {l : Links}
    (hi : LInv c path ids d P l) : LInv c path ids d (P ++ [i]) (linkOne c path ids d i Q l) := by
  have hiP : i ∉ P := by
    intro h
    rw [hids, List.nodup_append] at hn
    exact hn.2.2 i h i (by simp) rfl
  have hb : behind ids i = Q := by rw [hids]; exact behind_append (hids ▸ hn)
  have hov : ov c path ids d i = overlapping c path d i Q := by rw [ov, hb]
  have hlater : ∀ j ∈ ov c path ids d i, j ∉ P ∧ j ≠ i := by
    intro j hj
    rw [hov] at hj
    have hjQ := overlapping_subset hj
    rw [hids, List.nodup_append, List.nodup_cons] at hn
    refine ⟨fun hp => hn.2.2 j hp j (by simp [hjQ]) rfl, ?_⟩
    rintro rfl
    exact hn.2.1.1 hjQ
  have hnext : l.next i = none := by
    cases hx : l.next i with
    | none => rfl
    | some j => exact absurd ((hi.next i j).mp hx).1 hiP
  have hself : ∀ k ∈ P, ov c path ids d k = [i] → i ∈ l.connected := fun k hk h => (hi.conn i).mpr ⟨k, hk, h⟩
  have hP1 : ∀ k, k ∈ P ++ [i] ↔ k ∈ P ∨ k = i := by simp
  unfold linkOne
  rw [hnext]
  dsimp only [Option.isSome]
  rw [if_neg (by simp), hi.st, findString_single hf ha (hids ▸ by simp)]
  dsimp only [List.length_cons, List.length_nil]
  rw [if_neg (by omega)]
  have hs0n : (if i ∈ l.connected then l.starting else l.starting.insert i).Nodup := by
    split
    · exact hi.nodup
    · exact hi.nodup.insert
  have hs0 : ∀ j, j ∈ (if i ∈ l.connected then l.starting else l.starting.insert i) ↔ j ∈ l.starting ∨ (j = i ∧ ¬ ∃ k ∈ P, ov c path ids d k = [i]) := by
    intro j
    by_cases hc : i ∈ l.connected
    · rw [if_pos hc]
      rw [hi.conn] at hc
      constructor
      · exact Or.inl
      · rintro (h | ⟨-, h⟩)
        · exact h
        · exact absurd hc h
    · rw [if_neg hc, List.mem_insert_iff]
      rw [hi.conn] at hc
      constructor
      · rintro (h | h)
        · exact .inr ⟨h, hc⟩
        · exact .inl h
      · rintro (h | ⟨h, -⟩)
        · exact .inr h
        · exact .inl h
  -- the first part of the description, after this line
  have hfirst : ∀ j, (j ∈ P ++ [i] ∧ ¬ ∃ k ∈ P ++ [i], ov c path ids d k = [j]) ↔
      (j ∈ P ∧ ¬ ∃ k ∈ P, ov c path ids d k = [j]) ∨ (j = i ∧ ¬ ∃ k ∈ P, ov c path ids d k = [i]) := by
    intro j
    have hone : j ∈ P ++ [i] → ov c path ids d i ≠ [j] := by
      intro hj he
      have := hlater j (by rw [he]; simp)
      rw [hP1] at hj
      tauto
    constructor
    · rintro ⟨hj, hne⟩
      have hne' : ¬ ∃ k ∈ P, ov c path ids d k = [j] := fun ⟨k, hk, he⟩ => hne ⟨k, by simp [hk], he⟩
      rw [hP1] at hj
      rcases hj with hj | rfl
      · exact .inl ⟨hj, hne'⟩
      · exact .inr ⟨rfl, hne'⟩
    · rintro (⟨hj, hne⟩ | ⟨rfl, hne⟩)
      · have hj' : j ∈ P ++ [i] := by simp [hj]
        refine ⟨hj', ?_⟩
        rintro ⟨k, hk, he⟩
        rw [hP1] at hk
        rcases hk with hk | rfl
        · exact hne ⟨k, hk, he⟩
        · exact hone hj' he
      · have hj' : j ∈ P ++ [j] := by simp
        refine ⟨hj', ?_⟩
        rintro ⟨k, hk, he⟩
        rw [hP1] at hk
        rcases hk with hk | rfl
        · exact hne ⟨k, hk, he⟩
        · exact hone hj' he
  rw [← hov]
  unfold linkLine
  dsimp only
  split
  · rename_i j hj
    -- one line next to it
    have hnext' : ∀ a b, connect l.next i j a = some b ↔ a ∈ P ++ [i] ∧ ov c path ids d a = [b] := by
      intro a b
      unfold connect
      by_cases hai : a = i
      · subst hai
        rw [if_pos rfl, hj]
        simp
      · rw [if_neg hai, hi.next, hP1]
        tauto
    have hstart' : ∀ k, ((k ∈ l.starting ∨ (k = i ∧ ¬ ∃ m ∈ P, ov c path ids d m = [i])) ∨ (k = j ∧ j ∈ l.connected)) ↔
        (k ∈ P ++ [i] ∧ ¬ ∃ i_1 ∈ P ++ [i], ov c path ids d i_1 = [k]) ∨
        (∃ i_1 ∈ P ++ [i], 2 ≤ (ov c path ids d i_1).length ∧ k ∈ ov c path ids d i_1) ∨
        ∃ i_1 ∈ P ++ [i], ∃ i' ∈ P ++ [i], i_1 ≠ i' ∧ ov c path ids d i_1 = [k] ∧ ov c path ids d i' = [k] := by
      intro k
      rw [hfirst, hi.start, hi.conn]
      constructor
      · rintro (((h | ⟨m, hm, h⟩ | ⟨m, hm, m', hm', h⟩) | h) | ⟨rfl, m, hm, h⟩)
        · exact .inl (.inl h)
        · exact .inr (.inl ⟨m, by simp [hm], h⟩)
        · exact .inr (.inr ⟨m, by simp [hm], m', by simp [hm'], h⟩)
        · exact .inl (.inr h)
        · exact .inr (.inr ⟨m, by simp [hm], i, by simp, fun e => hiP (e ▸ hm), h, hj⟩)
      · rintro ((h | h) | ⟨m, hm, h⟩ | ⟨m, hm, m', hm', h1, h2, h3⟩)
        · exact .inl (.inl (.inl h))
        · exact .inl (.inr h)
        · rw [hP1] at hm
          rcases hm with hm | rfl
          · exact .inl (.inl (.inr (.inl ⟨m, hm, h⟩)))
          · rw [hj] at h
            simp at h
        · rw [hP1] at hm hm'
          rcases hm with hm | rfl <;> rcases hm' with hm' | rfl
          · exact .inl (.inl (.inr (.inr ⟨m, hm, m', hm', h1, h2, h3⟩)))
          · rw [hj] at h3
            cases h3
            exact .inr ⟨rfl, m, hm, h2⟩
          · rw [hj] at h2
            cases h2
            exact .inr ⟨rfl, m', hm', h3⟩
          · exact absurd rfl h1
    split
    · rename_i hc
      refine ⟨rfl, hnext', ?_, ?_, hs0n.insert⟩
      · intro k
        dsimp only
        rw [hi.conn]
        constructor
        · rintro ⟨m, hm, h⟩; exact ⟨m, by simp [hm], h⟩
        · rintro ⟨m, hm, h⟩
          rw [hP1] at hm
          rcases hm with hm | rfl
          · exact ⟨m, hm, h⟩
          · rw [hj] at h
            cases h
            exact (hi.conn j).mp hc
      · intro k
        dsimp only
        rw [List.mem_insert_iff, hs0, ← hstart']
        tauto
    · rename_i hc
      refine ⟨rfl, hnext', ?_, ?_, hs0n⟩
      · intro k
        dsimp only
        rw [List.mem_insert_iff, hi.conn]
        constructor
        · rintro (rfl | ⟨m, hm, h⟩)
          · exact ⟨i, by simp, hj⟩
          · exact ⟨m, by simp [hm], h⟩
        · rintro ⟨m, hm, h⟩
          rw [hP1] at hm
          rcases hm with hm | rfl
          · exact .inr ⟨m, hm, h⟩
          · rw [hj] at h
            cases h
            exact .inl rfl
      · intro k
        dsimp only
        rw [hs0, ← hstart']
        tauto
  · rename_i hno
    -- none or several
    have hno' : ∀ b, ov c path ids d i ≠ [b] := fun b h => hno b h
    refine ⟨rfl, ?_, ?_, ?_, foldl_insert_nodup _ _ hs0n⟩
    · intro a b
      dsimp only
      rw [hi.next, hP1]
      constructor
      · rintro ⟨h1, h2⟩; exact ⟨.inl h1, h2⟩
      · rintro ⟨h1 | rfl, h2⟩
        · exact ⟨h1, h2⟩
        · exact absurd h2 (hno' b)
    · intro k
      dsimp only
      rw [hi.conn]
      constructor
      · rintro ⟨m, hm, h⟩; exact ⟨m, by simp [hm], h⟩
      · rintro ⟨m, hm, h⟩
        rw [hP1] at hm
        rcases hm with hm | rfl
        · exact ⟨m, hm, h⟩
        · exact absurd h (hno' k)
    · intro k
      dsimp only
      rw [foldl_insert_mem, hs0, hfirst, hi.start]
      constructor
      · rintro (hk | (h | ⟨m, hm, h⟩ | ⟨m, hm, m', hm', h⟩) | h)
        · refine .inr (.inl ⟨i, by simp, ?_, hk⟩)
          match hl : ov c path ids d i, hno', hk with
          | [], _, hk => simp at hk
          | [b], h, _ => exact absurd rfl (h b)
          | _ :: _ :: _, _, _ => simp
        · exact .inl (.inl h)
        · exact .inr (.inl ⟨m, by simp [hm], h⟩)
        · exact .inr (.inr ⟨m, by simp [hm], m', by simp [hm'], h⟩)
        · exact .inl (.inr h)
      · rintro ((h | h) | ⟨m, hm, h⟩ | ⟨m, hm, m', hm', h1, h2, h3⟩)
        · exact .inr (.inl (.inl h))
        · exact .inr (.inr h)
        · rw [hP1] at hm
          rcases hm with hm | rfl
          · exact .inr (.inl (.inr (.inl ⟨m, hm, h⟩)))
          · exact .inl h.2
        · rw [hP1] at hm hm'
          rcases hm with hm | rfl
          · rcases hm' with hm' | rfl
            · exact .inr (.inl (.inr (.inr ⟨m, hm, m', hm', h1, h2, h3⟩)))
            · exact absurd h3 (hno' k)
          · exact absurd h2 (hno' k)

theorem linkAll_inv (hf : Fair c) (ha : ApartIds path ids) (hn : ids.Nodup) (Q P : List Nat) (hids : ids = P ++ Q) {l : Links}
    (hi : LInv c path ids d P l) : LInv c path ids d ids (linkAll c path ids d Q l) := by
  induction Q generalizing P l with
  | nil =>
    rw [List.append_nil] at hids
    subst hids
    exact hi
  | cons i Q ih =>
    unfold linkAll
    exact ih (P ++ [i]) (by simp [hids]) (linkOne_inv hf ha hids hn hi)

theorem link_inv (hf : Fair c) (ha : ApartIds path ids) (hn : ids.Nodup) :
    LInv c path ids d ids (linkAll c path ids d ids ⟨fun _ => .unknown, [], [], fun _ => none⟩) := by
  refine linkAll_inv hf ha hn ids [] rfl ⟨rfl, ?_, ?_, ?_, List.nodup_nil⟩ <;> simp

end

end Verif.Monotonic
