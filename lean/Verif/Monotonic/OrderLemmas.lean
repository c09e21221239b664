import Verif.Monotonic.WalkLemmas

/-! # The order of lines -/

namespace Verif.Monotonic

theorem sortBy_perm (l : List Nat) (le : Nat → Nat → Bool) : (sortBy l le).Perm l := List.perm_insertionSort _ l

theorem sortBy_pairwise {le : Nat → Nat → Bool} (ht : ∀ a b c, le a b = true → le b c = true → le a c = true)
    (h : ∀ a b, (le a b || le b a) = true) (l : List Nat) : (sortBy l le).Pairwise fun a b => le a b = true := by
  have : Std.Total fun i j => le i j = true := ⟨fun a b => by simpa using h a b⟩
  have : IsTrans Nat fun i j => le i j = true := ⟨ht⟩
  exact List.pairwise_insertionSort _ l

theorem llround_lt {x y : ℚ} (h : x + 1 ≤ y) : llround x < llround y := by
  unfold llround
  have f1 := Int.floor_le (x + 1 / 2)
  have f2 := Int.lt_floor_add_one (y + 1 / 2)
  have f3 := Int.lt_floor_add_one (-x + 1 / 2)
  have f4 := Int.floor_le (-y + 1 / 2)
  have f5 := Int.lt_floor_add_one (x + 1 / 2)
  split <;> split
  · have : ⌊x + 1 / 2⌋ + 1 ≤ ⌊y + 1 / 2⌋ := by
      rw [Int.le_floor]
      push_cast
      linarith
    omega
  · linarith
  · have h1 : 0 ≤ ⌊-x + 1 / 2⌋ := by rw [Int.floor_nonneg]; linarith
    have h2 : 0 ≤ ⌊y + 1 / 2⌋ := by rw [Int.floor_nonneg]; linarith
    by_cases hx : x ≤ -1 / 2
    · have : 1 ≤ ⌊-x + 1 / 2⌋ := by rw [Int.le_floor]; push_cast; linarith
      omega
    · have : 1 ≤ ⌊y + 1 / 2⌋ := by rw [Int.le_floor]; push_cast; linarith
      omega
  · have : ⌊-y + 1 / 2⌋ + 1 ≤ ⌊-x + 1 / 2⌋ := by
      rw [Int.le_floor]
      push_cast
      linarith
    omega

theorem llround_mono : Monotone llround := by
  intro x y h
  unfold llround
  split <;> split
  · exact Int.floor_mono (by linarith)
  · linarith
  · have h1 : 0 ≤ ⌊-x + 1 / 2⌋ := by rw [Int.floor_nonneg]; linarith
    have h2 : 0 ≤ ⌊y + 1 / 2⌋ := by rw [Int.floor_nonneg]; linarith
    omega
  · have : ⌊-y + 1 / 2⌋ ≤ ⌊-x + 1 / 2⌋ := Int.floor_mono (by linarith)
    omega

theorem key_fst (c : Config) (p : Path) : (key c p).1 = llround (lo c.v p / 10) := by
  unfold key lo
  dsimp only
  rw [← llround_mono.map_min, min_div_div_right (by norm_num)]

theorem lo_le_hi (u : ℚ × ℚ) (p : Path) : lo u p ≤ hi u p := min_le_max

theorem mem_split_behind {ids : List Nat} (hn : ids.Nodup) {i : Nat} (hi : i ∈ ids) : ∃ P, ids = P ++ i :: behind ids i := by
  obtain ⟨P, Q, h⟩ := List.append_of_mem hi
  refine ⟨P, ?_⟩
  have : behind ids i = Q := by rw [h]; exact behind_append (h ▸ hn)
  rw [this]
  exact h

theorem idx_behind {ids : List Nat} (hn : ids.Nodup) {i j : Nat} (hi : i ∈ ids) (hj : j ∈ behind ids i) : ids.idxOf i < ids.idxOf j := by
  obtain ⟨P, h⟩ := mem_split_behind hn hi
  generalize behind ids i = Q at h hj
  subst h
  rw [List.nodup_append, List.nodup_cons] at hn
  have hiP : i ∉ P := fun hp => hn.2.2 i hp i (by simp) rfl
  have hjP : j ∉ P := fun hp => hn.2.2 j hp j (by simp [hj]) rfl
  have hij : i ≠ j := by rintro rfl; exact hn.2.1.1 hj
  rw [List.idxOf_append_of_notMem hiP, List.idxOf_append_of_notMem hjP, List.idxOf_cons_self, List.idxOf_cons_ne _ hij]
  omega

theorem behind_or {ids : List Nat} (hn : ids.Nodup) {i j : Nat} (hi : i ∈ ids) (hj : j ∈ ids) (hij : i ≠ j) :
    j ∈ behind ids i ∨ i ∈ behind ids j := by
  obtain ⟨P, h⟩ := mem_split_behind hn hi
  rw [h, List.mem_append, List.mem_cons] at hj
  rcases hj with hj | rfl | hj
  · right
    obtain ⟨A, B, hA⟩ := List.append_of_mem hj
    have : behind ids j = B ++ i :: behind ids i := by
      have h' : ids = A ++ j :: (B ++ i :: behind ids i) := by
        conv_lhs => rw [h, hA]
        simp
      have hn' := hn
      rw [h'] at hn'
      have := behind_append hn'
      rw [← h'] at this
      exact this
    rw [this]
    simp
  · exact absurd rfl hij
  · exact .inl hj

section
variable {c : Config} {path : Nat → Path} {ids : List Nat} {d : Int}

/-- Sorted by the beginning of the lines. -/
def Sorted (c : Config) (path : Nat → Path) (ids : List Nat) : Prop := ids.Pairwise fun i j => lo c.v (path i) ≤ lo c.v (path j)

theorem lo_behind (hn : ids.Nodup) (hs : Sorted c path ids) {i j : Nat} (hi : i ∈ ids) (hj : j ∈ behind ids i) :
    lo c.v (path i) ≤ lo c.v (path j) := by
  obtain ⟨P, h⟩ := mem_split_behind hn hi
  unfold Sorted at hs
  rw [h, List.pairwise_append, List.pairwise_cons] at hs
  exact hs.2.1.1 j hj

theorem adjacent_overlap {a b : Path} (h : Within (perp c.v) d a b) : overlap c.v d a b = true := by
  have h1 := lo_le_hi (perp c.v) a
  have h2 := lo_le_hi (perp c.v) b
  obtain ⟨h3, h4⟩ := h
  unfold overlap
  dsimp only
  rw [decide_eq_true_eq]
  by_cases ha : lo (perp c.v) a - d ≥ lo (perp c.v) b
  · exact .inl ⟨ha, by linarith⟩
  · by_cases hb : hi (perp c.v) a + d ≤ hi (perp c.v) b
    · exact .inr (.inl ⟨by linarith, hb⟩)
    · exact .inr (.inr ⟨by linarith, by linarith⟩)

theorem mem_takeWhile_sorted {Q : List Nat} {p : Nat → Bool} {j : Nat} (hj : j ∈ Q) (hp : p j = true)
    (hmono : Q.Pairwise fun a b => p b = true → p a = true) : j ∈ Q.takeWhile p := by
  induction Q with
  | nil => simp at hj
  | cons x Q ih =>
    rw [List.pairwise_cons] at hmono
    rw [List.mem_cons] at hj
    rw [List.takeWhile_cons]
    rcases hj with rfl | hj
    · rw [hp]; simp
    · rw [hmono.1 j hj hp]
      simp only [if_true, List.mem_cons]
      exact .inr (ih hj hmono.2)

theorem adjacent_ov (hd : 0 ≤ d) (hn : ids.Nodup) (hs : Sorted c path ids) {i j : Nat} (hi : i ∈ ids) (hj : j ∈ behind ids i)
    (h : Adjacent c d (path i) (path j)) : j ∈ ov c path ids d i := by
  have hd' : (0 : ℚ) ≤ d := by exact_mod_cast hd
  unfold ov overlapping
  rw [List.mem_filter]
  refine ⟨mem_takeWhile_sorted hj ?_ ?_, adjacent_overlap h.2⟩
  · have h2 := h.1
    unfold Within at h2
    unfold tooFar
    simp only [Bool.not_eq_true', decide_eq_false_iff_not, not_or, not_lt, gt_iff_lt]
    exact ⟨h2.1, by linarith [h2.2]⟩
  · have hb : (behind ids i).Pairwise fun a b => lo c.v (path a) ≤ lo c.v (path b) := by
      obtain ⟨P, hP⟩ := mem_split_behind hn hi
      unfold Sorted at hs
      rw [hP, List.pairwise_append, List.pairwise_cons] at hs
      exact hs.2.1.2
    refine List.Pairwise.imp_of_mem ?_ hb
    intro a b ha hbm hab hpb
    have hia := lo_behind hn hs hi ha
    have h1 := lo_le_hi c.v (path a)
    unfold tooFar at hpb ⊢
    simp only [Bool.not_eq_true', decide_eq_false_iff_not, not_or, not_lt, gt_iff_lt] at hpb ⊢
    exact ⟨hab.trans hpb.1, by linarith⟩

variable {l : Links}

theorem next_rank (hn : ids.Nodup) (hl : LInv c path ids d ids l) (i j : Nat) (h : l.next i = some j) : ids.idxOf i < ids.idxOf j := by
  obtain ⟨hi, ho⟩ := (hl.next i j).mp h
  apply idx_behind hn hi
  apply overlapping_subset (c := c) (path := path) (d := d) (i := i)
  rw [← ov, ho]
  simp

theorem next_mem (hn : ids.Nodup) (hl : LInv c path ids d ids l) {i j : Nat} (h : l.next i = some j) : i ∈ ids ∧ j ∈ ids ∧ j ∈ behind ids i := by
  obtain ⟨hi, ho⟩ := (hl.next i j).mp h
  have hb : j ∈ behind ids i := by
    apply overlapping_subset (c := c) (path := path) (d := d) (i := i)
    rw [← ov, ho]
    simp
  refine ⟨hi, ?_, hb⟩
  obtain ⟨P, hP⟩ := mem_split_behind hn hi
  rw [hP]
  simp [hb]

theorem start_mem (hn : ids.Nodup) (hl : LInv c path ids d ids l) {j : Nat} (h : j ∈ l.starting) : j ∈ ids := by
  have hov : ∀ i ∈ ids, ∀ j ∈ ov c path ids d i, j ∈ ids := by
    intro i hi j hj
    obtain ⟨P, hP⟩ := mem_split_behind hn hi
    rw [hP]
    have := overlapping_subset hj
    simp [this]
  rcases (hl.start j).mp h with h | ⟨i, hi, -, h⟩ | ⟨i, hi, -, -, -, h, -⟩
  · exact h.1
  · exact hov i hi j h
  · exact hov i hi j (by rw [h]; simp)

theorem back_one (hl : LInv c path ids d ids l) {j : Nat} (hj : j ∈ ids) (hs : j ∉ l.starting) :
    ∃ p ∈ ids, l.next p = some j ∧ ∀ q, l.next q = some j → q = p := by
  rw [hl.start] at hs
  have h1 : ∃ p ∈ ids, ov c path ids d p = [j] := by
    by_contra h
    exact hs (.inl ⟨hj, h⟩)
  obtain ⟨p, hp, ho⟩ := h1
  refine ⟨p, hp, (hl.next p j).mpr ⟨hp, ho⟩, fun q hq => ?_⟩
  obtain ⟨hq1, hq2⟩ := (hl.next q j).mp hq
  by_contra hne
  exact hs (.inr (.inr ⟨q, hq1, p, hp, hne, hq2, ho⟩))

theorem ov_next (hl : LInv c path ids d ids l) {i j : Nat} (hi : i ∈ ids) (hj : j ∈ ov c path ids d i) (hs : j ∉ l.starting) :
    l.next i = some j := by
  rw [hl.next]
  refine ⟨hi, ?_⟩
  by_contra hne
  apply hs
  rw [hl.start]
  refine .inr (.inl ⟨i, hi, ?_, hj⟩)
  match h : ov c path ids d i, hne, hj with
  | [], _, hj => simp at hj
  | [b], hne, hj =>
    simp only [List.mem_singleton] at hj
    subst hj
    exact absurd rfl hne
  | _ :: _ :: _, _, _ => simp

theorem block_before {S : List Nat} {next : Nat → Option Nat} {r : Nat → Nat} {N : Nat} (hr : ∀ i j, next i = some j → r i < r j)
    (hN : ∀ i, r i ≤ N) {i j : Nat} (hj : j ∉ S) (hij : next i = some j) (n k : Nat) (hn : N < n + r k) (hi : i ∈ k :: chainIds S next n k) :
    Before (k :: chainIds S next n k) i j := by
  induction n generalizing k with
  | zero =>
    have := hN k
    omega
  | succ n ih =>
    rw [List.mem_cons] at hi
    rcases hi with rfl | hi
    · refine ⟨[i], chainIds S next (n + 1) i, rfl, by simp, ?_⟩
      unfold chainIds
      rw [hij]
      simp [hj]
    · unfold chainIds at hi ⊢
      cases hk : next k with
      | none => rw [hk] at hi; simp at hi
      | some m =>
        rw [hk] at hi
        dsimp only at hi ⊢
        by_cases hm : m ∈ S
        · rw [if_pos hm] at hi; simp at hi
        · rw [if_neg hm] at hi ⊢
          have := hr k m hk
          obtain ⟨l1, l2, h1, h2, h3⟩ := ih m (by omega) hi
          exact ⟨k :: l1, l2, by rw [h1]; rfl, by simp [h2], h3⟩

theorem block_lo (hn : ids.Nodup) (hs : Sorted c path ids) (hl : LInv c path ids d ids l) (n s : Nat) :
    ∀ i ∈ block l.starting l.next n s, lo c.v (path s) ≤ lo c.v (path i) := by
  induction n generalizing s with
  | zero =>
    intro i hi
    simp only [block, chainIds, List.mem_singleton] at hi
    rw [hi]
  | succ n ih =>
    intro i hi
    unfold block chainIds at hi
    rw [List.mem_cons] at hi
    rcases hi with rfl | hi
    · exact le_rfl
    · cases hk : l.next s with
      | none => rw [hk] at hi; simp at hi
      | some m =>
        rw [hk] at hi
        dsimp only at hi
        split at hi
        · simp at hi
        · obtain ⟨h1, -, h3⟩ := next_mem hn hl hk
          exact (lo_behind hn hs h1 h3).trans (ih m i hi)

/-- The lines of the result. -/
theorem ordered_blocks (hf : Fair c) (ha : ApartIds path ids) (hn : ids.Nodup) :
    ∃ (l : Links) (pops : List Nat), LInv c path ids d ids l ∧ pops.Perm l.starting ∧ pops.Pairwise (fun i j => keyLe (key c (path i)) (key c (path j)) = true) ∧
      (makeOrdered c path d ids).map (·.1) = pops.flatMap (block l.starting l.next (ids.length + 1)) := by
  have hl := link_inv (d := d) hf ha hn
  unfold makeOrdered
  dsimp only
  generalize linkAll c path ids d ids ⟨fun _ => .unknown, [], [], fun _ => none⟩ = l at hl
  have hsort : (sortBy (c.hash l.starting) fun i j => keyLe (key c (path i)) (key c (path j))).Pairwise
      (fun i j => keyLe (key c (path i)) (key c (path j)) = true) :=
    sortBy_pairwise (le := fun i j => keyLe (key c (path i)) (key c (path j))) (fun a b e h1 h2 => keyLe_trans h1 h2) (fun a b => keyLe_total _ _) _
  obtain ⟨pops, h1, h2, h3⟩ := rows_ids c path l (fun i => ids.idxOf i) (next_rank hn hl) (ids.length + 1) _ _ ⟨l.st, c.start, []⟩ le_rfl hsort
  refine ⟨l, pops, hl, h1.trans ((sortBy_perm _ _).trans (hf.1 _)), h2, ?_⟩
  rw [h3]
  rfl

theorem ordered_perm (hf : Fair c) (ha : ApartIds path ids) (hn : ids.Nodup) : ((makeOrdered c path d ids).map (·.1)).Perm ids := by
  obtain ⟨l, pops, hl, h1, h2, h3⟩ := ordered_blocks (d := d) hf ha hn
  rw [h3, List.perm_iff_count]
  intro j
  by_cases hj : j ∈ ids
  · rw [count_one (r := fun i => ids.idxOf i) (N := ids.length) (next_rank hn hl) (fun i => List.idxOf_le_length) ids (fun j hj hs => back_one hl hj hs) hl.nodup _ (by omega) pops h1 j hj,
      List.count_eq_one_of_mem hn hj]
  · rw [List.count_eq_zero.mpr hj, List.count_eq_zero]
    intro hm
    rw [List.mem_flatMap] at hm
    obtain ⟨s, hs, hm⟩ := hm
    rw [block, List.mem_cons] at hm
    rcases hm with rfl | hm
    · exact hj (start_mem hn hl (h1.mem_iff.mp hs))
    · obtain ⟨k, hk⟩ := chainIds_next _ _ j hm
      exact hj (next_mem hn hl hk).2.1

theorem ordered_known (c : Config) (path : Nat → Path) (d : Int) (ids : List Nat) : Known (makeOrdered c path d ids) := by
  unfold makeOrdered
  exact rows_known _ _ _ _ _ _ _ (by simp [Known])

theorem Before.append {out : List Nat} {i j : Nat} (h : Before out i j) (a b : List Nat) : Before (a ++ (out ++ b)) i j := by
  obtain ⟨l1, l2, rfl, h1, h2⟩ := h
  exact ⟨a ++ l1, l2 ++ b, by simp, by simp [h1], by simp [h2]⟩

theorem ordered_before (hf : Fair c) (ha : ApartIds path ids) (hn : ids.Nodup) (hs : Sorted c path ids) (hd : 0 ≤ d) {i j : Nat} (hi : i ∈ ids)
    (hj : j ∈ ids) (hadj : Adjacent c d (path i) (path j)) (hlo : lo c.v (path i) + 10 ≤ lo c.v (path j)) :
    Before ((makeOrdered c path d ids).map (·.1)) i j := by
  have hperm := ordered_perm (d := d) hf ha hn
  obtain ⟨l, pops, hl, h1, h2, h3⟩ := ordered_blocks (d := d) hf ha hn
  have hij : i ≠ j := by rintro rfl; linarith
  have hbeh : j ∈ behind ids i := by
    rcases behind_or hn hi hj hij with h | h
    · exact h
    · have := lo_behind hn hs hj h
      linarith
  have hov := adjacent_ov hd hn hs hi hbeh hadj
  have hio := hperm.mem_iff.mpr hi
  rw [h3, List.mem_flatMap] at hio
  obtain ⟨s, hsp, hib⟩ := hio
  obtain ⟨A, B, hAB⟩ := List.append_of_mem hsp
  rw [h3, hAB, List.flatMap_append, List.flatMap_cons]
  by_cases hjS : j ∈ l.starting
  · have hk : (key c (path s)).1 < (key c (path j)).1 := by
      rw [key_fst, key_fst]
      have := block_lo hn hs hl _ s i hib
      apply llround_lt
      linarith
    have hjp := h1.mem_iff.mpr hjS
    rw [hAB, List.mem_append, List.mem_cons] at hjp
    rw [hAB, List.pairwise_append] at h2
    have hjB : j ∈ B := by
      rcases hjp with hjA | rfl | hjB
      · have := h2.2.2 j hjA s (by simp)
        simp only [keyLe, decide_eq_true_eq] at this
        omega
      · omega
      · exact hjB
    refine ⟨A.flatMap (block l.starting l.next (ids.length + 1)) ++ block l.starting l.next (ids.length + 1) s,
      B.flatMap (block l.starting l.next (ids.length + 1)), by simp, by simp [hib], ?_⟩
    rw [List.mem_flatMap]
    exact ⟨j, hjB, by simp [block]⟩
  · have hnx := ov_next hl hi hov hjS
    exact (block_before (r := fun i => ids.idxOf i) (N := ids.length) (next_rank hn hl) (fun i => List.idxOf_le_length) hjS hnx _ s (by omega) hib).append _ _

end

end Verif.Monotonic
