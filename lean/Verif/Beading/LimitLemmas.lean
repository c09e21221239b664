import Verif.Beading.SpaceLemmas

/-! # Lemmas on the insets and the limit -/

set_option linter.dupNamespace false

namespace Verif.Beading

theorem base_not_thin {p : Params} {t : Int} (n : Int) (h : ¬Thin p t) : base p t n = core p t n := if_neg h

theorem base_thin {p : Params} {t : Int} (n : Int) (h : Thin p t) :
    base p t n = if t ≥ p.minFeatureSize then ⟨t, [max t p.minBeadWidth], [t.tdiv 2], none⟩ else ⟨t, [], [], some t⟩ := if_pos h

/-- The locations after the insets. -/
def insetLocs (p : Params) (t : Int) (b : Beading) : List Int :=
  if (b.widths.countP fun w => 0 < w) < 2 then b.locs
  else match b.locs with
    | [] => []
    | l :: ls => (if p.outerOffset > 0 then min (l + p.outerOffset) (t.tdiv 2) else l) :: ls.map (· + p.innerOffset)

theorem insetLocs_length (p : Params) (t : Int) (b : Beading) : (insetLocs p t b).length = b.locs.length := by
  unfold insetLocs
  split
  · rfl
  · cases b.locs <;> simp

theorem compute_outerStack (p : Params) (t n : Int) : ∃ ls, compute (outerStack p) t n = .ok { base p t n with locs := ls } ∧
    ((((base p t n).widths.countP fun w => 0 < w) < 2 ∧ ls = (base p t n).locs) ∨
      (¬((base p t n).widths.countP fun w => 0 < w) < 2 ∧ ∃ l ls', (base p t n).locs = l :: ls' ∧
        ls = (if p.outerOffset > 0 then min (l + p.outerOffset) (t.tdiv 2) else l) :: ls')) := by
  have hne : ¬((base p t n).widths.countP fun w => 0 < w) < 2 → ∃ l ls', (base p t n).locs = l :: ls' := by
    intro h
    have h1 := base_length p t n
    have h2 := List.countP_le_length (p := fun w : Int => decide (0 < w)) (l := (base p t n).widths)
    cases hl : (base p t n).locs with
    | nil => rw [hl] at h1; simp only [List.length_nil] at h1; omega
    | cons l ls' => exact ⟨l, ls', rfl⟩
  unfold outerStack
  by_cases ho : p.outerOffset > 0
  · rw [if_pos ho]
    unfold compute
    rw [compute_thin]
    simp only [Outcome.bind]
    by_cases hc : ((base p t n).widths.countP fun w => 0 < w) < 2
    · rw [if_pos hc]; exact ⟨_, rfl, Or.inl ⟨hc, rfl⟩⟩
    · rw [if_neg hc]
      obtain ⟨l, ls', hl⟩ := hne hc
      rw [hl]
      refine ⟨min (l + p.outerOffset) (t.tdiv 2) :: ls', ?_, Or.inr ⟨hc, l, ls', rfl, by rw [if_pos ho]⟩⟩
      have e1 : getAt (l :: ls') 0 = .ok l := rfl
      have e2 : setAt (l :: ls') 0 (min (l + p.outerOffset) (t.tdiv 2)) = .ok (min (l + p.outerOffset) (t.tdiv 2) :: ls') := by
        unfold setAt
        rw [if_pos (by simp)]
        rfl
      rw [e1]
      simp only [e2]
  · rw [if_neg ho, compute_thin]
    refine ⟨_, rfl, ?_⟩
    by_cases hc : ((base p t n).widths.countP fun w => 0 < w) < 2
    · exact Or.inl ⟨hc, rfl⟩
    · obtain ⟨l, ls', hl⟩ := hne hc
      exact Or.inr ⟨hc, l, ls', hl, by rw [if_neg ho]; exact hl⟩

theorem compute_stack (p : Params) (t n : Int) :
    compute (stack p) t n = .ok { base p t n with locs := insetLocs p t (base p t n) } := by
  obtain ⟨ls, h1, h2⟩ := compute_outerStack p t n
  unfold stack insetLocs
  by_cases hi : p.innerOffset ≠ 0
  · rw [if_pos hi]
    unfold compute
    rw [h1]
    simp only [Outcome.bind]
    rcases h2 with ⟨hc, rfl⟩ | ⟨hc, l, ls', hl, rfl⟩
    · rw [if_pos hc, if_pos hc]
    · rw [if_neg hc, if_neg hc, hl]
      simp
  · rw [if_neg hi, h1]
    rcases h2 with ⟨hc, rfl⟩ | ⟨hc, l, ls', hl, rfl⟩
    · rw [if_pos hc]
    · rw [if_neg hc, hl]
      have : p.innerOffset = 0 := by simpa using hi
      simp [this]

theorem getAt_ok {l : List Int} {i : Nat} (h : i < l.length) : getAt l (i : Int) = .ok l[i] := by
  unfold getAt
  rw [if_pos (by omega), Outcome.index_eq_ok]
  simp [h]

theorem marker_after (b : Beading) {A B C D : List Int} {x w : Int} (hl : b.locs = A ++ x :: B) (hw : b.widths = C ++ w :: D)
    (h : A.length = C.length) :
    marker b (A.length : Int) (A.length + 1 : Int) 1 =
      .ok { b with locs := A ++ x :: (x + w.tdiv 2) :: B, widths := C ++ w :: 0 :: D } := by
  unfold marker
  have e1 : getAt b.locs (A.length : Int) = .ok x := by rw [getAt_ok (by rw [hl]; simp)]; simp [hl]
  have e2 : getAt b.widths (A.length : Int) = .ok w := by rw [getAt_ok (by rw [hw, h]; simp)]; simp [hw, h]
  have e3 : ∀ a, insertAt b.locs (A.length + 1 : Int) a = .ok (A ++ x :: a :: B) := by
    intro a
    unfold insertAt
    rw [if_pos (by rw [hl]; simp; omega), hl]
    have : ((A.length : Int) + 1).toNat = A.length + 1 := by omega
    rw [this]
    simp [List.take_append, List.drop_append, List.take_of_length_le]
  have e4 : insertAt b.widths (A.length + 1 : Int) 0 = .ok (C ++ w :: 0 :: D) := by
    unfold insertAt
    rw [if_pos (by rw [hw, h]; simp; omega), hw]
    have : ((A.length : Int) + 1).toNat = C.length + 1 := by omega
    rw [this]
    simp [List.take_append, List.drop_append, List.take_of_length_le]
  rw [e1, e2]
  simp only [Outcome.bind, e3, e4, one_mul]

theorem marker_before (b : Beading) {A B C D : List Int} {x w : Int} (hl : b.locs = A ++ x :: B) (hw : b.widths = C ++ w :: D)
    (h : A.length = C.length) :
    marker b (A.length : Int) (A.length : Int) (-1) =
      .ok { b with locs := A ++ (x - w.tdiv 2) :: x :: B, widths := C ++ 0 :: w :: D } := by
  unfold marker
  have e1 : getAt b.locs (A.length : Int) = .ok x := by rw [getAt_ok (by rw [hl]; simp)]; simp [hl]
  have e2 : getAt b.widths (A.length : Int) = .ok w := by rw [getAt_ok (by rw [hw, h]; simp)]; simp [hw, h]
  have e3 : ∀ a, insertAt b.locs (A.length : Int) a = .ok (A ++ a :: x :: B) := by
    intro a
    unfold insertAt
    rw [if_pos (by rw [hl]; simp; omega), hl]
    simp
  have e4 : insertAt b.widths (A.length : Int) 0 = .ok (C ++ 0 :: w :: D) := by
    unfold insertAt
    rw [if_pos (by rw [hw, h]; simp; omega), hw, h]
    simp
  rw [e1, e2]
  simp only [Outcome.bind, e3, e4]
  rw [show x + -1 * w.tdiv 2 = x - w.tdiv 2 by ring]

/-- The locations are mirrored. -/
theorem mirror_spec (t : Int) (X : List Int) (k : Nat) (hX : X.length = 2 * k) (c : Nat) : ∀ i, i + c = k →
    mirror t (2 * k : Int) c (i : Int) (X.take (2 * k - i) ++ (X.take i).reverse.map (t - ·)) =
      .ok (X.take k ++ (X.take k).reverse.map (t - ·)) := by
  induction c with
  | zero =>
    intro i hi
    have : i = k := by omega
    subst this
    unfold mirror
    rw [show 2 * i - i = i by omega]
  | succ c ih =>
    intro i hi
    unfold mirror
    have hlen : (X.take (2 * k - i) ++ (X.take i).reverse.map (t - ·)).length = 2 * k := by simp; omega
    rw [getAt_ok (by rw [hlen]; omega)]
    simp only [Outcome.bind]
    have hget : (X.take (2 * k - i) ++ (X.take i).reverse.map (t - ·))[i]'(by rw [hlen]; omega) = X[i]'(by omega) := by
      rw [List.getElem_append_left (by simp; omega), List.getElem_take]
    rw [hget]
    have hset : setAt (X.take (2 * k - i) ++ (X.take i).reverse.map (t - ·)) (2 * (k : Int) - 1 - i) (t - X[i]'(by omega)) =
        .ok (X.take (2 * k - (i + 1)) ++ (X.take (i + 1)).reverse.map (t - ·)) := by
      unfold setAt
      rw [if_pos (by rw [hlen]; omega)]
      have e : (2 * (k : Int) - 1 - i).toNat = 2 * k - (i + 1) := by omega
      rw [e]
      congr 1
      have e2 : X.take (2 * k - i) = X.take (2 * k - (i + 1)) ++ [X[2 * k - (i + 1)]'(by omega)] := by
        rw [show 2 * k - i = (2 * k - (i + 1)) + 1 by omega, List.take_add_one]
        simp [List.getElem?_eq_getElem (show 2 * k - (i + 1) < X.length by omega)]
      have e3 : X.take (i + 1) = X.take i ++ [X[i]'(by omega)] := by
        rw [List.take_add_one]; simp [List.getElem?_eq_getElem (show i < X.length by omega)]
      rw [e2, e3, List.reverse_append, List.map_append, List.append_assoc, List.set_append_right _ _ (by simp)]
      simp [show min (2 * k - (i + 1)) X.length = 2 * k - (i + 1) by omega]
    rw [hset]
    have := ih (i + 1) (by omega)
    push_cast at this
    exact this

theorem mirror_all (t : Int) (X : List Int) (k : Nat) (hX : X.length = 2 * k) :
    mirror t (2 * k : Int) k 0 X = .ok (X.take k ++ (X.take k).reverse.map (t - ·)) := by
  have := mirror_spec t X k hX k 0 (by omega)
  simpa [List.take_of_length_le (Nat.le_of_eq hX)] using this

/-- More beads than allowed, for an even limit. -/
theorem overLimit_spec {k : Nat} {t ot lo : Int} {b : Beading} {h0 u v rest : List Int} {x a a' : Int}
    (hl : b.locs = h0 ++ x :: rest) (hr : rest.length = h0.length + 1) (hk : h0.length + 1 = k) (hw : b.widths = u ++ a :: a' :: v)
    (hu : u.length = h0.length) (hlo : b.leftOver = some lo) :
    overLimit (2 * k) t ot b = .ok ⟨t, u ++ a :: 0 :: 0 :: a' :: v,
      h0 ++ x :: (x + a.tdiv 2) :: (t - x - a'.tdiv 2) :: (t - x) :: h0.reverse.map (t - ·), some (lo + (t - b.total))⟩ := by
  have hlen : b.locs.length = 2 * k := by rw [hl]; simp; omega
  have hm : (2 * (k : Int)).tdiv 2 = k := by rw [Int.tdiv_eq_ediv_of_nonneg (by omega)]; omega
  have hc : ((2 * (k : Int)) + 1).tdiv 2 = k := by rw [Int.tdiv_eq_ediv_of_nonneg (by omega)]; omega
  have hodd : ¬(2 * (k : Int)).tmod 2 = 1 := by rw [Int.tmod_eq_emod_of_nonneg (by omega)]; omega
  have htake : b.locs.take k = h0 ++ [x] := by
    rw [hl, ← hk]; simp [List.take_append]
  unfold overLimit
  have hcount : (b.locs.length : Int) = 2 * (k : Int) := by omega
  rw [hlo]
  dsimp only
  rw [hcount]
  rw [if_neg hodd, hm, hc]
  simp only [Outcome.bind]
  rw [show ((k : Int)).toNat = k from rfl, mirror_all t b.locs k hlen]
  simp only
  rw [htake]
  have e1 : (k : Int) - 1 = (h0.length : Int) := by omega
  have e2 : (k : Int) = (h0.length : Int) + 1 := by omega
  rw [e1]
  rw [show (k : Int) = (h0.length : Int) + 1 by omega]
  rw [marker_after (A := h0) (B := (h0 ++ [x]).reverse.map (t - ·)) (x := x) (C := u) (w := a) (D := a' :: v)
    { b with total := t, locs := h0 ++ [x] ++ (h0 ++ [x]).reverse.map (t - ·), leftOver := some (lo + (t - b.total)) } (by simp) hw hu.symm]
  simp only
  have e3 : 2 * ((h0.length : Int) + 1) - (h0.length : Int) = ((h0 ++ [x, x + a.tdiv 2]).length : Int) := by simp; omega
  rw [e3]
  rw [marker_before (A := h0 ++ [x, x + a.tdiv 2]) (B := h0.reverse.map (t - ·)) (x := t - x) (C := u ++ [a, 0]) (w := a') (D := v)
    { total := t, widths := u ++ a :: 0 :: a' :: v,
      locs := h0 ++ x :: (x + a.tdiv 2) :: (h0 ++ [x]).reverse.map (t - ·), leftOver := some (lo + (t - b.total)) }
    (by simp) (by simp) (by simp [hu])]
  simp

/-- At most as many beads as allowed. -/
theorem limit_under {p : Params} (hp : Sane p) (t : Int) {n : Int} (hn : n ≤ p.maxCount) :
    ∃ b, compute (makeStrategy p) t n = .ok b ∧ b.total = t ∧ b.leftOver = (base p t n).leftOver ∧
      ((b.widths = (base p t n).widths ∧ b.locs = insetLocs p t (base p t n) ∧ ((base p t n).widths.length : Int) ≠ p.maxCount) ∨
        ∃ A x B C w D, insetLocs p t (base p t n) = A ++ x :: B ∧ (base p t n).widths = C ++ w :: D ∧ A.length = C.length ∧
          D.length = C.length + 1 ∧ b.locs = A ++ x :: (x + w.tdiv 2) :: B ∧ b.widths = C ++ w :: 0 :: D ∧
          ((base p t n).widths.length : Int) = p.maxCount) := by
  have h2 := hp.max
  have he := hp.even
  rw [makeStrategy_eq]
  unfold compute
  rw [if_pos hn, compute_stack]
  simp only [Outcome.bind]
  have hlen : (insetLocs p t (base p t n)).length = (base p t n).widths.length := by rw [insetLocs_length, base_length]
  rw [hlen]
  have htot := base_total p t n
  split
  · rename_i h
    obtain ⟨_, h3⟩ := h
    obtain ⟨k, hk⟩ : ∃ k : Nat, (base p t n).widths.length = 2 * k + 2 := ⟨((p.maxCount - 2) / 2).toNat, by omega⟩
    obtain ⟨A, x, B, hA, hAl⟩ : ∃ A x B, insetLocs p t (base p t n) = A ++ x :: B ∧ A.length = k :=
      ⟨_, _, _, (List.take_append_drop k _).symm.trans (by rw [List.drop_eq_getElem_cons (by omega)]), by simp; omega⟩
    obtain ⟨C, w, D, hC, hCl⟩ : ∃ C w D, (base p t n).widths = C ++ w :: D ∧ C.length = k :=
      ⟨_, _, _, (List.take_append_drop k _).symm.trans (by rw [List.drop_eq_getElem_cons (by omega)]), by simp; omega⟩
    have hm := marker_after { base p t n with locs := insetLocs p t (base p t n) } hA hC (by omega)
    have e1 : p.maxCount.tdiv 2 = (A.length : Int) + 1 := by
      rw [Int.tdiv_eq_ediv_of_nonneg (by omega)]; omega
    rw [e1, show (A.length : Int) + 1 - 1 = A.length by omega, hm]
    refine ⟨_, rfl, htot, rfl, Or.inr ⟨A, x, B, C, w, D, hA, hC, by omega, ?_, rfl, rfl, h3⟩⟩
    have := congrArg List.length hC
    simp at this
    omega
  · rename_i h
    refine ⟨_, rfl, htot, rfl, Or.inl ⟨rfl, rfl, fun h3 => h ⟨?_, h3⟩⟩⟩
    rw [h3, Int.tmod_eq_emod_of_nonneg (by omega)]
    omega

/-! ## The beading at the optimal thickness -/

theorem optThickness_stack (p : Params) (n : Int) (h : 2 ≤ n) :
    optThickness (stack p) n = p.innerWidth * (n - 2) + 2 * p.outerWidth := by
  have h1 : optThickness (.redistribute p.outerWidth p.ratio (.distributed p.innerWidth p.split p.add p.radius)) n =
      p.innerWidth * (n - 2) + 2 * p.outerWidth := by
    unfold optThickness
    rw [show max 0 (n - 2) = n - 2 by omega, show n - (n - 2) = 2 by omega]
    unfold optThickness
    ring
  have h2 : optThickness (thin p) n = p.innerWidth * (n - 2) + 2 * p.outerWidth := by
    unfold thin
    split
    · unfold optThickness; exact h1
    · exact h1
  have h3 : optThickness (outerStack p) n = p.innerWidth * (n - 2) + 2 * p.outerWidth := by
    unfold outerStack
    split
    · unfold optThickness; exact h2
    · exact h2
  unfold stack
  split
  · unfold optThickness; exact h3
  · exact h3

theorem locsAfter_replicate (w : Int) (hw : 0 ≤ w) (k : Nat) (l : Int) :
    locsAfter l w (List.replicate k w) = (List.range k).map fun i : Nat => l + ((i : Int) + 1) * w := by
  induction k generalizing l with
  | zero => rfl
  | succ k ih =>
    rw [List.replicate_succ, List.range_succ_eq_map]
    unfold locsAfter
    have : (w + w).tdiv 2 = w := by rw [tdiv_two _ (by omega)]; omega
    simp only [this, List.map_cons, List.map_map]
    rw [ih]
    congr 1
    · simp
    · apply List.map_congr_left
      intro i _
      simp
      ring

theorem locsOf_replicate (w : Int) (hw : 0 ≤ w) (k : Nat) :
    locsOf (List.replicate k w) = (List.range k).map fun i : Nat => (i : Int) * w + w.tdiv 2 := by
  cases k with
  | zero => rfl
  | succ k =>
    rw [List.replicate_succ, List.range_succ_eq_map]
    simp only [locsOf]
    rw [locsAfter_replicate w hw]
    simp only [List.map_cons, List.map_map]
    congr 1
    · simp
    · apply List.map_congr_left
      intro i _
      simp
      ring

theorem computeDist_optimal {w : Int} (hw : 0 < w) (r : Int) (j : Nat) (hj : 0 < j) :
    (computeDist w r (w * (2 * j)) (2 * j)).widths = List.replicate (2 * j) w ∧
    (computeDist w r (w * (2 * j)) (2 * j)).locs.take j = (List.range j).map fun i : Nat => (i : Int) * w + w.tdiv 2 := by
  unfold computeDist
  split
  · rename_i h
    have e1 : (2 * (j : Int)).toNat = 2 * j := by omega
    have e2 : distWidths w r (w * (2 * j)) (2 * j) = List.replicate (2 * j) w := by
      have := distWidths_optimal w r (2 * j)
      push_cast at this
      rw [show w * (2 * (j : Int)) = 2 * (j : Int) * w by ring]
      exact this
    dsimp only
    rw [e1, e2]
    refine ⟨rfl, ?_⟩
    rw [locsOf_replicate w (by omega), ← List.map_take, List.take_range, show min j (2 * j) = j by omega]
  · rename_i h
    have : j = 1 := by omega
    subst this
    have e : (w * (2 * ((1 : Nat) : Int))).tdiv 2 = w := by
      rw [tdiv_two _ (by push_cast; omega)]; push_cast; omega
    simp [e, List.range_succ]

/-- The head of the locations of the beads at the optimal thickness for `2 (j + 1)` beads. -/
theorem core_optimal {p : Params} (hp : Sane p) (j : Nat) :
    (core p (p.innerWidth * (2 * j) + 2 * p.outerWidth) (2 * j + 2)).widths =
      p.outerWidth :: List.replicate (2 * j) p.innerWidth ++ [p.outerWidth] ∧
    (core p (p.innerWidth * (2 * j) + 2 * p.outerWidth) (2 * j + 2)).locs.take (j + 1) =
      p.outerWidth.tdiv 2 :: (List.range j).map fun i : Nat => p.outerWidth + (i : Int) * p.innerWidth + p.innerWidth.tdiv 2 := by
  have ho := hp.outer
  have hi := hp.inner
  have hr : ¬(2 * (j : Int) + 2 = 0 ∨ ((p.innerWidth * (2 * j) + 2 * p.outerWidth : Int) : ℚ) < p.ratio * p.outerWidth) := by
    rintro (h | h)
    · omega
    · have h1 := hp.ratio
      have h2 : (p.outerWidth : Int) ≤ p.innerWidth * (2 * j) + 2 * p.outerWidth := by nlinarith
      have h3 : ((p.outerWidth : Int) : ℚ) ≤ ((p.innerWidth * (2 * j) + 2 * p.outerWidth : Int) : ℚ) := by exact_mod_cast h2
      have h4 : (0 : ℚ) < p.outerWidth := by exact_mod_cast ho
      nlinarith
  unfold core
  rw [if_neg hr]
  rw [show 2 * (j : Int) + 2 - 2 = 2 * j by omega,
    show p.innerWidth * (2 * (j : Int)) + 2 * p.outerWidth - 2 * p.outerWidth = p.innerWidth * (2 * j) by omega]
  rcases Nat.eq_zero_or_pos j with rfl | hj
  · rw [if_neg (by simp)]
    unfold wrap
    have e : (p.innerWidth * (2 * ((0 : Nat) : Int)) + 2 * p.outerWidth).tdiv (2 * ((0 : Nat) : Int) + 2) = p.outerWidth := by
      simp only [Nat.cast_zero, mul_zero, zero_add]
      rw [tdiv_two _ (by omega)]; omega
    simp only [Nat.cast_zero, mul_zero, zero_add] at e ⊢
    simp [e]
  · have hpos : 0 < p.innerWidth * (2 * (j : Int)) := by positivity
    rw [if_pos ⟨by omega, hpos⟩]
    obtain ⟨e1, e2⟩ := computeDist_optimal hi p.radius j hj
    unfold wrap
    have ea : (if 2 < 2 * (j : Int) + 2 then min ((p.innerWidth * (2 * j) + 2 * p.outerWidth).tdiv 2) p.outerWidth
        else (p.innerWidth * (2 * j) + 2 * p.outerWidth).tdiv (2 * (j : Int) + 2)) = p.outerWidth := by
      rw [if_pos (by omega), tdiv_two _ (by omega)]; omega
    dsimp only
    rw [ea, if_pos (by omega), if_pos (by omega)]
    refine ⟨by simp [e1], ?_⟩
    have hlen : (computeDist p.innerWidth p.radius (p.innerWidth * (2 * j)) (2 * j)).locs.length = 2 * j := by
      rw [computeDist_length, e1]; simp
    have : ((computeDist p.innerWidth p.radius (p.innerWidth * (2 * j)) (2 * j)).locs.map (· + p.outerWidth) ++
        [p.innerWidth * (2 * (j : Int)) + 2 * p.outerWidth - p.outerWidth.tdiv 2]).take j =
        (List.range j).map fun i : Nat => p.outerWidth + (i : Int) * p.innerWidth + p.innerWidth.tdiv 2 := by
      rw [List.take_append_of_le_length (by simp [hlen]; omega), ← List.map_take, e2, List.map_map]
      apply List.map_congr_left
      intro i _
      simp only [Function.comp]
      ring
    simpa using this

theorem head_split {l H : List Int} {k : Nat} (h : l.take k = H) : ∃ R, l = H ++ R ∧ R.length = l.length - k :=
  ⟨l.drop k, by rw [← h, List.take_append_drop], by simp⟩

/-- More beads than allowed. -/
theorem limit_over {p : Params} (hp : Sane p) (t : Int) {n : Int} (hn : p.maxCount < n) :
    ∃ (k : Nat) (x a : Int), p.maxCount = 2 * ((k : Int) + 1) ∧ (limitLocs p k).getLast? = some x ∧
      (limitWidths p k).getLast? = some a ∧
      compute (makeStrategy p) t n = .ok ⟨t, limitWidths p k ++ [0, 0] ++ (limitWidths p k).reverse,
        limitLocs p k ++ [x + a.tdiv 2, t - x - a.tdiv 2] ++ (limitLocs p k).reverse.map (t - ·),
        some (t - (p.innerWidth * (2 * k) + 2 * p.outerWidth))⟩ := by
  have h2 := hp.max
  have he := hp.even
  have ho := hp.outer
  have hi := hp.inner
  obtain ⟨k, hk⟩ : ∃ k : Nat, p.maxCount = 2 * ((k : Int) + 1) := ⟨((p.maxCount - 2) / 2).toNat, by omega⟩
  have hm : p.maxCount = 2 * (k : Int) + 2 := by omega
  rw [makeStrategy_eq]
  unfold compute
  rw [if_neg (by omega), optThickness_stack p _ h2, compute_stack]
  have e0 : p.innerWidth * (p.maxCount - 2) + 2 * p.outerWidth = p.innerWidth * (2 * k) + 2 * p.outerWidth := by
    rw [hm]; ring
  rw [e0]
  generalize hot : p.innerWidth * (2 * (k : Int)) + 2 * p.outerWidth = ot
  have hk0 : 0 ≤ p.innerWidth * (k : Int) := by positivity
  have hbase : base p ot p.maxCount = core p ot p.maxCount := by
    unfold base
    rw [if_neg]
    rintro ⟨h1, h3⟩
    have h4 := hp.thin h1
    have : p.innerWidth * (2 * (k : Int)) = 2 * (p.innerWidth * k) := by ring
    omega
  have hopt := core_optimal hp k
  rw [hot, ← hm] at hopt
  obtain ⟨hw, hl⟩ := hopt
  have hlen : (core p ot p.maxCount).locs.length = 2 * k + 2 := by rw [core_length, hw]; simp
  have hsum : (core p ot p.maxCount).widths.sum = ot := by
    rw [hw]; simp; rw [← hot]; ring
  have hlo : (core p ot p.maxCount).leftOver = some 0 := by rw [core_leftOver, hsum]; simp
  rw [hbase]
  simp only [Outcome.bind]
  have hwid : (core p ot p.maxCount).widths = limitWidths p k ++ (limitWidths p k).reverse := by
    rw [hw]; unfold limitWidths
    rw [two_mul, ← List.replicate_append_replicate]
    simp only [List.reverse_cons, List.reverse_replicate, List.cons_append, List.append_assoc]
  have hins : (insetLocs p ot (core p ot p.maxCount)).take (k + 1) = limitLocs p k := by
    unfold insetLocs
    rw [if_neg]
    · cases hcl : (core p ot p.maxCount).locs with
      | nil => rw [hcl] at hlen; simp at hlen
      | cons l ls =>
        rw [hcl] at hl
        rw [List.take_succ_cons, List.cons.injEq] at hl
        obtain ⟨hl1, hl2⟩ := hl
        simp only [List.take_succ_cons, ← List.map_take, hl2, hl1]
        unfold limitLocs
        have : ot.tdiv 2 = p.innerWidth * k + p.outerWidth := by
          have : p.innerWidth * (2 * (k : Int)) = 2 * (p.innerWidth * k) := by ring
          rw [tdiv_two _ (by omega)]; omega
        rw [this, List.map_map]
        rfl
    · rw [hw]
      simp [ho]
  have hlen2 : (insetLocs p ot (core p ot p.maxCount)).length = 2 * k + 2 := by rw [insetLocs_length, hlen]
  obtain ⟨R, hR, hRl⟩ := head_split hins
  have hHl : (limitLocs p k).length = k + 1 := by rw [← hins]; simp; omega
  have hWl : (limitWidths p k).length = k + 1 := by unfold limitWidths; simp
  obtain ⟨h0, x, hx⟩ : ∃ h0 x, limitLocs p k = h0 ++ [x] :=
    ⟨_, _, (List.dropLast_append_getLast (by intro h; rw [h] at hHl; simp at hHl)).symm⟩
  obtain ⟨u, a, ha⟩ : ∃ u a, limitWidths p k = u ++ [a] :=
    ⟨_, _, (List.dropLast_append_getLast (by intro h; rw [h] at hWl; simp at hWl)).symm⟩
  have hh0 : h0.length = k := by rw [hx] at hHl; simpa using hHl
  have hu : u.length = k := by rw [ha] at hWl; simpa using hWl
  refine ⟨k, x, a, hk, by rw [hx]; simp, by rw [ha]; simp, ?_⟩
  have := overLimit_spec (k := k + 1) (t := t) (ot := ot) (lo := 0)
    (b := { core p ot p.maxCount with locs := insetLocs p ot (core p ot p.maxCount) })
    (h0 := h0) (x := x) (rest := R) (u := u) (a := a) (a' := a) (v := u.reverse)
    (by rw [hR, hx]; simp) (by omega) (by omega) (by rw [hwid, ha]; simp) (by omega) hlo
  rw [show p.maxCount = 2 * ((k + 1 : Nat) : Int) by omega] at this ⊢
  rw [this]
  have htot := core_total p ot (2 * ((k + 1 : Nat) : Int))
  dsimp only at htot ⊢
  rw [htot, ha, hx]
  simp
  exact hot.symm

end Verif.Beading
