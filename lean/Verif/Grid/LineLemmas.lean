import Verif.Grid.WalkLemmas

namespace Verif.Grid

variable {s : Int}

theorem lerp_mono {u v : Int} (h : u ≤ v) {t t' : ℚ} (ht : t ≤ t') : lerp u v t ≤ lerp u v t' := by
  have : (u : ℚ) ≤ v := by exact_mod_cast h
  unfold lerp
  nlinarith

theorem lerp_zero (u v : Int) : lerp u v 0 = u := by unfold lerp; ring
theorem lerp_one (u v : Int) : lerp u v 1 = v := by unfold lerp; ring

/-- The fraction of the line at which row `cy` is left. -/
def leave (s : Int) (a b : Pt) (dir cy : Int) : ℚ :=
  if b.y - a.y = 0 then 1 else ((nextY s dir cy : ℚ) - a.y) / ((b.y : ℚ) - a.y)

/-- Up to where a row is left, in terms of the row number. -/
theorem leave_after (hs : 0 < s) (a b : Pt) (dir cy : Int) (hdir : dir = nonzeroSign (b.y - a.y)) (t : ℚ)
    (ht1 : t ≤ 1) (h : (cellR s (lerp a.y b.y t) - cy) * dir ≤ 0) : t ≤ leave s a b dir cy := by
  unfold leave
  split_ifs with h0
  · exact ht1
  · have hd : dir = 1 ∨ dir = -1 := by rw [hdir]; unfold nonzeroSign; split_ifs <;> simp
    have := nextY_before hs dir cy hd _ h
    unfold lerp at this
    unfold nonzeroSign at hdir
    split_ifs at hdir with h1
    · have hp : (0 : ℚ) < (b.y : ℚ) - a.y := by
        have : 0 < b.y - a.y := by omega
        exact_mod_cast this
      subst hdir
      rw [le_div_iff₀ hp]
      push_cast at this ⊢
      nlinarith
    · have hp : (b.y : ℚ) - a.y < 0 := by
        have : b.y - a.y < 0 := by omega
        exact_mod_cast this
      subst hdir
      rw [le_div_iff_of_neg hp]
      push_cast at this ⊢
      nlinarith

theorem leave_before (hs : 0 < s) (a b : Pt) (dir cy : Int) (hdir : dir = nonzeroSign (b.y - a.y)) (t : ℚ)
    (h0 : b.y - a.y ≠ 0) (h : 0 < (cellR s (lerp a.y b.y t) - cy) * dir) : leave s a b dir cy ≤ t := by
  unfold leave
  rw [if_neg h0]
  have hd : dir = 1 ∨ dir = -1 := by rw [hdir]; unfold nonzeroSign; split_ifs <;> simp
  have := nextY_after hs dir cy hd _ h
  unfold lerp at this
  unfold nonzeroSign at hdir
  split_ifs at hdir with h1
  · have hp : (0 : ℚ) < (b.y : ℚ) - a.y := by
      have : 0 < b.y - a.y := by omega
      exact_mod_cast this
    subst hdir
    rw [div_le_iff₀ hp]
    push_cast at this ⊢
    nlinarith
  · have hp : (b.y : ℚ) - a.y < 0 := by
      have : b.y - a.y < 0 := by omega
      exact_mod_cast this
    subst hdir
    rw [div_le_iff_of_neg hp]
    push_cast at this ⊢
    nlinarith

theorem lerp_leave (a b : Pt) (dir cy : Int) (h0 : b.y - a.y ≠ 0) :
    lerp a.y b.y (leave s a b dir cy) = nextY s dir cy := by
  unfold leave lerp
  rw [if_neg h0]
  have : ((b.y : ℚ) - a.y) ≠ 0 := by exact_mod_cast h0
  field_simp
  ring

/-- The last column of a row is the column in which the line leaves the row. -/
theorem rowLast_eq (hs : 0 < s) (a b : Pt) (dir xs cy : Int) (hx : a.x ≤ b.x)
    (h : 0 ≤ leave s a b dir cy) :
    rowLast s a b dir xs cy = cellR s (lerp a.x b.x (leave s a b dir cy)) := by
  have hge : cellR s (a.x : ℚ) ≤ cellR s (lerp a.x b.x (leave s a b dir cy)) := by
    apply cellR_mono hs
    rw [← lerp_zero a.x b.x]
    exact lerp_mono hx h
  unfold leave at h hge ⊢
  unfold rowLast
  split_ifs at h hge ⊢ with h0
  · rw [toGridCoord_eq hs, lerp_one]
  · dsimp only
    rw [crossing_cell hs a b _ h0 hx h, toGridCoord_eq hs, if_neg (not_lt.2 hge)]

/-- A column between those of two points of the line is the column of a point in between. -/
theorem column_between (hs : 0 < s) {u v : Int} (hx : u ≤ v) {t t' : ℚ} (ht : t ≤ t') (c : Int)
    (h1 : cellR s (lerp u v t) ≤ c) (h2 : c ≤ cellR s (lerp u v t')) :
    ∃ r, t ≤ r ∧ r ≤ t' ∧ cellR s (lerp u v r) = c := by
  by_cases e1 : cellR s (lerp u v t) = c
  · exact ⟨t, le_rfl, ht, e1⟩
  by_cases e2 : cellR s (lerp u v t') = c
  · exact ⟨t', ht, le_rfl, e2⟩
  have hcell : cellR s ((c * s : Int) : ℚ) = c := by
    rw [← toGridCoord_eq hs]
    unfold toGridCoord
    exact Int.mul_tdiv_cancel _ hs.ne'
  have l1 : lerp u v t < ((c * s : Int) : ℚ) := by
    by_contra hc
    have := cellR_mono hs (not_lt.1 hc)
    omega
  have l2 : ((c * s : Int) : ℚ) < lerp u v t' := by
    by_contra hc
    have := cellR_mono hs (not_lt.1 hc)
    omega
  have huv : (u : ℚ) < v := by
    have : (u : ℚ) ≤ v := by exact_mod_cast hx
    rcases this.lt_or_eq with h | h
    · exact h
    · unfold lerp at l1 l2
      rw [h] at l1 l2
      simp only [sub_self, zero_mul] at l1 l2
      linarith
  have hp : (0 : ℚ) < (v : ℚ) - u := by linarith
  have hp' : (v : ℚ) - u ≠ 0 := hp.ne'
  refine ⟨(((c * s : Int) : ℚ) - u) / ((v : ℚ) - u), ?_, ?_, ?_⟩
  · rw [le_div_iff₀ hp]; unfold lerp at l1; nlinarith
  · rw [div_le_iff₀ hp]; unfold lerp at l2; nlinarith
  · rw [← hcell]
    congr 1
    rw [hcell]
    unfold lerp
    rw [mul_div_cancel₀ _ hp']
    ring

/-- What a walk from row `cy` on passes. -/
structure Walk (s : Int) (a b : Pt) (dir cy : Int) (l : List Pt) : Prop where
  covers : ∀ t : ℚ, 0 ≤ t → t ≤ 1 → 0 ≤ (cellR s (lerp a.y b.y t) - cy) * dir →
    (⟨cellR s (lerp a.x b.x t), cellR s (lerp a.y b.y t)⟩ : Pt) ∈ l
  last : ∃ l', l = l' ++ [toGridPoint s b]
  close : ∀ c ∈ l, ∃ t : ℚ, 0 ≤ t ∧ t ≤ 1 ∧ cellR s (lerp a.x b.x t) = c.x ∧
    InClosed1 s c.y (lerp a.y b.y t)
  rows : ∀ c ∈ l, 0 ≤ (c.y - cy) * dir
  nodup : l.Nodup

theorem rowCells_nodup (cy a b : Int) : (rowCells cy a b).Nodup := by
  unfold rowCells
  apply List.Nodup.map _ (span_nodup a b)
  intro x y h
  injection h

theorem lerp_between (u v : Int) {t r t' : ℚ} (h1 : t ≤ r) (h2 : r ≤ t') :
    (lerp u v t ≤ lerp u v r ∧ lerp u v r ≤ lerp u v t') ∨
    (lerp u v t' ≤ lerp u v r ∧ lerp u v r ≤ lerp u v t) := by
  unfold lerp
  rcases le_total (u : ℚ) v with h | h
  · left; constructor <;> nlinarith
  · right; constructor <;> nlinarith

theorem walk (hs : 0 < s) (a b : Pt) (dir : Int) (hx : a.x ≤ b.x)
    (hdir : dir = nonzeroSign (b.y - a.y)) (n : Nat) (cy : Int) (τ : ℚ)
    (h0 : 0 ≤ τ) (h1 : τ ≤ 1) (hn : toGridCoord s b.y = cy + n * dir)
    (hclosed : InClosed1 s cy (lerp a.y b.y τ))
    (hτ : ∀ t : ℚ, 0 ≤ t → t ≤ 1 → 0 ≤ (cellR s (lerp a.y b.y t) - cy) * dir → τ ≤ t)
    (hflat : b.y - a.y = 0 → n = 0)
    (hleave : 0 ≤ leave s a b dir cy) :
    Walk s a b dir cy (cellsFrom s a b dir (n + 1) cy (cellR s (lerp a.x b.x τ))) := by
  have hd : dir = 1 ∨ dir = -1 := by rw [hdir]; unfold nonzeroSign; split_ifs <;> simp
  induction n generalizing cy τ with
  | zero =>
    have hn' : cellR s (lerp a.y b.y 1) = cy := by
      rw [lerp_one, ← toGridCoord_eq hs, hn]; push_cast; ring
    have hl1 : 1 ≤ leave s a b dir cy := leave_after hs a b dir cy hdir 1 le_rfl (by rw [hn']; simp)
    have ex : (toGridPoint s b).x = cellR s (lerp a.x b.x 1) := by
      rw [lerp_one, ← toGridCoord_eq hs]; rfl
    have ey : (toGridPoint s b).y = cy := by
      rw [← hn', lerp_one, ← toGridCoord_eq hs]; rfl
    have hxs : cellR s (lerp a.x b.x τ) ≤ (toGridPoint s b).x := by
      rw [ex]; exact cellR_mono hs (lerp_mono hx h1)
    have hxe : (toGridPoint s b).x ≤ rowLast s a b dir (cellR s (lerp a.x b.x τ)) cy := by
      rw [rowLast_eq hs a b dir _ cy hx hleave, ex]
      exact cellR_mono hs (lerp_mono hx hl1)
    have e : cellsFrom s a b dir (0 + 1) cy (cellR s (lerp a.x b.x τ)) =
        rowCells cy (cellR s (lerp a.x b.x τ)) (toGridPoint s b).x := by
      unfold cellsFrom
      dsimp only
      rw [if_pos ⟨ey.symm, hxs, hxe⟩]
    rw [e]
    refine ⟨?_, ?_, ?_, ?_, rowCells_nodup _ _ _⟩
    · intro t ht0 ht1 hrow
      rw [mem_rowCells]
      dsimp only
      have hle : (cellR s (lerp a.y b.y t) - cy) * dir ≤ 0 := by
        rcases hd with rfl | rfl
        · have h2 : a.y ≤ b.y := by by_contra hc; rw [nonzeroSign] at hdir; split_ifs at hdir; omega
          have := cellR_mono hs (lerp_mono h2 ht1)
          omega
        · have h2 : b.y ≤ a.y := by by_contra hc; rw [nonzeroSign] at hdir; split_ifs at hdir; omega
          have h2q : (b.y : ℚ) ≤ a.y := by exact_mod_cast h2
          have h3 : lerp a.y b.y 1 ≤ lerp a.y b.y t := by unfold lerp; nlinarith
          have := cellR_mono hs h3
          omega
      have hrow' : cellR s (lerp a.y b.y t) = cy := by rcases hd with rfl | rfl <;> omega
      refine ⟨hrow', ?_, ?_⟩
      · exact cellR_mono hs (lerp_mono hx (hτ t ht0 ht1 hrow))
      · rw [ex]; exact cellR_mono hs (lerp_mono hx ht1)
    · refine ⟨rowCells cy (cellR s (lerp a.x b.x τ)) ((toGridPoint s b).x - 1), ?_⟩
      unfold rowCells
      rw [span_last _ _ hxs, List.map_append]
      congr 1
      simp only [List.map_cons, List.map_nil]
      congr 1
      rw [← ey]
    · intro c hc
      rw [mem_rowCells] at hc
      obtain ⟨r, hr1, hr2, hr3⟩ := column_between hs hx h1 c.x hc.2.1 (by rw [← ex]; exact hc.2.2)
      refine ⟨r, by linarith, hr2, hr3, ?_⟩
      rw [hc.1]
      have hcl1 : InClosed1 s cy (lerp a.y b.y 1) := by
        rw [← hn']; exact inClosed1_of_cell hs _
      exact inClosed1_convex cy _ _ _ hclosed hcl1 (lerp_between a.y b.y hr1 hr2)
    · intro c hc
      rw [mem_rowCells] at hc
      rw [hc.1]; simp
  | succ n ih =>
    have hne : b.y - a.y ≠ 0 := by intro h; have := hflat h; omega
    have hbrow : cellR s (lerp a.y b.y 1) = cy + (n + 1) * dir := by
      rw [lerp_one, ← toGridCoord_eq hs, hn]; push_cast; ring
    have hpos : 0 < (cellR s (lerp a.y b.y 1) - cy) * dir := by
      rw [hbrow]
      rcases hd with rfl | rfl <;> (ring_nf; omega)
    have hl1 : leave s a b dir cy ≤ 1 := leave_before hs a b dir cy hdir 1 hne hpos
    have ey : ¬ cy = (toGridPoint s b).y := by
      have : (toGridPoint s b).y = cy + (n + 1) * dir := by
        rw [← hbrow, lerp_one, ← toGridCoord_eq hs]; rfl
      rw [this]
      rcases hd with rfl | rfl <;> omega
    have exe := rowLast_eq hs a b dir (cellR s (lerp a.x b.x τ)) cy hx hleave
    have e : cellsFrom s a b dir (n + 1 + 1) cy (cellR s (lerp a.x b.x τ)) =
        rowCells cy (cellR s (lerp a.x b.x τ)) (cellR s (lerp a.x b.x (leave s a b dir cy))) ++
          cellsFrom s a b dir (n + 1) (cy + dir) (cellR s (lerp a.x b.x (leave s a b dir cy))) := by
      conv_lhs => unfold cellsFrom
      dsimp only
      rw [if_neg (fun h => ey h.1), exe]
    have hmono : ∀ t : ℚ, t ≤ 1 → (cellR s (lerp a.y b.y t) - cy) * dir ≤ 0 → t ≤ leave s a b dir cy :=
      fun t ht h => leave_after hs a b dir cy hdir t ht h
    have hnext := nextY_closed hs dir cy hd
    rw [← lerp_leave (s := s) a b dir cy hne] at hnext
    have hl' : 0 ≤ leave s a b dir (cy + dir) := by
      -- the next row is left later
      by_cases hr : (cellR s (lerp a.y b.y 0) - (cy + dir)) * dir ≤ 0
      · exact leave_after hs a b dir _ hdir 0 zero_le_one hr
      · exfalso
        have h2 : 0 < (cellR s (lerp a.y b.y 0) - cy) * dir := by
          rcases hd with rfl | rfl <;> omega
        have h3 : leave s a b dir cy ≤ 0 := leave_before hs a b dir cy hdir 0 hne h2
        have h4 : leave s a b dir cy = 0 := le_antisymm h3 hleave
        rw [h4] at hnext
        have h5 := (inClosed1_of_cell hs (lerp a.y b.y 0))
        have h6 := lerp_leave (s := s) a b dir cy hne
        rw [h4] at h6
        -- the start point would be beyond the row after the one whose border it is on
        have h7 : 0 ≤ (lerp a.y b.y 0 - nextY s dir (cy + dir)) * dir :=
          nextY_after hs dir (cy + dir) hd _ (by push Not at hr; exact hr)
        rw [h6] at h7
        have hq : (0 : ℚ) < s := by exact_mod_cast hs
        rcases hd with rfl | rfl
        · rw [nextY_up, nextY_up] at h7
          split_ifs at h7 <;> first | omega | (push_cast at h7; nlinarith)
        · rw [nextY_down, nextY_down] at h7
          split_ifs at h7 <;> first | omega | (push_cast at h7; nlinarith)
    have W := ih (cy + dir) (leave s a b dir cy) hleave hl1
      (by rw [hn]; push_cast; ring) hnext.2
      (by
        intro t ht0 ht1 hrow
        apply leave_before hs a b dir cy hdir t hne
        rcases hd with rfl | rfl <;> omega)
      (fun h => absurd h hne) hl'
    rw [e]
    refine ⟨?_, ?_, ?_, ?_, ?_⟩
    · intro t ht0 ht1 hrow
      rw [List.mem_append]
      by_cases hr : (cellR s (lerp a.y b.y t) - cy) * dir ≤ 0
      · left
        rw [mem_rowCells]
        have hrow' : cellR s (lerp a.y b.y t) = cy := by rcases hd with rfl | rfl <;> omega
        exact ⟨hrow', cellR_mono hs (lerp_mono hx (hτ t ht0 ht1 hrow)),
          cellR_mono hs (lerp_mono hx (hmono t ht1 hr))⟩
      · right
        exact W.covers t ht0 ht1 (by rcases hd with rfl | rfl <;> omega)
    · obtain ⟨l', hl⟩ := W.last
      exact ⟨rowCells cy (cellR s (lerp a.x b.x τ)) (cellR s (lerp a.x b.x (leave s a b dir cy))) ++ l',
        by rw [hl, List.append_assoc]⟩
    · intro c hc
      rcases List.mem_append.1 hc with hc | hc
      · rw [mem_rowCells] at hc
        rcases le_total τ (leave s a b dir cy) with hle | hle
        · obtain ⟨r, hr1, hr2, hr3⟩ := column_between hs hx hle c.x hc.2.1 hc.2.2
          refine ⟨r, by linarith, by linarith, hr3, ?_⟩
          rw [hc.1]
          exact inClosed1_convex cy _ _ _ hclosed hnext.1 (lerp_between a.y b.y hr1 hr2)
        · have h2 := cellR_mono hs (lerp_mono hx hle)
          exact ⟨τ, h0, h1, by omega, by rw [hc.1]; exact hclosed⟩
      · exact W.close c hc
    · intro c hc
      rcases List.mem_append.1 hc with hc | hc
      · rw [mem_rowCells] at hc
        rw [hc.1]; simp
      · have := W.rows c hc
        rcases hd with rfl | rfl <;> omega
    · rw [List.nodup_append]
      refine ⟨rowCells_nodup _ _ _, W.nodup, ?_⟩
      intro c hc c' hc' heq
      subst heq
      rw [mem_rowCells] at hc
      have := W.rows c hc'
      rcases hd with rfl | rfl <;> omega

end Verif.Grid
