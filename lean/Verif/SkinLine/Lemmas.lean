import Verif.SkinLine.Model
import Mathlib.Tactic.Linarith
import Mathlib.Tactic.Ring
import Mathlib.Tactic.SplitIfs
import Mathlib.Tactic.ByContra
import Mathlib.Tactic.Push
import Mathlib.Data.List.Nodup

namespace Verif.SkinLine

open Spec

theorem mem_insertPoint (x y : ℚ) (l : List ℚ) : y ∈ insertPoint x l ↔ y = x ∨ y ∈ l := by
  induction l with
  | nil => simp [insertPoint]
  | cons z zs ih =>
    unfold insertPoint
    split_ifs with h1 h2
    · simp
    · rw [List.mem_cons, ih, List.mem_cons]; tauto
    · have : x = z := le_antisymm (not_lt.1 h2) (not_lt.1 h1)
      rw [List.mem_cons, this]; tauto

theorem sorted_insertPoint (x : ℚ) (l : List ℚ) (h : l.Pairwise (· < ·)) : (insertPoint x l).Pairwise (· < ·) := by
  induction l with
  | nil => simp [insertPoint]
  | cons z zs ih =>
    have h' := List.pairwise_cons.1 h
    unfold insertPoint
    split_ifs with h1 h2
    · rw [List.pairwise_cons]
      refine ⟨?_, h⟩
      intro y hy
      rcases List.mem_cons.1 hy with hy | hy
      · rw [hy]; exact h1
      · exact lt_trans h1 (h'.1 y hy)
    · rw [List.pairwise_cons]
      refine ⟨?_, ih h'.2⟩
      intro y hy
      rcases (mem_insertPoint x y zs).1 hy with hy | hy
      · rw [hy]; exact h2
      · exact h'.1 y hy
    · exact h

theorem perm_insertPoint (x : ℚ) (l : List ℚ) (h : x ∉ l) : (insertPoint x l).Perm (x :: l) := by
  induction l with
  | nil => exact .refl _
  | cons z zs ih =>
    unfold insertPoint
    split_ifs with h1 h2
    · exact .refl _
    · exact ((ih fun hx => h (List.mem_cons_of_mem _ hx)).cons z).trans (.swap _ _ _)
    · have : x = z := le_antisymm (not_lt.1 h2) (not_lt.1 h1)
      exact absurd (by rw [this]; simp) h

/-- The ends, in a list. -/
def ends (segs : List (ℚ × ℚ)) : List ℚ := segs.flatMap fun g => [g.1, g.2]

theorem points_spec (segs : List (ℚ × ℚ)) : ∀ acc : List ℚ, acc.Pairwise (· < ·) → (acc ++ ends segs).Nodup →
    (segs.foldl (fun s g => insertPoint g.2 (insertPoint g.1 s)) acc).Pairwise (· < ·)
    ∧ (segs.foldl (fun s g => insertPoint g.2 (insertPoint g.1 s)) acc).Perm (acc ++ ends segs) := by
  induction segs with
  | nil => intro acc h _; exact ⟨h, by simp [ends]⟩
  | cons g segs ih =>
    intro acc h hn
    rw [List.foldl_cons]
    have he : ends (g :: segs) = g.1 :: g.2 :: ends segs := rfl
    rw [he] at hn ⊢
    have hn1 : g.1 ∉ acc := fun hm => by
      rw [List.nodup_append] at hn
      exact hn.2.2 g.1 hm g.1 (by simp) rfl
    have hn2 : g.2 ∉ acc := fun hm => by
      rw [List.nodup_append] at hn
      exact hn.2.2 g.2 hm g.2 (by simp) rfl
    have hne : g.2 ≠ g.1 := by
      have := (List.nodup_append.1 hn).2.1
      rw [List.nodup_cons] at this
      exact fun h => this.1 (by rw [h]; simp)
    have hp1 := perm_insertPoint g.1 acc hn1
    have hp2 := perm_insertPoint g.2 (insertPoint g.1 acc) (fun hm => by
      rcases (mem_insertPoint g.1 g.2 acc).1 hm with hm | hm
      · exact hne hm
      · exact hn2 hm)
    have hperm : (insertPoint g.2 (insertPoint g.1 acc) ++ ends segs).Perm (acc ++ g.1 :: g.2 :: ends segs) := by
      have h1 : (insertPoint g.2 (insertPoint g.1 acc)).Perm (g.2 :: g.1 :: acc) := hp2.trans (hp1.cons g.2)
      have h2 : (insertPoint g.2 (insertPoint g.1 acc)).Perm (acc ++ [g.1, g.2]) := by
        refine h1.trans ((List.Perm.swap _ _ _).trans ?_)
        exact List.perm_append_comm (l₁ := [g.1, g.2]) (l₂ := acc)
      have h3 := h2.append_right (ends segs)
      rw [List.append_assoc] at h3
      exact h3
    obtain ⟨g1, g2⟩ := ih _ (sorted_insertPoint g.2 _ (sorted_insertPoint g.1 _ h)) (hperm.nodup_iff.2 hn)
    exact ⟨g1, g2.trans hperm⟩

/-- Whether an odd number of places is before `t`. -/
def odd (l : List ℚ) (t : ℚ) : Bool := l.foldr (fun x b => xor (decide (x < t)) b) false

theorem odd_cons (x : ℚ) (l : List ℚ) (t : ℚ) : odd (x :: l) t = xor (decide (x < t)) (odd l t) := rfl

theorem odd_perm {l k : List ℚ} (h : l.Perm k) (t : ℚ) : odd l t = odd k t := by
  induction h with
  | nil => rfl
  | cons x _ ih => rw [odd_cons, odd_cons, ih]
  | swap x y l => rw [odd_cons, odd_cons, odd_cons, odd_cons, ← Bool.xor_assoc, ← Bool.xor_assoc, Bool.xor_comm (decide (y < t))]
  | trans _ _ h1 h2 => rw [h1, h2]

/-- The parity tells whether the place is in a part. -/
theorem odd_within (segs : List (ℚ × ℚ)) (t : ℚ) (hp : segs.Pairwise fun g h => ∀ t, ¬ (Within g t ∧ Within h t)) (ht : t ∉ ends segs) :
    odd (ends segs) t = true ↔ ∃ g ∈ segs, Within g t := by
  induction segs with
  | nil => simp [ends, odd]
  | cons g segs ih =>
    have hp' := List.pairwise_cons.1 hp
    have he : ends (g :: segs) = g.1 :: g.2 :: ends segs := rfl
    rw [he] at ht ⊢
    have h1 : t ≠ g.1 := fun h => ht (by rw [h]; simp)
    have h2 : t ≠ g.2 := fun h => ht (by rw [h]; simp)
    have hih := ih hp'.2 (fun h => ht (by simp [h]))
    rw [odd_cons, odd_cons]
    have hg : (xor (decide (g.1 < t)) (decide (g.2 < t)) = true) ↔ Within g t := by
      unfold Within
      rcases lt_or_gt_of_ne h1 with a | a <;> rcases lt_or_gt_of_ne h2 with b | b <;>
        simp [a, b, not_lt.2 (le_of_lt a), not_lt.2 (le_of_lt b)]
    rw [← Bool.xor_assoc]
    by_cases hw : Within g t
    · have hx := hg.2 hw
      have hno : ¬ ∃ h ∈ segs, Within h t := fun ⟨h, hh, hwh⟩ => hp'.1 h hh t ⟨hw, hwh⟩
      have hf : odd (ends segs) t = false := by
        cases ho : odd (ends segs) t with
        | false => rfl
        | true => exact absurd (hih.1 ho) hno
      rw [hx, hf]
      simp [hw]
    · have hx : xor (decide (g.1 < t)) (decide (g.2 < t)) = false := by
        cases ho : xor (decide (g.1 < t)) (decide (g.2 < t)) with
        | false => rfl
        | true => exact absurd (hg.1 ho) hw
      rw [hx, Bool.false_xor, hih]
      simp [hw]

theorem skinAt_cons (m : Sub) (l : List Sub) (t : ℚ) : skinAt (m :: l) t = if t ≤ m.place then some m.skin else skinAt l t := by
  unfold skinAt
  rw [List.find?_cons]
  by_cases h : t ≤ m.place
  · simp [h]
  · simp [h]

/-- The settings at a place are those of the number of stops before it. -/
theorem run_skinAt (z0 z1 : Int) (len : ℚ) (xs : List ℚ) (t s e : ℚ) (hst : s < t) (hte : t < e) (hel : e ≤ len) (hse : e - s > 5)
    (hs : xs.Pairwise (· < ·)) (hclear : ∀ x ∈ xs, ¬ (s < x ∧ x < e)) (hlen : len ∈ xs) :
    ∀ (cur : ℚ) (b tr : Bool), cur ≤ s → skinAt (run z0 z1 len cur b tr xs) t = some (xor b (odd xs t)) := by
  induction xs with
  | nil => simp at hlen
  | cons x xs ih =>
    intro cur b tr hcur
    have hs' := List.pairwise_cons.1 hs
    have hx := hclear x (by simp)
    rw [odd_cons]
    by_cases hxs : x ≤ s
    · have hxt : x < t := by linarith
      have hxl : x ≠ len := by intro h; linarith
      have hmem : len ∈ xs := by
        rcases List.mem_cons.1 hlen with h | h
        · exact absurd h.symm hxl
        · exact h
      have hrec := ih hs'.2 (fun y hy => hclear y (List.mem_cons_of_mem _ hy)) hmem x (!b)
      rw [show decide (x < t) = true by simpa using hxt]
      have hb : (xor (!b) (odd xs t)) = xor b (xor true (odd xs t)) := by cases b <;> cases odd xs t <;> rfl
      unfold run
      split_ifs with hc
      · rw [skinAt_cons, if_neg (not_le.2 hxt), hrec false hxs, hb]
      · rw [hrec tr hxs, hb]
    · have hxe : e ≤ x := by
        by_contra h
        exact hx ⟨not_le.1 hxs, not_le.1 h⟩
      have hodd : odd xs t = false := by
        have : ∀ l : List ℚ, (∀ y ∈ l, t ≤ y) → odd l t = false := by
          intro l
          induction l with
          | nil => intro _; rfl
          | cons y l ih =>
            intro h
            rw [odd_cons, ih (fun z hz => h z (List.mem_cons_of_mem _ hz))]
            simpa using h y (by simp)
        exact this xs fun y hy => by linarith [hs'.1 y hy]
      unfold run
      rw [if_pos (Or.inr (by nlinarith)), skinAt_cons, if_pos (by dsimp only; linarith), hodd, show decide (x < t) = false by simpa using (by linarith : t ≤ x)]
      cases b <;> rfl

theorem run_last (z0 z1 : Int) (len : ℚ) (xs : List ℚ) (hs : xs.Pairwise (· < ·)) (hle : ∀ x ∈ xs, x ≤ len) (hlen : len ∈ xs) :
    ∀ (cur : ℚ) (b tr : Bool), ∃ l m, run z0 z1 len cur b tr xs = l ++ [m] ∧ m.place = len := by
  induction xs with
  | nil => simp at hlen
  | cons x xs ih =>
    intro cur b tr
    have hs' := List.pairwise_cons.1 hs
    by_cases hx : x = len
    · have hnil : xs = [] := by
        cases xs with
        | nil => rfl
        | cons y ys =>
          have h1 := hs'.1 y (by simp)
          have h2 := hle y (by simp)
          linarith
      rw [hnil]
      unfold run
      rw [if_pos (Or.inl hx)]
      exact ⟨[], _, rfl, hx⟩
    · have hmem : len ∈ xs := by
        rcases List.mem_cons.1 hlen with h | h
        · exact absurd h.symm hx
        · exact h
      have hrec := ih hs'.2 (fun y hy => hle y (List.mem_cons_of_mem _ hy)) hmem x (!b)
      unfold run
      split_ifs
      · obtain ⟨l, m, h1, h2⟩ := hrec false
        exact ⟨_ :: l, m, by rw [h1]; rfl, h2⟩
      · exact hrec tr

theorem run_mem (z0 z1 : Int) (len : ℚ) (xs : List ℚ) : ∀ (cur : ℚ) (b tr : Bool) (m : Sub), m ∈ run z0 z1 len cur b tr xs → m.place ∈ xs ∧ m.z = height z0 z1 len m.place := by
  induction xs with
  | nil => intro cur b tr m h; simp [run] at h
  | cons x xs ih =>
    intro cur b tr m h
    unfold run at h
    split_ifs at h
    · rcases List.mem_cons.1 h with h | h
      · rw [h]; exact ⟨by simp, rfl⟩
      · exact ⟨List.mem_cons_of_mem _ (ih _ _ _ _ h).1, (ih _ _ _ _ h).2⟩
    · exact ⟨List.mem_cons_of_mem _ (ih _ _ _ _ h).1, (ih _ _ _ _ h).2⟩

theorem run_sorted (z0 z1 : Int) (len : ℚ) (xs : List ℚ) (hs : xs.Pairwise (· < ·)) : ∀ (cur : ℚ) (b tr : Bool), (run z0 z1 len cur b tr xs).Pairwise fun m n => m.place < n.place := by
  induction xs with
  | nil => intro cur b tr; exact .nil
  | cons x xs ih =>
    intro cur b tr
    have hs' := List.pairwise_cons.1 hs
    unfold run
    split_ifs
    · rw [List.pairwise_cons]
      exact ⟨fun m hm => hs'.1 _ (run_mem z0 z1 len xs _ _ _ m hm).1, ih hs'.2 _ _ _⟩
    · exact ih hs'.2 _ _ _

theorem run_travel (z0 z1 : Int) (len : ℚ) (xs : List ℚ) : ∀ (cur : ℚ) (b tr : Bool),
    (∀ m ∈ (run z0 z1 len cur b tr xs).tail, m.travelToZ = false) ∧ ∀ m, (run z0 z1 len cur b tr xs).head? = some m → m.travelToZ = tr := by
  have hfalse : ∀ (xs : List ℚ) (cur : ℚ) (b : Bool), ∀ m ∈ run z0 z1 len cur b false xs, m.travelToZ = false := by
    intro xs
    induction xs with
    | nil => intro cur b m h; simp [run] at h
    | cons x xs ih =>
      intro cur b m h
      unfold run at h
      split_ifs at h
      · rcases List.mem_cons.1 h with h | h
        · rw [h]
        · exact ih _ _ _ h
      · exact ih _ _ _ h
  induction xs with
  | nil => intro cur b tr; simp [run]
  | cons x xs ih =>
    intro cur b tr
    unfold run
    split_ifs
    · exact ⟨fun m hm => hfalse xs _ _ m hm, fun m hm => by cases hm; rfl⟩
    · exact ih _ _ _

/-- What the stops are. -/
theorem stops_spec {len : ℚ} {segs : List (ℚ × ℚ)} (hl : 0 < len) (h : Parts len segs) :
    (stops len (points segs)).Pairwise (· < ·) ∧ len ∈ stops len (points segs) ∧ (∀ x ∈ stops len (points segs), 0 < x ∧ x ≤ len ∧ (x = len ∨ x ∈ ends segs))
    ∧ ∀ t, 0 < t → t < len → xor (startsInside (points segs)) (odd (stops len (points segs)) t) = odd (ends segs) t := by
  obtain ⟨hs, hp⟩ := points_spec segs [] .nil h.ends
  rw [List.nil_append] at hp
  have hpts : points segs = segs.foldl (fun s g => insertPoint g.2 (insertPoint g.1 s)) [] := rfl
  rw [← hpts] at hs hp
  have hbound : ∀ x ∈ points segs, 0 ≤ x ∧ x ≤ len := by
    intro x hx
    obtain ⟨g, hg, hxg⟩ := List.mem_flatMap.1 (hp.mem_iff.1 hx)
    have := h.on g hg
    simp only [List.mem_cons, List.not_mem_nil, or_false] at hxg
    rcases hxg with hxg | hxg <;> rw [hxg] <;> exact ⟨by tauto, by tauto⟩
  -- the points without the begin
  have hrest : ∃ rest, (if startsInside (points segs) then (points segs).tail else points segs) = rest ∧ rest.Pairwise (· < ·)
      ∧ (∀ x ∈ rest, 0 < x ∧ x ≤ len ∧ x ∈ ends segs) ∧ ∀ t, 0 < t → xor (startsInside (points segs)) (odd rest t) = odd (ends segs) t := by
    refine ⟨_, rfl, ?_⟩
    have hodd : ∀ t, odd (points segs) t = odd (ends segs) t := odd_perm hp
    have hmem : ∀ x, x ∈ points segs → x ∈ ends segs := fun x hx => hp.mem_iff.1 hx
    revert hs hbound hodd hmem
    generalize points segs = pts
    intro hs hbound hodd hmem
    cases pts with
    | nil =>
      refine ⟨by simp [startsInside], by simp [startsInside], ?_⟩
      intro t _
      rw [← hodd t]
      rfl
    | cons x xs =>
      have hs' := List.pairwise_cons.1 hs
      by_cases hx : x = 0
      · have hin : startsInside (x :: xs) = true := by rw [hx]; rfl
        rw [hin, if_pos rfl, List.tail_cons]
        refine ⟨hs'.2, ?_, ?_⟩
        · intro y hy
          have := hs'.1 y hy
          exact ⟨by linarith, (hbound y (by simp [hy])).2, hmem y (by simp [hy])⟩
        · intro t ht
          rw [← hodd t, odd_cons, show decide (x < t) = true by simpa [hx] using ht]
      · have hin : startsInside (x :: xs) = false := by
          unfold startsInside
          simpa using hx
        rw [hin, if_neg (by simp)]
        have hx0 : 0 < x := lt_of_le_of_ne (hbound x (by simp)).1 (Ne.symm hx)
        refine ⟨hs, ?_, ?_⟩
        · intro y hy
          refine ⟨?_, (hbound y hy).2, hmem y hy⟩
          rcases List.mem_cons.1 hy with hy | hy
          · rw [hy]; exact hx0
          · exact lt_trans hx0 (hs'.1 y hy)
        · intro t _
          rw [← hodd t, Bool.false_xor]
  obtain ⟨rest, hr, r1, r2, r3⟩ := hrest
  unfold stops
  rw [hr]
  refine ⟨sorted_insertPoint _ _ r1, (mem_insertPoint _ _ _).2 (Or.inl rfl), ?_, ?_⟩
  · intro x hx
    rcases (mem_insertPoint _ _ _).1 hx with hx | hx
    · rw [hx]; exact ⟨hl, le_refl _, Or.inl rfl⟩
    · exact ⟨(r2 x hx).1, (r2 x hx).2.1, Or.inr (r2 x hx).2.2⟩
  · intro t ht htl
    rw [← r3 t ht]
    congr 1
    by_cases hm : len ∈ rest
    · have : insertPoint len rest = rest := by
        clear hr r2 r3
        induction rest with
        | nil => simp at hm
        | cons y ys ih =>
          have r1' := List.pairwise_cons.1 r1
          unfold insertPoint
          rcases List.mem_cons.1 hm with hm | hm
          · rw [if_neg (by rw [hm]; exact lt_irrefl _), if_neg (by rw [hm]; exact lt_irrefl _)]
          · have := r1'.1 len hm
            rw [if_neg (not_lt.2 (le_of_lt this)), if_pos this, ih r1'.2 hm]
      rw [this]
    · rw [odd_perm (perm_insertPoint len rest hm) t, odd_cons, show decide (len < t) = false by simpa using le_of_lt htl, Bool.false_xor]

end Verif.SkinLine
