import Verif.Skin.Lemmas
import Mathlib.Tactic.FieldSimp
import Mathlib.Tactic.Ring
import Mathlib.Tactic.Linarith
import Mathlib.Algebra.Order.Floor.Ring

/-! # Lemmas for gradual infill -/

namespace Verif.Skin

open Verif.Box (AABB)
open Verif.Volumes (Point Region WithinFlat withinFlat_hit)

theorem infillOn_iff {layers : List (List InfillPart)} (h : InfillOk layers) {l : Nat} {q : InfillPart}
    (hq : q ∈ layers.getD l []) (k : Nat) {p : Point} (hp : p ∈ q.own) : p ∈ infillOn layers q.box k ↔ Filled layers k p := by
  have mem : ∀ {k : Nat} {r : InfillPart}, r ∈ layers.getD k [] → ∃ m ∈ layers, r ∈ m := by
    intro k r hr
    rw [List.getD_eq_getElem?_getD] at hr
    cases hk : layers[k]? with
    | none => rw [hk] at hr; simp at hr
    | some m =>
      rw [hk] at hr
      exact ⟨m, List.mem_of_getElem? hk, hr⟩
  constructor
  · rintro ⟨r, hr, _, hp⟩
    exact ⟨r, hr, hp⟩
  · rintro ⟨r, hr, hpr⟩
    obtain ⟨m, hm, hqm⟩ := mem hq
    obtain ⟨m', hm', hrm⟩ := mem hr
    exact ⟨r, hr, withinFlat_hit (h m' hm' r hrm p hpr) (h m hm q hqm p hp), hpr⟩

theorem skip_one (c : Gradual) (hg : c.gaps = false) (hc : 1 ≤ c.count) : c.skip = 1 := by
  unfold Gradual.skip
  simp only [hg, Bool.false_eq_true, if_false, div_one]
  have h1 : ((⌈(c.count : Rat)⌉ : Int) : Rat) = (c.count : Rat) := by
    rw [Int.ceil_natCast]
    simp
  have h2 : (1 : Rat) ≤ (c.count : Rat) := by exact_mod_cast hc
  rw [h1, max_eq_right h2, div_self (by linarith)]

theorem skip_zero (c : Gradual) (hc : c.count = 0) : c.skip = 0 := by
  unfold Gradual.skip
  simp [hc]

theorem scan_one (f : Nat → Region) (n : Nat) (hf : ∀ k, n ≤ k → f k = ∅) (last : Nat) : ∀ (fuel l : Nat) (r : Region),
    0 < fuel → last + 1 < l + fuel →
    scan f n 1 (last : Rat) fuel (l : Rat) r = .ok {p | p ∈ r ∧ ∀ j, l ≤ j → j ≤ last → p ∈ f j} := by
  intro fuel
  induction fuel with
  | zero =>
    intro l r h0 h
    omega
  | succ fuel ih =>
    intro l r _ h
    unfold scan
    by_cases h1 : l ≤ last
    · rw [if_pos (by exact_mod_cast h1)]
      by_cases h2 : n ≤ l
      · rw [if_pos (by exact_mod_cast h2)]
        congr 1
        ext p
        simp only [Set.mem_empty_iff_false, Set.mem_ofPred_eq, false_iff, not_and, not_forall]
        intro _
        exact ⟨l, le_rfl, h1, by rw [hf l h2]; exact fun h => h⟩
      · rw [if_neg (by
          intro h
          exact h2 (by exact_mod_cast h))]
        have e : ((l : Rat) + 1) = ((l + 1 : Nat) : Rat) := by push_cast; rfl
        rw [e, ih (l + 1) _ (by omega) (by omega)]
        congr 1
        ext p
        simp only [Set.mem_inter_iff, Set.mem_ofPred_eq, Int.floor_natCast, Int.toNat_natCast]
        constructor
        · rintro ⟨⟨h3, h4⟩, h5⟩
          refine ⟨h3, fun j hj hj' => ?_⟩
          rcases Nat.eq_or_lt_of_le hj with rfl | hj
          · exact h4
          · exact h5 j hj hj'
        · rintro ⟨h3, h4⟩
          exact ⟨⟨h3, h4 l le_rfl h1⟩, fun j hj hj' => h4 j (by omega) hj'⟩
    · rw [if_neg (by
        intro h
        exact h1 (by exact_mod_cast h))]
      congr 1
      ext p
      simp only [Set.mem_ofPred_eq]
      exact ⟨fun h => ⟨h, fun j hj hj' => by omega⟩, fun h => h.1⟩

/-- What is `m` layers deep. -/
def deep (f : Nat → Region) (l : Nat) (infill : Region) (m : Nat) : Region :=
  {p | p ∈ infill ∧ ∀ j, 1 ≤ j → j ≤ m → p ∈ f (l + j)}

theorem deep_anti (f : Nat → Region) (l : Nat) (infill : Region) {a b : Nat} (h : a ≤ b) :
    deep f l infill b ⊆ deep f l infill a := fun _ hp => ⟨hp.1, fun j h1 h2 => hp.2 j h1 (h2.trans h)⟩

theorem deep_scan (f : Nat → Region) (n : Nat) (hf : ∀ k, n ≤ k → f k = ∅) (l : Nat) (infill : Region) (s count fuel : Nat)
    (hfuel : count + 1 < fuel) :
    scan f n 1 ((l + (s + 1) * count : Nat) : Rat) fuel ((l + s * count + 1 : Nat) : Rat) (deep f l infill (s * count)) =
      .ok (deep f l infill ((s + 1) * count)) := by
  have e : (s + 1) * count = s * count + count := by ring
  rw [scan_one f n hf _ _ _ _ (by omega) (by omega)]
  congr 1
  ext p
  unfold deep
  simp only [Set.mem_ofPred_eq]
  constructor
  · rintro ⟨⟨h1, h2⟩, h3⟩
    refine ⟨h1, fun j hj hj' => ?_⟩
    by_cases hs : j ≤ s * count
    · exact h2 j hj hs
    · exact h3 (l + j) (by omega) (by omega)
  · rintro ⟨h1, h2⟩
    refine ⟨⟨h1, fun j hj hj' => h2 j hj (by omega)⟩, fun j hj hj' => ?_⟩
    have := h2 (j - l) (by omega) (by omega)
    have e : l + (j - l) = j := by omega
    rwa [e] at this

open Classical in
/-- The density of areas from the number `i` on. -/
noncomputable def sumD (cross : Bool) (p : Point) : Nat → List Region → Rat
  | _, [] => 0
  | i, [r] => if p ∈ r then 1 / 2 ^ i else 0
  | i, r :: rest => (if p ∈ r then (if cross then 1 / 2 ^ i else 1 / 2 ^ (i + 1)) else 0) + sumD cross p (i + 1) rest

theorem density_eq (c : Gradual) (hd : 0 < c.lineDistance) (p : Point) : ∀ (L : List Region) (i last : Nat),
    last + 1 = i + L.length →
    density c.lineDistance p ((L.zipIdx i).map fun x => (x.1, lineDistance c last x.2)) = sumD c.cross p i L := by
  intro L
  have hb : (c.lineDistance : Rat) ≠ 0 := by
    have : (0 : Rat) < c.lineDistance := by exact_mod_cast hd
    linarith
  have half : ∀ i, c.lineDistance * 2 ^ (i + 1) / 2 = c.lineDistance * 2 ^ i := by
    intro i
    rw [pow_succ, ← Nat.mul_assoc, Nat.mul_div_cancel _ (by omega)]
  have q1 : ∀ i : Nat, (c.lineDistance : Rat) / ((c.lineDistance * 2 ^ i : Nat) : Rat) = 1 / 2 ^ i := by
    intro i
    push_cast
    rw [div_mul_eq_div_div, div_self hb]
  induction L with
  | nil => intro i last _; rfl
  | cons r L ih =>
    intro i last h
    simp only [List.zipIdx_cons, List.map_cons]
    cases L with
    | nil =>
      simp only [List.length_cons, List.length_nil] at h
      have hl : lineDistance c last i = c.lineDistance * 2 ^ i := by
        unfold lineDistance
        dsimp only
        rw [if_pos (.inl (by omega)), half]
      simp only [List.zipIdx_nil, List.map_nil, density, sumD, hl, q1, add_zero]
    | cons r' L =>
      have := ih (i + 1) last (by simp only [List.length_cons] at h ⊢; omega)
      unfold density sumD
      rw [this]
      congr 1
      have hne : i ≠ last := by simp only [List.length_cons] at h; omega
      unfold lineDistance
      dsimp only
      cases hx : c.cross with
      | true => simp only [or_true, if_true, half, q1]
      | false => simp only [hne, false_or, Bool.false_eq_true, if_false, q1]


theorem steps_ok (c : Gradual) (hg : c.gaps = false) (hc : 1 ≤ c.count) (f : Nat → Region) (n : Nat)
    (hf : ∀ k, n ≤ k → f k = ∅) (l fuel : Nat) (hfuel : c.count + 1 < fuel) (infill : Region) (left s : Nat) (dense : Region) :
    ∃ L, steps c f n l fuel infill left s (deep f l infill (s * c.count)) dense = .ok L ∧ L ≠ [] := by
  have hs := skip_one c hg hc
  induction left generalizing s dense with
  | zero => exact ⟨_, rfl, by simp⟩
  | succ left ih =>
    unfold steps
    rw [hs]
    have e : ⌊(1 : Rat)⌋.toNat = 1 := by simp
    rw [e, deep_scan f n hf l infill s c.count fuel hfuel]
    dsimp only
    split
    · exact ⟨_, rfl, by simp⟩
    · obtain ⟨L, h, _⟩ := ih (s + 1) (if c.connected = true then dense ∪ infill \ deep f l infill ((s + 1) * c.count) else dense)
      rw [h]
      exact ⟨_, rfl, by simp⟩

theorem sumD_cons (cross : Bool) (p : Point) (i : Nat) (r : Region) (rest : List Region) (h : rest ≠ []) :
    open Classical in sumD cross p i (r :: rest) =
      (if p ∈ r then (if cross then 1 / 2 ^ i else 1 / 2 ^ (i + 1)) else 0) + sumD cross p (i + 1) rest := by
  cases rest with
  | nil => exact absurd rfl h
  | cons _ _ => rfl

/-- Patterns that overlap. -/
theorem steps_over (c : Gradual) (hg : c.gaps = false) (hc : 1 ≤ c.count) (hx : c.cross = false) (hcon : c.connected = false)
    (f : Nat → Region) (n : Nat) (hf : ∀ k, n ≤ k → f k = ∅) (l fuel : Nat) (hfuel : c.count + 1 < fuel) (infill : Region)
    (p : Point) (hp : p ∈ infill) (k : Nat) (hk : p ∈ deep f l infill (k * c.count)) (left s : Nat) (hks : k ≤ s + left)
    (hk' : k < s + left → p ∉ deep f l infill ((k + 1) * c.count)) (L : List Region)
    (h : steps c f n l fuel infill left s (deep f l infill (s * c.count)) ∅ = .ok L) :
    sumD c.cross p s L = 1 / 2 ^ max s k := by
  have hs := skip_one c hg hc
  have last : ∀ s, k ≤ s → sumD c.cross p s [infill \ ∅] = 1 / 2 ^ max s k := by
    intro s h
    unfold sumD
    rw [if_pos ⟨hp, fun h => h⟩, max_eq_left h]
  have anti : ∀ {a b : Nat}, a ≤ b → p ∈ deep f l infill (b * c.count) → p ∈ deep f l infill (a * c.count) := fun h hp =>
    deep_anti f l infill (Nat.mul_le_mul_right _ h) hp
  induction left generalizing s L with
  | zero =>
    unfold steps at h
    cases h
    exact last s (by omega)
  | succ left ih =>
    unfold steps at h
    have e : ⌊(1 : Rat)⌋.toNat = 1 := by simp
    rw [hs, e, deep_scan f n hf l infill s c.count fuel hfuel] at h
    dsimp only at h
    split at h
    next h0 =>
      cases h
      refine last s ?_
      by_contra hlt
      have := anti (show s + 1 ≤ k by omega) hk
      rw [h0] at this
      exact this
    next h0 =>
      simp only [hcon, Bool.false_eq_true, if_false] at h
      obtain ⟨L', hL', hne⟩ := steps_ok c hg hc f n hf l fuel hfuel infill left (s + 1) ∅
      rw [hL'] at h
      cases h
      have := ih (s + 1) (by omega) (fun h => hk' (by omega)) L' hL'
      rw [sumD_cons _ _ _ _ _ hne, this, hx]
      simp only [Bool.false_eq_true, if_false]
      rcases Nat.lt_or_ge s k with hlt | hge
      · rw [if_neg (by
          rintro ⟨⟨_, h⟩, _⟩
          exact h (anti (by omega) hk)), max_eq_right (by omega), max_eq_right (by omega), zero_add]
      · have hn : p ∉ deep f l infill ((s + 1) * c.count) := fun h => hk' (by omega) (anti (by omega) h)
        rw [if_pos ⟨⟨hp, hn⟩, fun h => h⟩, max_eq_left (by omega), max_eq_left hge, pow_succ]
        ring

/-- Patterns that do not overlap: what there is from the step on, and whether it is in the last area. -/
theorem steps_part (c : Gradual) (hg : c.gaps = false) (hc : 1 ≤ c.count) (hcon : c.connected = true)
    (f : Nat → Region) (n : Nat) (hf : ∀ k, n ≤ k → f k = ∅) (l fuel : Nat) (hfuel : c.count + 1 < fuel) (infill : Region)
    (p : Point) (hp : p ∈ infill) (k : Nat) (hk : p ∈ deep f l infill (k * c.count)) (left s : Nat) (hks : k ≤ s + left)
    (hk' : k < s + left → p ∉ deep f l infill ((k + 1) * c.count)) (L : List Region)
    (h : steps c f n l fuel infill left s (deep f l infill (s * c.count)) (infill \ deep f l infill (s * c.count)) = .ok L) :
    sumD c.cross p s L = if k < s then 0 else
      if c.cross = true ∨ s + left = k ∨ deep f l infill ((k + 1) * c.count) = ∅ then 1 / 2 ^ k else 1 / 2 ^ (k + 1) := by
  have hs := skip_one c hg hc
  have anti : ∀ {a b : Nat}, a ≤ b → p ∈ deep f l infill (b * c.count) → p ∈ deep f l infill (a * c.count) := fun h hp =>
    deep_anti f l infill (Nat.mul_le_mul_right _ h) hp
  induction left generalizing s L with
  | zero =>
    unfold steps at h
    cases h
    have hm : p ∈ infill \ (infill \ deep f l infill (s * c.count)) ↔ ¬ k < s := by
      constructor
      · intro h hlt
        exact hk' (by omega) (anti (by omega) (by_contra fun h2 => h.2 ⟨hp, h2⟩))
      · intro h
        exact ⟨hp, fun h2 => h2.2 (anti (by omega) hk)⟩
    unfold sumD
    by_cases hlt : k < s
    · rw [if_neg (fun h => hm.1 h hlt), if_pos hlt]
    · have : s = k := by omega
      rw [if_pos (hm.2 hlt), if_neg hlt, if_pos (.inr (.inl (by omega))), this]
  | succ left ih =>
    unfold steps at h
    have e : ⌊(1 : Rat)⌋.toNat = 1 := by simp
    rw [hs, e, deep_scan f n hf l infill s c.count fuel hfuel] at h
    dsimp only at h
    split at h
    next h0 =>
      cases h
      have hle : k ≤ s := by
        by_contra hlt
        have := anti (show s + 1 ≤ k by omega) hk
        rw [h0] at this
        exact this
      have hm : p ∈ infill \ (infill \ deep f l infill (s * c.count)) ↔ ¬ k < s := by
        constructor
        · intro h hlt
          exact hk' (by omega) (anti (by omega) (by_contra fun h2 => h.2 ⟨hp, h2⟩))
        · intro h
          exact ⟨hp, fun h2 => h2.2 (anti (by omega) hk)⟩
      unfold sumD
      by_cases hlt : k < s
      · rw [if_neg (fun h => hm.1 h hlt), if_pos hlt]
      · have : s = k := by omega
        subst this
        rw [if_pos (hm.2 hlt), if_neg hlt, if_pos (.inr (.inr h0))]
    next h0 =>
      have hu : infill \ deep f l infill (s * c.count) ∪ infill \ deep f l infill ((s + 1) * c.count) =
          infill \ deep f l infill ((s + 1) * c.count) := by
        apply Set.union_eq_right.2
        intro x hx
        exact ⟨hx.1, fun h => hx.2 (deep_anti f l infill (Nat.mul_le_mul_right _ (by omega)) h)⟩
      rw [hu] at h
      obtain ⟨L', hL', hne⟩ := steps_ok c hg hc f n hf l fuel hfuel infill left (s + 1)
        (infill \ deep f l infill ((s + 1) * c.count))
      rw [hL'] at h
      cases h
      have := ih (s + 1) (by omega) (fun h => hk' (by omega)) L' hL'
      rw [sumD_cons _ _ _ _ _ hne, this]
      have hm : p ∈ (infill \ deep f l infill ((s + 1) * c.count)) \ (infill \ deep f l infill (s * c.count)) ↔ k = s := by
        constructor
        · rintro ⟨⟨_, h1⟩, h2⟩
          have h3 : p ∈ deep f l infill (s * c.count) := by_contra fun h => h2 ⟨hp, h⟩
          have h4 : k ≤ s := by
            by_contra hlt
            exact h1 (anti (by omega) hk)
          have h5 : ¬ k < s := fun hlt => hk' (by omega) (anti (by omega) h3)
          omega
        · rintro rfl
          exact ⟨⟨hp, hk' (by omega)⟩, fun h => h.2 hk⟩
      by_cases heq : k = s
      · rw [if_pos (hm.2 heq), if_pos (by omega : k < s + 1), if_neg (by omega : ¬ k < s), add_zero]
        subst heq
        have e : ¬ (k + (left + 1) = k) := by omega
        simp only [e, h0, or_false]
      · rw [if_neg (fun h => heq (hm.1 h)), zero_add]
        have e : s + 1 + left = s + (left + 1) := by omega
        rw [e]
        by_cases hlt : k < s
        · rw [if_pos (by omega : k < s + 1), if_pos hlt]
        · rw [if_neg (by omega : ¬ k < s + 1), if_neg hlt]

end Verif.Skin
