import Mathlib.Tactic.FieldSimp
import Verif.Support.Props

/-! # Overhang is supported (C76, C81) -/

namespace Verif.Support

open Verif.Volumes (Point Region times)

section
variable {ops : Ops} {keep : Rat} (ok : ops.Ok keep)

theorem mem_fold_union {f : Nat → Region} {P : Nat → Prop} [DecidablePred P] {p : Point} : ∀ (ls : List Nat) (r : Region),
    p ∈ ls.foldl (fun r k => if P k then r ∪ f k else r) r ↔ p ∈ r ∨ ∃ k ∈ ls, P k ∧ p ∈ f k
  | [], r => by simp
  | a :: ls, r => by
    rw [List.foldl_cons, mem_fold_union ls]
    by_cases h : P a
    · rw [if_pos h]
      constructor
      · rintro ((h1 | h1) | ⟨k, hk, h1⟩)
        · exact .inl h1
        · exact .inr ⟨a, List.mem_cons_self, h, h1⟩
        · exact .inr ⟨k, List.mem_cons_of_mem _ hk, h1⟩
      · rintro (h1 | ⟨k, hk, h1⟩)
        · exact .inl (.inl h1)
        · rcases List.mem_cons.1 hk with rfl | hk
          · exact .inl (.inr h1.2)
          · exact .inr ⟨k, hk, h1⟩
    · rw [if_neg h]
      constructor
      · rintro (h1 | ⟨k, hk, h1⟩)
        · exact .inl h1
        · exact .inr ⟨k, List.mem_cons_of_mem _ hk, h1⟩
      · rintro (h1 | ⟨k, hk, h1⟩)
        · exact .inl h1
        · rcases List.mem_cons.1 hk with rfl | hk
          · exact absurd h1.1 h
          · exact .inr ⟨k, hk, h1⟩

theorem mem_outlinesBelow (c : OverhangConfig) (models : Nat → List Region) (l : Nat) (hl : 0 < l) (p : Point) :
    p ∈ outlinesBelow ops c models l ↔
      ∃ k, 1 ≤ k ∧ k ≤ c.depth ∧ k ≤ l ∧ p ∈ ops.offset (c.reach * k) (solid (models (l - k))) := by
  unfold outlinesBelow
  rw [mem_fold_union]
  unfold OverhangConfig.depth
  constructor
  · rintro (h | ⟨k, hk, hkl, h⟩)
    · exact ⟨1, le_rfl, by omega, hl, by simpa using h⟩
    · rw [List.mem_range'_1] at hk
      exact ⟨k, by omega, by omega, hkl, h⟩
  · rintro ⟨k, h1, h2, h3, h⟩
    by_cases e : k = 1
    · subst e
      exact .inl (by simpa using h)
    · exact .inr ⟨k, by rw [List.mem_range'_1]; omega, h3, h⟩

include ok

/-- What overhangs is overhang. -/
theorem overhangs_of {c : OverhangConfig} (he : c.enable = true) (hr : 0 ≤ c.reach) {models : Nat → List Region}
    {own anti force : Nat → Region} {d : Rat} (hd : 0 ≤ d) {m : Nat} {p : Point} (h : Overhanging c models own anti d m p) :
    Disk d p ⊆ overhangs ops c models own anti force m := by
  intro q hq
  obtain ⟨m, rfl⟩ := Nat.exists_eq_succ_of_ne_zero h.above.ne'
  have hpos : 0 ≤ c.reach * c.below + 100 := by positivity
  refine ⟨grow_self ok hpos _ (.inl ⟨?_, h.allowed q hq⟩), h.here hq⟩
  rw [if_pos he]
  refine ⟨h.here hq, fun hb => ?_⟩
  obtain ⟨k, h1, h2, h3, hb⟩ := (mem_outlinesBelow c models _ (Nat.succ_pos m) q).1 hb
  refine not_offset ok (by positivity) ?_ hb
  have := free_disk hd (by positivity) (h.below k h1 h2 h3) hq
  push_cast
  exact this

/-- Overhang is within a small distance of something that overhangs, or of what is forced to have support. -/
theorem of_overhangs {c : OverhangConfig} (hr : 0 ≤ c.reach) {models : Nat → List Region}
    {own anti force : Nat → Region} {m : Nat} {p : Point} (h : p ∈ overhangs ops c models own anti force m) :
    p ∈ own m ∧ ∃ q, dist2 p q ≤ (2 * (c.reach * c.below + 100)) ^ 2 ∧ (Hangs c models own anti m q ∨ q ∈ force m) := by
  cases m with
  | zero => cases h
  | succ m =>
    refine ⟨h.2, ?_⟩
    obtain ⟨q, hq, hd⟩ := ok.grown _ _ (by positivity) h.1
    refine ⟨q, by push_cast at hd; exact hd, ?_⟩
    rcases hq with ⟨hq, ha⟩ | hq
    · left
      split at hq
      · refine ⟨hq.1, fun k h1 h2 h3 x hx => ?_, ha⟩
        by_contra hc
        push Not at hc
        refine hq.2 ((mem_outlinesBelow c models _ (Nat.succ_pos m) q).2 ⟨k, h1, h2, h3, ?_⟩)
        exact ok.grow _ _ (by positivity) ⟨x, hx, by push_cast; exact hc⟩
      · cases hq
    · exact .inr hq

end

section
variable (ops : Ops) (c : Config) (i : Input)

theorem expand_self (ms : List Region) (r : Region) : r ⊆ expand ops c ms r := by
  unfold expand
  split
  · exact fun _ h => .inl h
  · exact fun _ h => h

theorem join_self (hc : c.conical = none) (up this : Region) : this ∪ up ⊆ join ops c up this := by
  unfold join
  rw [hc]
  dsimp only
  split
  · exact fun _ h => .inr h
  · exact fun _ h => h

theorem gather_keep (hc : c.conical = none) (hm : c.mesh = false) {above : Region} {l : Nat} {p : Point}
    (h : p ∈ expand ops c (i.models l) (i.overhang (l + c.topLayers)) ∨ p ∈ above) (hf : p ∉ odd (i.models l)) :
    p ∈ gather ops c i above l := by
  unfold gather
  simp only [Config.nonDrop, hm, Bool.false_and, Bool.false_eq_true, if_false]
  refine ⟨join_self ops c hc _ _ ?_, ?_⟩
  · rcases h with h | h
    · exact .inl (.inl h)
    · exact .inr h
  · split
    · exact fun h => h
    · exact hf

/-- A column of support below overhang, without stairs. -/
theorem raw_plain (hcon : c.conical = none) (hmesh : c.mesh = false) (hst : c.stairLayers ≤ 1) {n a m : Nat} {p : Point}
    (hmn : m < n) (ho : p ∈ i.overhang m)
    (hf : ∀ k, a ≤ k → k + c.topLayers ≤ m → p ∉ odd (i.models k) ∧ (c.bottomLayers ≤ k → p ∉ odd (i.models (k - c.bottomLayers)))) :
    ∀ (d l : Nat), l + c.topLayers + d = m → a ≤ l → p ∈ raw ops c i n l := by
  have key : ∀ l stair r, a ≤ l → l + c.topLayers ≤ m → p ∈ r → p ∈ (moveUp ops c i stair r l).1 := by
    intro l stair r h1 h2 hp
    unfold moveUp
    dsimp only
    split
    · exact hp
    · exact ⟨hp, (hf l h1 h2).2 (by omega)⟩
  intro d
  induction d with
  | zero =>
    intro l hl hal
    obtain ⟨st, hs, e⟩ := raw_made ops c i n (l := l) (by omega)
    rw [e]
    refine key l _ _ hal (by omega) (gather_keep ops c i hcon hmesh (.inl (expand_self ops c _ _ ?_)) (hf l hal (by omega)).1)
    rwa [show l + c.topLayers = m by omega]
  | succ d ih =>
    intro l hl hal
    obtain ⟨st, hs, e⟩ := raw_made ops c i n (l := l) (by omega)
    rw [e]
    exact key l _ _ hal (by omega) (gather_keep ops c i hcon hmesh (.inr (ih (l + 1) (by omega) (by omega))) (hf l hal (by omega)).1)

variable {keep : Rat} (ok : ops.Ok keep)
include ok

/-- Nothing is removed above models where there are none. -/
theorem moveUp_keep (hc : c.Ok) {a m l : Nat} {stair r : Region} {p : Point} (hp : p ∈ r) (hs : StairOk ops c i l stair)
    (hst : c.stairLayers ≤ 1 ∨ a = 0 ∧ c.bottomLayers ≤ 1 ∧ 2 ≤ c.bottomLayers + c.topLayers)
    (hl : a = 0 ∨ a + c.bottomLayers ≤ l) (hlm : l + c.topLayers ≤ m)
    (hf : ∀ k, a ≤ k → k < m → Free (2 * c.stairWidth) (i.models k) p) : p ∈ (moveUp ops c i stair r l).1 := by
  unfold moveUp
  dsimp only
  have ht : 1 ≤ c.topLayers := Nat.succ_le_succ (Nat.zero_le _)
  by_cases h0 : l < c.bottomLayers ∨ c.bottomLayers = 0 ∧ c.stairLayers ≤ 1
  · rw [if_pos h0]
    exact hp
  rw [if_neg h0]
  have hb : p ∉ solid (i.models (l - c.bottomLayers)) := free_not (hf _ (by omega) (by omega))
  split
  · exact ⟨hp, fun h => hb (odd_solid h)⟩
  · rename_i hs1
    obtain ⟨rfl, hb1, hb2⟩ := hst.resolve_left hs1
    refine ⟨hp, ?_⟩
    rintro (h | h)
    · rcases hs with hs | hs
      · rcases hs with rfl | ⟨l', g0, g1, g2, g3, g4, g5, g6⟩
        · exact h
        · rcases Nat.lt_or_ge (l' - c.bottomLayers) (m + 1) with g | g
          · have h5 := g5 h
            cases e : l' - c.bottomLayers with
            | zero =>
              rw [e] at h5
              obtain ⟨q, ⟨x, hx, _⟩, _⟩ := ok.grown _ _ hc.stairWidth h5
              cases hx
            | succ k =>
              rw [e] at h5
              exact not_offset ok hc.stairWidth (hf k (Nat.zero_le _) (by omega)) h5
          · have hle : c.stairLayers ≤ l' := Nat.le_of_dvd (by omega) (Nat.dvd_of_mod_eq_zero g4)
            exact free_not (hf _ (Nat.zero_le _) (by omega)) (odd_solid (g6 (by omega) h))
      · exact h0 (.inl hs)
    · exact hb h

/-- A column of support below overhang. -/
theorem raw_column (hc : c.Ok) (hcon : c.conical = none) (hmesh : c.mesh = false) {n a m : Nat} {p : Point} (hmn : m < n)
    (hst : c.stairLayers ≤ 1 ∨ a = 0 ∧ c.bottomLayers ≤ 1 ∧ 2 ≤ c.bottomLayers + c.topLayers)
    (ho : p ∈ expand ops c (i.models (m - c.topLayers)) (i.overhang m))
    (hf : ∀ k, a ≤ k → k < m → Free (2 * c.stairWidth) (i.models k) p) :
    ∀ (d l : Nat), l + c.topLayers + d = m → (a = 0 ∨ a + c.bottomLayers ≤ l) → p ∈ raw ops c i n l := by
  have ht : 1 ≤ c.topLayers := Nat.succ_le_succ (Nat.zero_le _)
  intro d
  induction d with
  | zero =>
    intro l hl hal
    obtain ⟨st, hs, e⟩ := raw_made ops c i n (l := l) (by omega)
    rw [e]
    refine moveUp_keep ops c i ok hc ?_ hs hst hal (by omega) hf
    refine gather_keep ops c i hcon hmesh (.inl ?_) fun h => free_not (hf _ (by omega) (by omega)) (odd_solid h)
    rwa [show l + c.topLayers = m by omega, show l = m - c.topLayers by omega]
  | succ d ih =>
    intro l hl hal
    obtain ⟨st, hs, e⟩ := raw_made ops c i n (l := l) (by omega)
    rw [e]
    refine moveUp_keep ops c i ok hc ?_ hs hst hal (by omega) hf
    exact gather_keep ops c i hcon hmesh (.inr (ih (l + 1) (by omega) (by omega))) fun h => free_not (hf _ (by omega) (by omega)) (odd_solid h)

/-- The X/Y distance and the removal of what cannot be printed leave a wide area that is away from models. -/
theorem spaced_keep (hc : c.Ok) (hk : 0 ≤ keep) {r : Nat → Region} {l : Nat} {p : Point}
    (h : ∀ q ∈ Disk (keep + 2 * c.feature) p, q ∈ r l ∧ q ∉ disallowed ops c i l) : p ∈ spaced ops c i r l := by
  have hf : 0 ≤ c.feature := by unfold Config.feature; have := hc.minWall; omega
  have hfq : (0 : Rat) ≤ 2 * c.feature := by positivity
  refine ok.large _ _ _ fun q hq => grow_self ok hf _ (ok.shrunk _ _ _ hf fun x hx => h x ?_)
  exact dist2_triangle hk hfq hq hx

theorem not_disallowed (hc : c.Ok) {l : Nat} {p : Point} (hown : i.own l ⊆ solid (i.models l))
    (h1 : Free (2 * c.xy) (i.models l) p) (h2 : Free (2 * c.xyOverhang) (i.models l) p)
    (h3 : c.zFirst = true → p ∉ i.varying l) : p ∉ disallowed ops c i l := by
  unfold disallowed
  split
  · rename_i h; subst h; exact not_offset ok hc.xy h1
  · split
    · exact not_offset ok hc.xy h1
    · rename_i hz
      rintro (h | h)
      · obtain ⟨q, hq, hd⟩ := ok.grown _ _ hc.xyOverhang h
        exact absurd (h2 q (hown hq)) (not_lt.2 hd)
      · refine h3 ?_ h
        simp only [Bool.or_eq_true, Bool.not_eq_true', not_or, Bool.not_eq_true] at hz
        simpa using hz.2

omit ok in
theorem touching_of {ops : Ops} {c : Config} (hcon : c.conical = none) (r : Nat → Region) {p : Point} :
    ∀ l, (∀ k ≤ l, p ∈ r k) → p ∈ touching ops c r l
  | 0, h => h 0 (le_refl _)
  | l + 1, h => by
    unfold touching
    rw [hcon]
    exact ⟨h _ (le_refl _), touching_of hcon r l fun k hk => h k (by omega)⟩

/-- A disk of overhang, with its expansion, is supported. -/
theorem supported_of (hc : c.Ok) (hk : 0 ≤ keep) (hcon : c.conical = none) (hmesh : c.mesh = false)
    (n a : Nat) (hplate : c.plate = false ∨ a = 0) (hown : ∀ l, i.own l ⊆ solid (i.models l)) (d w : Rat)
    (hd : d = keep + 2 * c.feature) (hw : (c.xy : Rat) ≤ w ∧ (c.xyOverhang : Rat) ≤ w ∧ (c.stairWidth : Rat) ≤ w)
    (m : Nat) (hmn : m < n) (p : Point) (h : Disk d p ⊆ expand ops c (i.models (m - c.topLayers)) (i.overhang m))
    (hf : ∀ k, a ≤ k → k < m → Free (d + 2 * w) (i.models k) p)
    (hv : c.zFirst = true → ∀ k, ∀ q ∈ Disk d p, q ∉ i.varying k)
    (hst : c.stairLayers ≤ 1 ∨ a = 0 ∧ c.bottomLayers ≤ 1 ∧ 2 ≤ c.bottomLayers + c.topLayers)
    (l : Nat) (hl : l + c.topLayers ≤ m) (ha : a = 0 ∨ a + c.bottomLayers ≤ l ∧ a + c.bottomLayers + c.topLayers < m) :
    p ∈ meshAreas ops c i n l := by
  have ht : 1 ≤ c.topLayers := Nat.succ_le_succ (Nat.zero_le _)
  have hfe : 0 ≤ c.feature := by unfold Config.feature; have := hc.minWall; omega
  have hd0 : 0 ≤ d := by rw [hd]; positivity
  have hw0 : 0 ≤ w := le_trans (by exact_mod_cast hc.xy) hw.1
  -- all points of the disk are far from models
  have hfree : ∀ x : Int, 0 ≤ x → (x : Rat) ≤ w → ∀ q ∈ Disk d p, ∀ k, a ≤ k → k < m → Free (2 * x) (i.models k) q := by
    intro x hx0 hxw q hq k h1 h2
    have := free_disk hd0 (by positivity) (hf k h1 h2) hq
    refine free_mono (by positivity) ?_ this
    linarith
  have hcol : ∀ j, (a = 0 ∨ a + c.bottomLayers ≤ j) → j + c.topLayers ≤ m → p ∈ spaced ops c i (raw ops c i n) j := by
    intro j hj1 hj2
    refine spaced_keep ops c i ok hc hk fun q hq => ?_
    rw [← hd] at hq
    refine ⟨?_, ?_⟩
    · exact raw_column ops c i ok hc hcon hmesh hmn hst (h hq) (fun k h1 h2 => hfree _ hc.stairWidth hw.2.2 q hq k h1 h2)
        (m - j - c.topLayers) j (by omega) hj1
    · exact not_disallowed ops c i ok hc (hown j) (hfree _ hc.xy hw.1 q hq j (by omega) (by omega))
        (hfree _ hc.xyOverhang hw.2.1 q hq j (by omega) (by omega)) fun hz => hv hz j q hq
  unfold meshAreas
  rw [if_neg (by omega)]
  refine settle_keep (a := if a = 0 then 0 else a + c.bottomLayers) (b := m - c.topLayers) ?_ n _ ?_ l ?_ (by omega)
  · split <;> omega
  · intro j h1 h2
    have hj : a = 0 ∨ a + c.bottomLayers ≤ j := by split at h1 <;> omega
    have : p ∈ plateOnly ops c (spaced ops c i (raw ops c i n)) j := by
      unfold plateOnly
      split
      · rename_i hp
        have h0 : a = 0 := hplate.resolve_left (by rw [hp]; decide)
        exact touching_of hcon _ _ fun k hk => hcol k (.inl h0) (by omega)
      · exact hcol j hj (by omega)
    unfold belowModels
    split
    · exact ⟨this, fun hodd => free_not (hf _ (by omega) (by omega)) (odd_solid hodd)⟩
    · exact this
  · split <;> omega

/-- C76. What overhangs is supported: if there is no model below it down to some layer, or to the build plate, there is
support below it, from the distance that is set above that layer to the distance that is set below the overhang. `d` is
the radius of a disk that is large enough to be printed, `w` is the largest of the distances from models. -/
theorem C76_supported_partial (hc : c.Ok) (hk : 0 ≤ keep) (hcon : c.conical = none) (hmesh : c.mesh = false)
    (oc : OverhangConfig) (he : oc.enable = true) (hr : 0 ≤ oc.reach) (anti force : Nat → Region)
    (ho : i.overhang = overhangs ops oc i.models i.own anti force) (hown : ∀ l, i.own l ⊆ solid (i.models l)) (d w : Rat)
    (hd : d = keep + 2 * c.feature) (hw : (c.xy : Rat) ≤ w ∧ (c.xyOverhang : Rat) ≤ w ∧ (c.stairWidth : Rat) ≤ w)
    (n a : Nat) (hplate : c.plate = false ∨ a = 0) (m : Nat) (hmn : m < n) (p : Point) (h : Overhanging oc i.models i.own anti d m p)
    (hf : ∀ k, a ≤ k → k < m → Free (d + 2 * w) (i.models k) p)
    (hv : c.zFirst = true → ∀ k, ∀ q ∈ Disk d p, q ∉ i.varying k)
    (hst : c.stairLayers ≤ 1 ∨ a = 0 ∧ c.bottomLayers ≤ 1 ∧ 2 ≤ c.bottomLayers + c.topLayers)
    (l : Nat) (hl : l + c.topLayers ≤ m) (ha : a = 0 ∨ a + c.bottomLayers ≤ l ∧ a + c.bottomLayers + c.topLayers < m) :
    p ∈ meshAreas ops c i n l := by
  have hfe : 0 ≤ c.feature := by unfold Config.feature; have := hc.minWall; omega
  have hd0 : 0 ≤ d := by rw [hd]; positivity
  refine supported_of ops c i ok hc hk hcon hmesh n a hplate hown d w hd hw m hmn p ?_ hf hv hst l hl ha
  intro q hq
  rw [ho]
  exact expand_self ops c _ _ (overhangs_of ok he hr hd0 h hq)

/-! ## Horizontal expansion -/

omit ok in
/-- A point between two others. -/
theorem dist2_between (p q : Point) (t : Rat) :
    dist2 p (p.1 + (q.1 - p.1) * t, p.2 + (q.2 - p.2) * t) = t ^ 2 * dist2 p q ∧
      dist2 (p.1 + (q.1 - p.1) * t, p.2 + (q.2 - p.2) * t) q = (1 - t) ^ 2 * dist2 p q := by
  unfold dist2
  constructor <;> dsimp only <;> ring

omit ok in
theorem near_between {a b : Rat} (ha : 0 ≤ a) (hb : 0 < b) {r : Region} {p : Point} (h : p ∈ Near (a + b) r) :
    p ∈ Near a (Near b r) := by
  obtain ⟨q, hq, hd⟩ := h
  have hpos : (0 : Rat) < a + b := by linarith
  obtain ⟨h1, h2⟩ := dist2_between p q (a / (a + b))
  have e : 1 - a / (a + b) = b / (a + b) := by
    field_simp
    ring
  refine ⟨(p.1 + (q.1 - p.1) * (a / (a + b)), p.2 + (q.2 - p.2) * (a / (a + b))), ⟨q, hq, ?_⟩, ?_⟩
  · rw [h2, e]
    calc _ ≤ (b / (a + b)) ^ 2 * (a + b) ^ 2 := by gcongr
      _ = b ^ 2 := by field_simp
  · rw [h1]
    calc _ ≤ (a / (a + b)) ^ 2 * (a + b) ^ 2 := by gcongr
      _ = a ^ 2 := by field_simp

theorem expandSteps_near {step : Int} (hs : 0 < step) : ∀ (k : Nat) (r : Region),
    Near (k * step : Rat) r ⊆ (expandSteps ops step k (r, ∅)).1
  | 0, r => by
    rintro p ⟨q, hq, hd⟩
    have : dist2 p q = 0 := le_antisymm (by simpa using hd) (dist2_nonneg p q)
    unfold dist2 at this
    have h1 : p.1 = q.1 := by nlinarith [sq_nonneg (p.1 - q.1), sq_nonneg (p.2 - q.2)]
    have h2 : p.2 = q.2 := by nlinarith [sq_nonneg (p.1 - q.1), sq_nonneg (p.2 - q.2)]
    exact (Prod.ext h1 h2 : p = q) ▸ hq
  | k + 1, r => by
    have hsq : (0 : Rat) < step := by exact_mod_cast hs
    have hempty : ∀ x : Region, ops.offset step (∅ \ x) = ∅ := by
      intro x
      apply Set.eq_empty_of_subset_empty
      intro p hp
      obtain ⟨q, hq, _⟩ := ok.grown _ _ hs.le hp
      exact absurd hq.1 (Set.notMem_empty q)
    have e : expandStep ops step (r, ∅) = (ops.offset step r, ∅) := by
      unfold expandStep
      dsimp only
      rw [hempty]
      simp
    intro p hp
    unfold expandSteps
    rw [e]
    refine expandSteps_near hs k _ ?_
    have h1 : p ∈ Near (k * step + step) r := by
      have e2 : ((k : Rat) * step + step) = ((k + 1 : Nat) : Rat) * step := by push_cast; ring
      rwa [e2]
    obtain ⟨q, hq, hd⟩ := near_between (by positivity) hsq h1
    exact ⟨q, ok.grow _ _ hs.le hq, hd⟩

/-- C80. The horizontal expansion widens support by whole half lines: if there is no model on any layer below the
overhang, it takes as many of them as fit in the expansion, and one more. -/
theorem C80_steps (hc : c.Ok) (hk : 0 ≤ keep) (hcon : c.conical = none) (hmesh : c.mesh = false)
    (hz : c.zFirst = false) (hown : ∀ l, i.own l ⊆ solid (i.models l)) (hlw : 2 ≤ c.lineWidth)
    (he : 0 < c.expansion) (n m : Nat) (hmn : m < n) (p : Point)
    (h : Disk (keep + 2 * c.feature) p ⊆ Near ((c.expansion / (c.lineWidth / 2) + 1 : Int) * (c.lineWidth / 2 : Int)) (i.overhang m))
    (hf : ∀ k < m, solid (i.models k) = ∅)
    (hst : c.stairLayers ≤ 1 ∨ c.bottomLayers ≤ 1 ∧ 2 ≤ c.bottomLayers + c.topLayers)
    (l : Nat) (hl : l + c.topLayers ≤ m) : p ∈ meshAreas ops c i n l := by
  have ht : 1 ≤ c.topLayers := Nat.succ_le_succ (Nat.zero_le _)
  refine supported_of ops c i ok hc hk hcon hmesh n 0 (.inr rfl) hown _ (max c.xy (max c.xyOverhang c.stairWidth)) rfl ?_ m hmn p ?_
    ?_ (by rw [hz]; intro h; cases h) (hst.imp id fun h => ⟨rfl, h⟩) l hl (.inl rfl)
  · refine ⟨?_, ?_, ?_⟩
    · exact le_max_left _ _
    · exact le_trans (le_max_left _ _) (le_max_right _ _)
    · exact le_trans (le_max_right _ _) (le_max_right _ _)
  · intro q hq
    unfold expand
    rw [if_pos ⟨by omega, hmesh⟩]
    right
    have hodd : odd (i.models (m - c.topLayers)) = ∅ :=
      Set.eq_empty_of_subset_empty fun x hx => by
        have := odd_solid hx
        rw [hf _ (by omega)] at this
        exact this
    rw [hodd]
    refine expandSteps_near ops ok (by omega) _ _ ?_
    have := h hq
    unfold expandCount
    rw [if_neg (by omega)]
    have hpos : 0 ≤ c.expansion / (c.lineWidth / 2) + 1 := by
      have : 0 ≤ c.expansion / (c.lineWidth / 2) := Int.ediv_nonneg (by omega) (by omega)
      omega
    have e : (((c.expansion / (c.lineWidth / 2) + 1).toNat : Nat) : Rat) = ((c.expansion / (c.lineWidth / 2) + 1 : Int) : Rat) := by
      rw [← Int.cast_natCast, Int.toNat_of_nonneg hpos]
    rw [e]
    exact this
  · intro k _ hk q hq
    rw [hf k hk] at hq
    cases hq

/-- C80. Support is at least as wide as the horizontal expansion makes it. -/
theorem C80_reach_partial (hc : c.Ok) (hk : 0 ≤ keep) (hcon : c.conical = none) (hmesh : c.mesh = false)
    (hz : c.zFirst = false) (hown : ∀ l, i.own l ⊆ solid (i.models l)) (hlw : 2 ≤ c.lineWidth)
    (he : 0 < c.expansion) (n m : Nat) (hmn : m < n) (p : Point)
    (h : Disk (keep + 2 * c.feature) p ⊆ Near c.expansion (i.overhang m)) (hf : ∀ k < m, solid (i.models k) = ∅)
    (hst : c.stairLayers ≤ 1 ∨ c.bottomLayers ≤ 1 ∧ 2 ≤ c.bottomLayers + c.topLayers)
    (l : Nat) (hl : l + c.topLayers ≤ m) : p ∈ meshAreas ops c i n l := by
  refine C80_steps ops c i ok hc hk hcon hmesh hz hown hlw he n m hmn p (fun q hq => ?_) hf hst l hl
  obtain ⟨x, hx, hd⟩ := h hq
  refine ⟨x, hx, le_trans hd ?_⟩
  have : c.expansion ≤ (c.expansion / (c.lineWidth / 2) + 1) * (c.lineWidth / 2) := by
    have := Int.lt_ediv_add_one_mul_self c.expansion (show 0 < c.lineWidth / 2 by omega)
    omega
  have hq : (c.expansion : Rat) ≤ (c.expansion / (c.lineWidth / 2) + 1 : Int) * (c.lineWidth / 2 : Int) := by exact_mod_cast this
  have h0 : (0 : Rat) < c.expansion := by exact_mod_cast he
  gcongr

/-! ## Support meshes -/

/-- Nothing is removed above models where there are none on any layer. -/
theorem moveUp_free (hc : c.Ok) {l : Nat} {stair r : Region} {p : Point} (hp : p ∈ r) (hs : StairOk ops c i l stair)
    (hf : ∀ k, Free (2 * c.stairWidth) (i.models k) p) : p ∈ (moveUp ops c i stair r l).1 := by
  unfold moveUp
  dsimp only
  by_cases h0 : l < c.bottomLayers ∨ c.bottomLayers = 0 ∧ c.stairLayers ≤ 1
  · rw [if_pos h0]
    exact hp
  rw [if_neg h0]
  have hb : p ∉ solid (i.models (l - c.bottomLayers)) := free_not (hf _)
  split
  · exact ⟨hp, fun h => hb (odd_solid h)⟩
  · refine ⟨hp, ?_⟩
    rintro (h | h)
    · rcases hs with hs | hs
      · rcases hs with rfl | ⟨l', g0, g1, g2, g3, g4, g5, g6⟩
        · exact h
        · have h5 := g5 h
          cases e : l' - c.bottomLayers with
          | zero =>
            rw [e] at h5
            obtain ⟨q, ⟨x, hx, _⟩, _⟩ := ok.grown _ _ hc.stairWidth h5
            cases hx
          | succ k =>
            rw [e] at h5
            exact not_offset ok hc.stairWidth (hf k) h5
      · exact h0 (.inl hs)
    · exact hb h

/-- C82. A support mesh is printed as support, away from models, on all layers but the last ones of the print: as many as
the top distance takes, and one more. `a` to `b` are the layers on which it is in a place; more than one of them, or the
first one. -/
theorem C82_printed_partial (hc : c.Ok) (hk : 0 ≤ keep) (hcon : c.conical = none) (hmesh : c.mesh = true)
    (hplate : c.plate = false) (d w : Rat) (hd : d = keep + 2 * c.feature) (hw : (c.xy : Rat) ≤ w ∧ (c.stairWidth : Rat) ≤ w)
    (n a b : Nat) (hab : a = 0 ∨ a < b) (hbn : b + c.topLayers < n) (p : Point)
    (h : ∀ l, a ≤ l → l ≤ b → Disk d p ⊆ if c.drop then i.drops l else i.meshes l)
    (hf : ∀ k, Free (d + 2 * w) (i.models k) p) (l : Nat) (h1 : a ≤ l) (h2 : l ≤ b) : p ∈ meshAreas ops c i n l := by
  have hfe : 0 ≤ c.feature := by unfold Config.feature; have := hc.minWall; omega
  have hd0 : 0 ≤ d := by rw [hd]; positivity
  have hw0 : 0 ≤ w := le_trans (by exact_mod_cast hc.xy) hw.1
  have hfree : ∀ x : Int, 0 ≤ x → (x : Rat) ≤ w → ∀ q ∈ Disk d p, ∀ k, Free (2 * x) (i.models k) q := by
    intro x hx0 hxw q hq k
    have := free_disk hd0 (by positivity) (hf k) hq
    refine free_mono (by positivity) ?_ this
    linarith
  unfold meshAreas
  rw [if_neg (by omega)]
  refine settle_keep hab n _ (fun j h1 h2 => ?_) l h1 h2
  have key : p ∈ spaced ops c i (raw ops c i n) j := by
    refine spaced_keep ops c i ok hc hk fun q hq => ?_
    rw [← hd] at hq
    constructor
    · obtain ⟨st, hs, e⟩ := raw_made ops c i n (l := j) (by omega)
      rw [e]
      refine moveUp_free ops c i ok hc ?_ hs (fun k => hfree _ hc.stairWidth hw.2 q hq k)
      have hm := h j h1 h2 hq
      unfold gather
      by_cases hdrop : c.drop = true
      · simp only [hmesh, hdrop, Bool.true_and, if_true] at hm ⊢
        exact .inr hm
      · have hdf : c.drop = false := by simpa using hdrop
        simp only [Config.nonDrop, hmesh, hdf, Bool.true_and, Bool.not_false, Bool.false_eq_true, if_true, if_false] at hm ⊢
        exact join_self ops c hcon _ _ (.inl (.inr hm))
    · unfold disallowed
      rw [hmesh]
      simp only [Bool.true_or, if_true]
      split
      · exact not_offset ok hc.xy (hfree _ hc.xy hw.1 q hq 0)
      · exact not_offset ok hc.xy (hfree _ hc.xy hw.1 q hq j)
  unfold belowModels plateOnly
  simp only [hplate, Bool.false_eq_true, if_false]
  split
  · exact ⟨key, fun hodd => free_not (hf _) (odd_solid hodd)⟩
  · exact key

end

/-- C76. There is no support without need: without anything that adds to the area (expansion, joining, towers, conical
support), above every point of support there is overhang, and no model in between. -/
theorem C76_needed_partial (ops : Ops) (keep : Rat) (ok : ops.Ok keep) (c : Config) (i : Input) (hc : c.Ok)
    (hcon : c.conical = none) (hmesh : c.mesh = false) (hj : c.join ≤ 0) (he : c.expansion = 0) (ht : ∀ l, i.towers l = ∅)
    (oc : OverhangConfig) (hr : 0 ≤ oc.reach) (anti force : Nat → Region)
    (ho : i.overhang = overhangs ops oc i.models i.own anti force) (n l : Nat) (p : Point) (h : p ∈ meshAreas ops c i n l)
    (hs : ∀ k, Single (i.models k) p) :
    ∃ m, l + c.topLayers ≤ m ∧ m < n ∧ p ∈ i.own m ∧ (∀ k, 0 < k → l ≤ k → k + c.topLayers ≤ m → p ∉ solid (i.models k)) ∧
      ∃ q, dist2 p q ≤ (2 * (oc.reach * oc.below + 100)) ^ 2 ∧ (Hangs oc i.models i.own anti m q ∨ q ∈ force m) := by
  have hraw := (meshAreas_subset ops c i ok hc h).1
  have key : ∀ (d l : Nat), n - c.topLayers - l = d → p ∈ raw ops c i n l →
      ∃ m, l + c.topLayers ≤ m ∧ m < n ∧ p ∈ i.overhang m ∧
        ∀ k, 0 < k → l ≤ k → k + c.topLayers ≤ m → p ∉ solid (i.models k) := by
    intro d
    induction d with
    | zero =>
      intro l hl hp
      have := (raw_gather ops c i hp).1
      omega
    | succ d ih =>
      intro l hl hp
      obtain ⟨hln, hg⟩ := raw_gather ops c i hp
      unfold gather join expand at hg
      simp only [Config.nonDrop, hmesh, Bool.false_and, Bool.false_eq_true, if_false, hcon, he, ne_eq, not_true_eq_false,
        false_and, ht, Set.union_empty] at hg
      rw [if_neg (by omega)] at hg
      obtain ⟨hg1, hg2⟩ := hg
      have hfree : 0 < l → p ∉ solid (i.models l) := fun h0 hsol => by
        rw [if_neg (by omega)] at hg2
        exact hg2 (solid_odd (hs l) hsol)
      rcases hg1 with hg1 | hg1
      · refine ⟨l + c.topLayers, le_rfl, by omega, hg1, fun k h1 h2 h3 => ?_⟩
        obtain rfl : k = l := by omega
        exact hfree h1
      · obtain ⟨m, h1, h2, h3, h4⟩ := ih (l + 1) (by omega) hg1
        refine ⟨m, by omega, h2, h3, fun k hk0 hk1 hk2 => ?_⟩
        rcases Nat.lt_or_ge l k with hlk | hlk
        · exact h4 k hk0 hlk hk2
        · obtain rfl : k = l := by omega
          exact hfree hk0
  obtain ⟨m, h1, h2, h3, h4⟩ := key _ l rfl hraw
  rw [ho] at h3
  obtain ⟨h5, h6⟩ := of_overhangs ok hr h3
  exact ⟨m, h1, h2, h5, h4, h6⟩

/-- C81. A support blocker that is there on all layers, also somewhat beside a point, keeps support away from it, if
nothing else adds to the area of support. -/
theorem C81_blocked_partial (ops : Ops) (keep : Rat) (ok : ops.Ok keep) (c : Config) (i : Input) (hc : c.Ok)
    (hcon : c.conical = none) (hmesh : c.mesh = false) (hj : c.join ≤ 0) (he : c.expansion = 0) (ht : ∀ l, i.towers l = ∅)
    (oc : OverhangConfig) (hr : 0 ≤ oc.reach) (anti : Nat → Region)
    (ho : i.overhang = overhangs ops oc i.models i.own anti fun _ => ∅) (n : Nat) (p : Point) (hs : ∀ k, Single (i.models k) p)
    (hb : ∀ m, Disk (2 * (oc.reach * oc.below + 100)) p ⊆ anti m) (l : Nat) : p ∉ meshAreas ops c i n l := fun h => by
  obtain ⟨m, _, _, _, _, q, hd, hq | hq⟩ :=
    C76_needed_partial ops keep ok c i hc hcon hmesh hj he ht oc hr anti (fun _ => ∅) ho n l p h hs
  · exact hq.2.2 (hb m hd)
  · cases hq

end Verif.Support
