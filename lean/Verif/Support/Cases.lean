import Verif.Support.Cover
import Verif.Support.Interface
import Verif.Support.ExcludeProps
import Mathlib.Tactic.NormNum

/-! # Cases of support

The operations on areas with round corners meet the assumptions. For every theorem on support there is a case that meets its
hypotheses, and for properties that do not hold in general there are counterexamples. -/

namespace Verif.Support.Cases

open Verif.Volumes (Point Region times times_append times_cons times_one times_zero WithinFlat)

/-! ## Offsets with round corners -/

/-- The points that are further than the distance inside the area. -/
def inner (d : Rat) (r : Region) : Region := {p | Disk d p ⊆ r}

/-- Offsets with round corners; no area is too small. -/
def euclid : Ops where
  offset d r := if 0 ≤ d then Near d r else inner (-d) r
  round d r := if 0 ≤ d then Near d r else inner (-d) r
  small _ r := r

theorem near_zero (r : Region) : Near 0 r ⊆ r := by
  rintro p ⟨q, hq, hd⟩
  have : dist2 p q = 0 := le_antisymm (by simpa using hd) (dist2_nonneg p q)
  unfold dist2 at this
  have h1 : p.1 = q.1 := by nlinarith [sq_nonneg (p.1 - q.1), sq_nonneg (p.2 - q.2)]
  have h2 : p.2 = q.2 := by nlinarith [sq_nonneg (p.1 - q.1), sq_nonneg (p.2 - q.2)]
  exact (Prod.ext h1 h2 : p = q) ▸ hq

theorem euclid_in {d : Int} (h : 0 ≤ d) (r : Region) : euclid.offset d r = Near d r := if_pos h

theorem euclid_out {d : Int} (h : 0 < d) (r : Region) : euclid.offset (-d) r = inner d r := by
  show (if 0 ≤ -d then _ else _) = _
  rw [if_neg (by omega)]
  simp

theorem euclid_ok : euclid.Ok 0 where
  grow d r h := by rw [euclid_in h]
  grown d r h := by
    rw [euclid_in h]
    rintro p ⟨q, hq, hd⟩
    have h0 : (0 : Rat) ≤ d := by exact_mod_cast h
    exact ⟨q, hq, by nlinarith⟩
  shrink d r h := by
    rcases h.eq_or_lt with rfl | h
    · rw [neg_zero, euclid_in (le_refl _)]
      exact_mod_cast near_zero r
    · rw [euclid_out h]
      exact fun p hp => hp (disk_self _ _)
  shrunk d r p h hp := by
    have h0 : (0 : Rat) ≤ d := by exact_mod_cast h
    rcases h.eq_or_lt with rfl | h
    · rw [neg_zero, euclid_in (le_refl _)]
      exact near_self _ _ (hp (disk_self _ _))
    · rw [euclid_out h]
      exact fun q hq => hp (le_trans (show dist2 p q ≤ _ from hq) (by nlinarith))
  opening d r h := by
    rcases h.eq_or_lt with rfl | h
    · rw [neg_zero, euclid_in (le_refl _)]
      have := near_zero (Near 0 r)
      exact fun p hp => near_zero r (near_zero _ (by exact_mod_cast hp))
    · rw [euclid_out h, euclid_in h.le]
      rintro p ⟨q, hq, hd⟩
      exact hq (by rw [dist2_comm] at hd; exact hd)
  small _ _ := fun _ h => h
  large _ _ _ h := h (disk_self _ _)

/-- A rectangle. -/
def rect (a b c d : Rat) : Region := {p | a ≤ p.1 ∧ p.1 ≤ b ∧ c ≤ p.2 ∧ p.2 ≤ d}

theorem disk_le {d : Rat} (hd : 0 ≤ d) {p q : Point} (h : q ∈ Disk d p) :
    p.1 - d ≤ q.1 ∧ q.1 ≤ p.1 + d ∧ p.2 - d ≤ q.2 ∧ q.2 ≤ p.2 + d := by
  have h : (p.1 - q.1) ^ 2 + (p.2 - q.2) ^ 2 ≤ d ^ 2 := h
  have h1 : |p.1 - q.1| ≤ d := abs_le_of_sq_le_sq (by nlinarith [sq_nonneg (p.2 - q.2)]) hd
  have h2 : |p.2 - q.2| ≤ d := abs_le_of_sq_le_sq (by nlinarith [sq_nonneg (p.1 - q.1)]) hd
  rw [abs_le] at h1 h2
  refine ⟨?_, ?_, ?_, ?_⟩ <;> linarith [h1.1, h1.2, h2.1, h2.2]

/-- A disk in a rectangle. -/
theorem disk_rect {d : Rat} (hd : 0 ≤ d) {p : Point} {a b c e : Rat} (h : a ≤ p.1 - d ∧ p.1 + d ≤ b ∧ c ≤ p.2 - d ∧ p.2 + d ≤ e) :
    Disk d p ⊆ rect a b c e := fun q hq => by
  obtain ⟨h1, h2, h3, h4⟩ := disk_le hd hq
  exact ⟨by linarith, by linarith, by linarith, by linarith⟩

/-- A point that is to the right of a rectangle. -/
theorem free_right {d : Rat} (hd : 0 ≤ d) {p : Point} {a b c e : Rat} (h : b + d < p.1) : Free d [rect a b c e] p := by
  rintro q ⟨r, hr, hq⟩
  rw [List.mem_singleton] at hr
  subst hr
  unfold dist2
  have h1 : q.1 ≤ b := hq.2.1
  nlinarith [sq_nonneg (p.2 - q.2)]

theorem free_nil (d : Rat) (p : Point) : Free d [] p := by
  rintro q ⟨r, hr, _⟩
  cases hr

/-! ## A table

A plate of 20 mm by 20 mm, 2 mm above the build plate, on a leg at its left side. -/

def leg : Region := rect 0 1000 0 20000
def plate : Region := rect 0 20000 0 20000

/-- Layers of 0.2 mm, one layer between support and model. -/
def config : Config where
  height := 200
  top := 200
  bottom := 200
  stair := 300
  stairWidth := 5000
  xy := 700
  xyOverhang := 200
  zFirst := true
  mesh := false
  drop := false
  expansion := 0
  lineWidth := 400
  conical := none
  conicalWidth := 5000
  border := rect (-100000) 100000 (-100000) 100000
  join := 0
  minWall := 170
  minArea := 0
  plate := false
  slopeWidth := 577

def hang : OverhangConfig := ⟨true, 2, 200⟩

def own (l : Nat) : Region := if l < 10 then leg else plate

def table : Input where
  models l := [own l]
  own := own
  overhang := overhangs euclid hang (fun l => [own l]) own (fun _ => ∅) fun _ => ∅
  meshes _ := ∅
  drops _ := ∅
  varying _ := ∅
  towers _ := ∅

theorem config_ok : config.Ok := ⟨by decide, by decide, by decide, by decide, by decide⟩

def spot : Point := (15000, 10000)

theorem table_free (d : Rat) (hd : 0 ≤ d) (h : d < 14000) (k : Nat) (hk : k < 10) : Free d (table.models k) spot := by
  show Free d [own k] spot
  unfold own
  rw [if_pos hk]
  refine free_right hd ?_
  unfold spot
  linarith

theorem table_hangs (d : Rat) (hd : 0 ≤ d) (h : d ≤ 4000) : Overhanging hang table.models table.own (fun _ => ∅) d 10 spot where
  above := by decide
  here := by
    show Disk d spot ⊆ own 10
    refine disk_rect hd ?_
    unfold spot
    refine ⟨?_, ?_, ?_, ?_⟩ <;> linarith
  below k h1 h2 _ := by
    have h2 : k ≤ 2 := h2
    refine table_free _ ?_ ?_ _ (by omega)
    · have : (0 : Rat) ≤ k := by exact_mod_cast Nat.zero_le k
      show 0 ≤ d + 2 * (((200 : Int) : Rat) * k)
      push_cast
      linarith
    · have : (k : Rat) ≤ 2 := by exact_mod_cast h2
      show d + 2 * (((200 : Int) : Rat) * k) < 14000
      push_cast
      linarith
  allowed _ _ h := h

/-- C76 for the table, and for settings that differ in what does not matter. -/
theorem table_supported (c : Config) (h : c = config ∨ c = { config with zFirst := false } ∨ c = { config with plate := true })
    (l : Nat) (hl : l ≤ 8) : spot ∈ meshAreas euclid c table 12 l := by
  have hc : c.Ok := by rcases h with rfl | rfl | rfl <;> exact ⟨by decide, by decide, by decide, by decide, by decide⟩
  have e1 : c.conical = none := by rcases h with rfl | rfl | rfl <;> rfl
  have e2 : c.mesh = false := by rcases h with rfl | rfl | rfl <;> rfl
  have e3 : c.feature = 180 := by rcases h with rfl | rfl | rfl <;> rfl
  have e4 : c.xy = 700 := by rcases h with rfl | rfl | rfl <;> rfl
  have e5 : c.xyOverhang = 200 := by rcases h with rfl | rfl | rfl <;> rfl
  have e6 : c.stairWidth = 5000 := by rcases h with rfl | rfl | rfl <;> rfl
  have e7 : c.bottomLayers = 1 := by rcases h with rfl | rfl | rfl <;> rfl
  have e8 : c.topLayers = 2 := by rcases h with rfl | rfl | rfl <;> rfl
  refine C76_supported_partial euclid c table euclid_ok hc (le_refl _) e1 e2 hang rfl (by decide) _ _ rfl ?_ 360 5000
    (by rw [e3]; norm_num) ⟨?_, ?_, ?_⟩ 12 0 (.inr rfl) 10 (by decide) spot (table_hangs _ (by norm_num) (by norm_num)) ?_ ?_
    (.inr ⟨rfl, by omega, by omega⟩) l (by omega) (.inl rfl)
  · exact fun l p hp => ⟨own l, List.mem_singleton.2 rfl, hp⟩
  · rw [e4]; norm_num
  · rw [e5]; norm_num
  · rw [e6]; norm_num
  · exact fun k _ hk => table_free _ (by norm_num) (by norm_num) k hk
  · exact fun _ _ _ _ h => h

example : spot ∈ meshAreas euclid config table 12 5 := table_supported _ (.inl rfl) 5 (by decide)

/-- C74_clear_partial: the support of the table is not in the table. -/
example : spot ∉ solid (table.models 5) :=
  C74_clear_partial euclid 0 euclid_ok [(config, table)] (by simpa using config_ok) table.models (by simp) 12 5 spot
    (by
      show times spot [own 5] ≤ 1
      by_cases h : spot ∈ own 5
      · rw [times_one _ _ h]
      · rw [times_zero _ _ h]; omega)
    ⟨(config, table), by simp, table_supported _ (.inl rfl) 5 (by decide)⟩

/-- C74_distance_partial and C74_own, with a point of the leg. -/
example : ((700 : Int) : Rat) ^ 2 < dist2 spot (1000, 10000) :=
  C74_distance_partial euclid 0 euclid_ok { config with zFirst := false } ⟨by decide, by decide, by decide, by decide, by decide⟩ table 12 5
    (.inr (.inl rfl)) spot (table_supported _ (.inr (.inl rfl)) 5 (by decide)) _
    ⟨own 5, List.mem_singleton.2 rfl, ⟨by norm_num, by norm_num, by norm_num, by norm_num⟩⟩

example : ((200 : Int) : Rat) ^ 2 < dist2 spot (1000, 10000) :=
  C74_own euclid 0 euclid_ok config config_ok table 12 5 (by decide) rfl rfl spot (table_supported _ (.inl rfl) 5 (by decide)) _
    ⟨by norm_num, by norm_num, by norm_num, by norm_num⟩

theorem table_single (k : Nat) (p : Point) : Single (table.models k) p := by
  show times p [own k] ≤ 1
  by_cases h : p ∈ own k
  · rw [times_one _ _ h]
  · rw [times_zero _ _ h]; omega

/-- C75. -/
example : spot ∉ solid (table.models 9) :=
  C75_top_partial euclid 0 euclid_ok config config_ok table 12 8 (by decide) (by decide) spot (table_single _ _)
    (table_supported _ (.inl rfl) 8 (by decide))

example : spot ∉ solid (table.models 4) :=
  C75_bottom_partial euclid 0 euclid_ok config config_ok table 12 5 (by decide) (by decide) spot (table_single _ _)
    (table_supported _ (.inl rfl) 5 (by decide))

/-- C76_needed_partial. -/
example : ∃ m, 5 + config.topLayers ≤ m ∧ m < 12 ∧ spot ∈ table.own m :=
  let ⟨m, h1, h2, h3, _⟩ := C76_needed_partial euclid 0 euclid_ok config table config_ok rfl rfl (by decide) rfl (fun _ => rfl)
    hang (by decide) _ _ rfl 12 5 spot (table_supported _ (.inl rfl) 5 (by decide)) fun _ => table_single _ _
  ⟨m, h1, h2, h3⟩

/-- C78. -/
example : ∀ k ≤ 8, spot ∈ meshAreas euclid { config with plate := true } table 12 k :=
  C78_plate_partial euclid { config with plate := true } table 12 8 rfl rfl spot (table_supported _ (.inr (.inr rfl)) 8 (by decide))
    fun k hk _ => free_not (table_free 0 (le_refl _) (by norm_num) _ (by show k + 200 / 200 < 10; omega))

/-- C79. -/
example : spot ∈ areas euclid [(config, table)] 12 9 ∨ spot ∈ areas euclid [(config, table)] 12 7 :=
  C79_two euclid 0 euclid_ok [(config, table)] (by simpa using config_ok) 12 8 (by decide) spot
    ⟨(config, table), by simp, table_supported _ (.inl rfl) 8 (by decide)⟩

/-! ## Interface -/

/-- The table with two roof layers and one bottom layer. -/
def top : Interface := ⟨own, true, 2, 2, 0, 0, 0, true, 1, 1, 0, 0, 0⟩

def below (l : Nat) : Region := if l ≤ 8 then rect 2000 20000 0 20000 else ∅

def single (r : Region) : List Region := [r]

theorem single_ok : IslandsOk single := fun _ _ => rfl

/-- C77: all of the support right below the plate is roof; further down it is left. -/
example : spot ∉ (split euclid 12 below [top]).areas 7 := fun h =>
  C77_roof_partial euclid_ok 12 below [top] top (by simp) rfl (by decide) (by decide) (by decide) (by decide) 7 spot h 10
    (by decide) (by decide) (by decide) ⟨by norm_num [spot], by norm_num [spot], by norm_num [spot], by norm_num [spot]⟩

example : ((3000, 0) : Point) ∉ (split euclid 12 (fun _ => plate) [{ top with own := fun _ => plate }]).areas 3 := fun h =>
  C77_bottom_partial euclid_ok 12 (fun _ => plate) [{ top with own := fun _ => plate }] { top with own := fun _ => plate } (by simp) rfl (by decide) (by decide)
    (by decide) (by decide) 3 (by decide) _ h 2 (by decide) (by decide) ⟨by norm_num, by norm_num, by norm_num, by norm_num⟩

example : times spot (parts single 12 (split euclid 12 below [top]).areas (fun _ => plate) 5 ++
    (split euclid 12 below [top]).roofs 5 ++ (split euclid 12 below [top]).bottoms 5) ≤ 1 :=
  C77_once euclid_ok single single_ok 12 below (fun _ => plate) [top] 5 spot

theorem spot_below : spot ∈ below 5 := by
  unfold below
  rw [if_pos (by decide)]
  exact ⟨by norm_num [spot], by norm_num [spot], by norm_num [spot], by norm_num [spot]⟩

example : spot ∈ below 5 := C77_inside euclid_ok single single_ok 12 below (fun _ => plate) [] 5 spot (by
  refine ⟨below 5 ∩ plate, ?_, spot_below, ?_⟩
  · simp [parts, single, split]
  · exact ⟨by norm_num [spot], by norm_num [spot], by norm_num [spot], by norm_num [spot]⟩)

example := C77_cover euclid_ok single single_ok 12 below (fun _ => plate) [top] 5 (by decide) spot spot_below

/-! ## C80: horizontal expansion -/

/-- A plate in the air, with support that is expanded by 1 mm. -/
def wide : Config := { config with zFirst := false, expansion := 1000, minWall := 0 }

def air : Input where
  models l := if l < 10 then [] else [plate]
  own l := if l < 10 then ∅ else plate
  overhang l := if l = 10 then plate else ∅
  meshes _ := ∅
  drops _ := ∅
  varying _ := ∅
  towers _ := ∅

theorem wide_ok : wide.Ok := ⟨by decide, by decide, by decide, by decide, by decide⟩

theorem air_own (l : Nat) : air.own l ⊆ solid (air.models l) := by
  intro p hp
  unfold air at *
  dsimp only at *
  split at hp
  · cases hp
  · rename_i h
    rw [if_neg h]
    exact ⟨plate, List.mem_singleton.2 rfl, hp⟩

theorem air_free (k : Nat) (h : k < 10) : solid (air.models k) = ∅ := by
  unfold air
  dsimp only
  rw [if_pos h]
  exact Set.eq_empty_of_forall_notMem fun p ⟨r, hr, _⟩ => by cases hr

/-- C80_reach_partial: 0.9 mm beside the plate. -/
example (l : Nat) (hl : l ≤ 8) : ((20900, 10000) : Point) ∈ meshAreas euclid wide air 12 l := by
  refine C80_reach_partial euclid wide air euclid_ok wide_ok (le_refl _) rfl rfl rfl air_own (by decide) (by decide) 12 10
    (by decide) _ (fun q hq => ?_) air_free (.inr (by decide)) l (by show l + 2 ≤ 10; omega)
  obtain ⟨h1, h2, h3, h4⟩ := disk_le (by show (0 : Rat) ≤ 0 + 2 * ((10 : Int) : Rat); norm_num) hq
  have e : (0 + 2 * ((wide.feature : Int) : Rat)) = 20 := by show (0 + 2 * ((10 : Int) : Rat)) = 20; norm_num
  rw [e] at h1 h2 h3 h4
  dsimp only at h1 h2 h3 h4
  refine ⟨(20000, q.2), ⟨by norm_num, by norm_num, by linarith, by linarith⟩, ?_⟩
  unfold dist2
  show (q.1 - 20000) ^ 2 + (q.2 - q.2) ^ 2 ≤ (((1000 : Int) : Rat)) ^ 2
  push_cast
  nlinarith

/-- C80, counterexample: an expansion by 1 mm also expands support to places that are more than 1.1 mm away. -/
theorem C80_far_counterexample : ∃ p ∈ meshAreas euclid wide air 12 5, ∀ m, ∀ q ∈ air.overhang m,
    (1100 : Rat) ^ 2 ≤ dist2 p q := by
  refine ⟨(21100, 10000), ?_, ?_⟩
  · refine C80_steps euclid wide air euclid_ok wide_ok (le_refl _) rfl rfl rfl air_own (by decide) (by decide) 12 10
      (by decide) _ (fun q hq => ?_) air_free (.inr (by decide)) 5 (by decide)
    obtain ⟨h1, h2, h3, h4⟩ := disk_le (by show (0 : Rat) ≤ 0 + 2 * ((10 : Int) : Rat); norm_num) hq
    have e : (0 + 2 * ((wide.feature : Int) : Rat)) = 20 := by show (0 + 2 * ((10 : Int) : Rat)) = 20; norm_num
    rw [e] at h1 h2 h3 h4
    dsimp only at h1 h2 h3 h4
    refine ⟨(20000, q.2), ⟨by norm_num, by norm_num, by linarith, by linarith⟩, ?_⟩
    unfold dist2
    show (q.1 - 20000) ^ 2 + (q.2 - q.2) ^ 2 ≤ (((6 : Int) : Rat) * ((200 : Int) : Rat)) ^ 2
    push_cast
    nlinarith
  · intro m q hq
    have hq : q ∈ plate := by
      unfold air at hq
      dsimp only at hq
      split at hq
      · exact hq
      · cases hq
    have h1 : q.1 ≤ 20000 := hq.2.1
    unfold dist2
    show (1100 : Rat) ^ 2 ≤ ((21100 : Rat) - q.1) ^ 2 + _
    nlinarith [sq_nonneg ((10000 : Rat) - q.2)]

/-- C80, counterexample: a negative expansion has no effect at all. -/
theorem C80_negative_counterexample (ops : Ops) (c : Config) (i : Input) (n : Nat) (e : Int) (he : e < 0) :
    meshAreas ops { c with expansion := e } i n = meshAreas ops { c with expansion := 0 } i n := by
  have h : ∀ ms r, expand ops { c with expansion := e } ms r = expand ops { c with expansion := 0 } ms r := by
    intro ms r
    unfold expand expandCount
    dsimp only
    rw [if_pos he]
    simp [expandSteps]
  have hg : gather ops { c with expansion := e } i = gather ops { c with expansion := 0 } i := by
    funext a l
    unfold gather
    rw [h]
    rfl
  have hs : sloped ops { c with expansion := e } i = sloped ops { c with expansion := 0 } i := by
    funext l
    induction l with
    | zero => rfl
    | succ l ih =>
      unfold sloped
      rw [ih]
      rfl
  have hm : moveUp ops { c with expansion := e } i = moveUp ops { c with expansion := 0 } i := by
    funext st r l
    unfold moveUp
    rw [hs]
    rfl
  have hl : layer ops { c with expansion := e } i = layer ops { c with expansion := 0 } i := by
    funext s l
    unfold layer
    rw [hg, hm]
  have ht : touching ops { c with expansion := e } = touching ops { c with expansion := 0 } := by
    funext r l
    induction l with
    | zero => rfl
    | succ l ih =>
      unfold touching
      rw [ih]
  unfold meshAreas raw plateOnly
  rw [hl, ht]
  rfl

/-! ## Columns of support -/

/-- A disk of overhang without models below it, and without stairs, is supported. -/
theorem column {c : Config} (hc : c.Ok) (hcon : c.conical = none) (hmesh : c.mesh = false) (hst : c.stairLayers ≤ 1) (i : Input)
    {n a m : Nat} (hmn : m < n) {p : Point}
    (h : ∀ q ∈ Disk (0 + 2 * c.feature) p, q ∈ i.overhang m ∧ ∀ k, a ≤ k → k + c.topLayers ≤ m →
      q ∉ odd (i.models k) ∧ (c.bottomLayers ≤ k → q ∉ odd (i.models (k - c.bottomLayers))) ∧ q ∉ disallowed euclid c i k)
    (l : Nat) (h1 : a ≤ l) (h2 : l + c.topLayers ≤ m) : p ∈ spaced euclid c i (raw euclid c i n) l :=
  spaced_keep euclid c i euclid_ok hc (le_refl _) fun q hq =>
    ⟨raw_plain euclid c i hcon hmesh hst hmn (h q hq).1 (fun k g1 g2 => ⟨((h q hq).2 k g1 g2).1, ((h q hq).2 k g1 g2).2.1⟩)
      (m - l - c.topLayers) l (by omega) h1, ((h q hq).2 l h1 h2).2.2⟩

/-- Settings without stairs. -/
def flat : Config := { config with stair := 0 }

theorem not_leg {q : Point} (hq : q ∈ Disk 360 spot) : q ∉ leg := fun h => by
  have h1 : q.1 ≤ 1000 := h.2.1
  have h2 := (disk_le (by norm_num) hq).1
  unfold spot at h2
  linarith

theorem not_odd_one {q : Point} {r : Region} (h : q ∉ r) : q ∉ odd [r] := fun hq => by
  have hq : times q [r] % 2 = 1 := hq
  rw [times_zero q r h] at hq
  omega

theorem disallowed_own {c : Config} (hz : c.zFirst = true) (hm : c.mesh = false) (hx : c.xyOverhang = 200) {i : Input} {k : Nat} (hk : 0 < k)
    (ho : i.own k = leg) (hv : i.varying k = ∅) {q : Point} (hq : q ∈ Disk 360 spot) : q ∉ disallowed euclid c i k := by
  unfold disallowed
  rw [if_neg (by omega), hz, hm, if_neg (by decide), hx, ho, hv, Set.union_empty, euclid_in (by decide)]
  rintro ⟨x, hx, hd⟩
  have h1 : x.1 ≤ 1000 := hx.2.1
  have h2 := (disk_le (by norm_num) hq).1
  unfold spot at h2
  unfold dist2 at hd
  push_cast at hd
  dsimp only at h2
  nlinarith [sq_nonneg (q.2 - x.2)]

theorem disallowed_first {c : Config} (hx : c.xy = 700) {i : Input} (ho : i.models 0 = [leg]) {q : Point} (hq : q ∈ Disk 360 spot) :
    q ∉ disallowed euclid c i 0 := by
  unfold disallowed
  rw [if_pos rfl, hx, ho, euclid_in (by decide)]
  rintro ⟨x, ⟨r, hr, hx⟩, hd⟩
  rw [List.mem_singleton] at hr
  subst hr
  have h1 : x.1 ≤ 1000 := hx.2.1
  have h2 := (disk_le (by norm_num) hq).1
  unfold spot at h2
  unfold dist2 at hd
  push_cast at hd
  dsimp only at h2
  nlinarith [sq_nonneg (q.2 - x.2)]

/-- The overhang of a plate at the spot, if there is only the leg on the two layers below. -/
theorem spot_overhang (models : Nat → List Region) (own : Nat → Region) (m : Nat) (hm : 2 ≤ m) (ho : own m = plate)
    (h1 : models (m - 1) = [leg]) (h2 : models (m - 2) = [leg]) {q : Point} (hq : q ∈ Disk 360 spot) :
    q ∈ overhangs euclid hang models own (fun _ => ∅) (fun _ => ∅) m := by
  refine overhangs_of (anti := fun _ => ∅) euclid_ok rfl (by decide) (d := 360) (by norm_num) (p := spot)
    ⟨by omega, ?_, ?_, fun _ _ h => h⟩ hq
  · rw [ho]
    refine disk_rect (by norm_num) ?_
    unfold spot
    norm_num
  · intro k hk1 hk2 _
    have hk2 : k ≤ 2 := hk2
    have e : models (m - k) = [leg] := by
      rcases (by omega : k = 1 ∨ k = 2) with rfl | rfl
      · exact h1
      · exact h2
    rw [e]
    have g1 : (0 : Rat) ≤ k := by exact_mod_cast Nat.zero_le k
    have g2 : (k : Rat) ≤ 2 := by exact_mod_cast hk2
    refine free_right ?_ ?_
    · show 0 ≤ (360 : Rat) + 2 * (((200 : Int) : Rat) * k)
      push_cast
      linarith
    · show (1000 : Rat) + (360 + 2 * (((200 : Int) : Rat) * k)) < 15000
      push_cast
      linarith

theorem spot_plate : spot ∈ plate := ⟨by norm_num [spot], by norm_num [spot], by norm_num [spot], by norm_num [spot]⟩

/-- What `generateSupportAreasForMesh` reads for one mesh among others, without towers. -/
def input (models : Nat → List Region) (own : Nat → Region) (anti : Nat → Region) : Input where
  models := models
  own := own
  overhang := overhangs euclid hang models own anti fun _ => ∅
  meshes _ := ∅
  drops _ := ∅
  varying _ := ∅
  towers _ := ∅

/-! ## C74: other models -/

/-- A block of another mesh beside the support. -/
def block : Region := rect 15500 20000 0 20000

def beside : Input := input (fun l => if 1 ≤ l ∧ l ≤ 7 then [own l, block] else [own l]) own fun _ => ∅

theorem odd_two {q : Point} {a b : Region} (h1 : q ∉ a) (h2 : q ∉ b) : q ∉ odd [a, b] := fun hq => by
  have hq : times q [a, b] % 2 = 1 := hq
  rw [times_cons, times_zero q a h1, times_zero q b h2] at hq
  omega

/-- C74, counterexample: if the Z distance has priority, which is the default, support for one mesh does not keep the X/Y
distance of 0.7 mm from another mesh. -/
theorem C74_other_counterexample : flat.xy = 700 ∧ flat.zFirst = true ∧ spot ∈ meshAreas euclid flat beside 12 5 ∧
    ∃ q ∈ solid (beside.models 5), dist2 spot q ≤ 500 ^ 2 := by
  refine ⟨rfl, rfl, ?_, (15500, 10000), ⟨block, by simp [beside, input], ?_⟩, ?_⟩
  · unfold meshAreas
    rw [if_neg (by decide)]
    have hsp : ∀ l ≤ 8, spot ∈ spaced euclid flat beside (raw euclid flat beside 12) l := by
      intro l hl
      refine column (a := 0) (m := 10) ⟨by decide, by decide, by decide, by decide, by decide⟩ rfl rfl (by decide) beside
        (by decide) (fun q hq => ?_) l (Nat.zero_le _) (by show l + 2 ≤ 10; omega)
      have hq : q ∈ Disk 360 spot := by
        have e : (0 + 2 * ((flat.feature : Int) : Rat)) = 360 := by show (0 + 2 * ((180 : Int) : Rat)) = 360; norm_num
        rwa [e] at hq
      have hb : q ∉ block := fun h => by
        have h1 : 15500 ≤ q.1 := h.1
        have h2 := (disk_le (by norm_num) hq).2.1
        unfold spot at h2
        linarith
      have hno : ∀ k < 10, q ∉ odd (beside.models k) := by
        intro k hk
        show q ∉ odd (if 1 ≤ k ∧ k ≤ 7 then [own k, block] else [own k])
        have : own k = leg := if_pos hk
        rw [this]
        split
        · exact odd_two (not_leg hq) hb
        · exact not_odd_one (not_leg hq)
      refine ⟨spot_overhang _ _ 10 (by decide) rfl rfl rfl hq, fun k _ hk => ?_⟩
      have hk : k + 2 ≤ 10 := hk
      refine ⟨hno k (by omega), fun _ => hno _ (by omega), ?_⟩
      rcases Nat.eq_zero_or_pos k with rfl | hpos
      · exact disallowed_first rfl rfl hq
      · exact disallowed_own rfl rfl rfl hpos (if_pos (by omega)) rfl hq
    refine settle_keep (a := 0) (b := 6) (.inl rfl) 12 _ (fun j _ hj => ?_) 5 (by decide) (by decide)
    unfold belowModels plateOnly
    rw [if_pos (by show 2 > 1 ∧ j < 12 - (2 - 1); omega), if_neg (by decide)]
    refine ⟨hsp j (by omega), ?_⟩
    show spot ∉ odd (if 1 ≤ j + 1 ∧ j + 1 ≤ 7 then [own (j + 1), block] else [own (j + 1)])
    have : own (j + 1) = leg := if_pos (by omega)
    rw [this, if_pos (by omega)]
    refine odd_two (not_leg (disk_self _ _)) fun h => ?_
    have h1 : (15500 : Rat) ≤ 15000 := h.1
    norm_num at h1
  · exact ⟨by norm_num, by norm_num, by norm_num, by norm_num⟩
  · unfold dist2 spot
    norm_num

/-- A block of two overlapping meshes below the plate. -/
def twice : Region := rect 14000 16000 0 20000

def over : Input := input (fun l => if l = 3 ∨ l = 4 then [own l, twice, twice] else [own l]) own fun _ => ∅

/-- C74, counterexample: where two models overlap, support goes through them. -/
theorem C74_overlap_counterexample : spot ∈ meshAreas euclid flat over 12 4 ∧ spot ∈ solid (over.models 4) := by
  refine ⟨?_, twice, by simp [over, input], ⟨by norm_num [spot], by norm_num [spot], by norm_num [spot], by norm_num [spot]⟩⟩
  unfold meshAreas
  rw [if_neg (by decide)]
  have hno : ∀ q ∈ Disk 360 spot, ∀ k < 10, q ∉ odd (over.models k) := by
    intro q hq k hk
    show q ∉ odd (if k = 3 ∨ k = 4 then [own k, twice, twice] else [own k])
    have : own k = leg := if_pos hk
    rw [this]
    split
    · intro h
      have h : times q [leg, twice, twice] % 2 = 1 := h
      rw [times_cons, times_cons q twice, times_zero q leg (not_leg hq)] at h
      omega
    · exact not_odd_one (not_leg hq)
  have hsp : ∀ l ≤ 8, spot ∈ spaced euclid flat over (raw euclid flat over 12) l := by
    intro l hl
    refine column (a := 0) (m := 10) ⟨by decide, by decide, by decide, by decide, by decide⟩ rfl rfl (by decide) over
      (by decide) (fun q hq => ?_) l (Nat.zero_le _) (by show l + 2 ≤ 10; omega)
    have hq : q ∈ Disk 360 spot := by
      have e : (0 + 2 * ((flat.feature : Int) : Rat)) = 360 := by show (0 + 2 * ((180 : Int) : Rat)) = 360; norm_num
      rwa [e] at hq
    refine ⟨spot_overhang _ _ 10 (by decide) rfl rfl rfl hq, fun k _ hk => ?_⟩
    have hk : k + 2 ≤ 10 := hk
    refine ⟨hno q hq k (by omega), fun _ => hno q hq _ (by omega), ?_⟩
    rcases Nat.eq_zero_or_pos k with rfl | hpos
    · exact disallowed_first rfl rfl hq
    · exact disallowed_own rfl rfl rfl hpos (if_pos (by omega)) rfl hq
  refine settle_keep (a := 0) (b := 6) (.inl rfl) 12 _ (fun j _ hj => ?_) 4 (by decide) (by decide)
  unfold belowModels plateOnly
  rw [if_pos (by show 2 > 1 ∧ j < 12 - (2 - 1); omega), if_neg (by decide)]
  exact ⟨hsp j (by omega), hno spot (disk_self _ _) _ (by show j + 1 < 10; omega)⟩

/-! ## C75 and C78: thin models -/

/-- A plate of one layer, and another one two layers above it. -/
def thin (l : Nat) : Region := if l = 10 ∨ 13 ≤ l then plate else leg

def thinInput : Input := input (fun l => [thin l]) thin fun _ => ∅

def gap (onPlate : Bool) : Config := { flat with top := 600, plate := onPlate }

theorem gap_top (b : Bool) : (gap b).topLayers = 4 := by cases b <;> rfl

theorem gap_ok (b : Bool) : (gap b).Ok := by cases b <;> exact ⟨by decide, by decide, by decide, by decide, by decide⟩

theorem thin_spaced (b : Bool) (l : Nat) (hl : l ≤ 9) :
    spot ∈ spaced euclid (gap b) thinInput (raw euclid (gap b) thinInput 15) l := by
  refine column (a := 0) (m := 13) (gap_ok b) rfl rfl (by cases b <;> decide) thinInput (by decide) (fun q hq => ?_) l
    (Nat.zero_le _) (by rw [gap_top]; omega)
  have hq : q ∈ Disk 360 spot := by
    have e : (0 + 2 * (((gap b).feature : Int) : Rat)) = 360 := by show (0 + 2 * ((180 : Int) : Rat)) = 360; norm_num
    rwa [e] at hq
  have hno : ∀ k < 10, q ∉ odd (thinInput.models k) := by
    intro k hk
    show q ∉ odd [thin k]
    have : thin k = leg := if_neg (by omega)
    rw [this]
    exact not_odd_one (not_leg hq)
  refine ⟨spot_overhang _ _ 13 (by decide) rfl rfl rfl hq, fun k _ hk => ?_⟩
  rw [gap_top] at hk
  refine ⟨hno k (by omega), fun _ => hno _ (by omega), ?_⟩
  rcases Nat.eq_zero_or_pos k with rfl | hpos
  · exact disallowed_first rfl rfl hq
  · exact disallowed_own rfl rfl rfl hpos (if_neg (by omega)) rfl hq

theorem thin_above (b : Bool) : spot ∈ meshAreas euclid (gap b) thinInput 15 9 := by
  unfold meshAreas
  rw [if_neg (by rw [gap_top]; decide)]
  refine settle_keep (a := 8) (b := 9) (.inr (by decide)) 15 _ (fun j h1 h2 => ?_) 9 (by decide) (by decide)
  unfold belowModels
  rw [gap_top, if_pos (by omega)]
  refine ⟨?_, ?_⟩
  · unfold plateOnly
    split
    · exact touching_of rfl _ _ fun k hk => thin_spaced b k (by omega)
    · exact thin_spaced b j (by omega)
  · show spot ∉ odd [thin (j + 3)]
    have : thin (j + 3) = leg := if_neg (by omega)
    rw [this]
    exact not_odd_one (not_leg (disk_self _ _))

/-- C75, counterexample: with a top distance of three layers there is support on the layer right below a thin plate. -/
theorem C75_top_counterexample (b : Bool) : (gap b).top / (gap b).height = 3 ∧ spot ∈ meshAreas euclid (gap b) thinInput 15 9 ∧
    spot ∈ solid (thinInput.models 10) :=
  ⟨by cases b <;> rfl, thin_above b, plate, List.mem_singleton.2 rfl, spot_plate⟩

/-- C78, counterexample: support on the build plate only that has no support below it two layers down, and stands on
nothing. -/
theorem C78_floating_counterexample : (gap true).plate = true ∧ spot ∈ meshAreas euclid (gap true) thinInput 15 8 ∧
    spot ∉ meshAreas euclid (gap true) thinInput 15 7 ∧ spot ∉ solid (thinInput.models 7) := by
  have h7 : spot ∉ meshAreas euclid (gap true) thinInput 15 7 := fun h => by
    have hc : (gap true).Ok := ⟨by decide, by decide, by decide, by decide, by decide⟩
    have hb := (meshAreas_subset euclid (gap true) thinInput euclid_ok hc h).2.2
    unfold belowModels at hb
    rw [if_pos (by decide)] at hb
    refine hb.2 (solid_odd ?_ ⟨plate, List.mem_singleton.2 rfl, spot_plate⟩)
    show times spot [plate] ≤ 1
    rw [times_one _ _ spot_plate]
  refine ⟨rfl, ?_, h7, ?_⟩
  · have := C79_two euclid 0 euclid_ok [(gap true, thinInput)]
      (by simpa using (⟨by decide, by decide, by decide, by decide, by decide⟩ : (gap true).Ok)) 15 9 (by decide) spot
      ⟨(gap true, thinInput), by simp, thin_above true⟩
    rcases this with ⟨m, hm, h⟩ | ⟨m, hm, h⟩
    · rw [List.mem_singleton] at hm
      subst hm
      have := (raw_gather euclid (gap true) thinInput
        (meshAreas_subset euclid (gap true) thinInput euclid_ok ⟨by decide, by decide, by decide, by decide, by decide⟩ h).1)
      obtain ⟨_, g⟩ := this
      exfalso
      unfold gather at g
      have g2 : spot ∉ (if (10 : Nat) = 0 then ∅ else odd (thinInput.models 10)) := g.2
      exact g2 (solid_odd (by
        show times spot [plate] ≤ 1
        rw [times_one _ _ spot_plate]) ⟨plate, List.mem_singleton.2 rfl, spot_plate⟩)
    · rw [List.mem_singleton] at hm
      subst hm
      exact h
  · rintro ⟨r, hr, h⟩
    rw [List.mem_singleton.1 hr] at h
    exact not_leg (disk_self _ _) h

/-- A plate of one layer, and another one two layers above it. -/
def low (l : Nat) : Region := if l = 3 ∨ 6 ≤ l then plate else leg

def lowInput : Input := input (fun l => [low l]) low fun _ => ∅

def rise : Config := { flat with top := 0, bottom := 600 }

/-- C75, counterexample: with a bottom distance of three layers there is support on the layer right above a plate. -/
theorem C75_bottom_counterexample : rise.bottomLayers = 3 ∧ spot ∈ meshAreas euclid rise lowInput 8 4 ∧
    spot ∈ solid (lowInput.models 3) := by
  refine ⟨rfl, ?_, plate, List.mem_singleton.2 rfl, spot_plate⟩
  unfold meshAreas
  rw [if_neg (by decide)]
  refine settle_keep (a := 4) (b := 5) (.inr (by decide)) 8 _ (fun j h1 h2 => ?_) 4 (by decide) (by decide)
  unfold belowModels plateOnly
  rw [if_neg (by show ¬ (1 > 1 ∧ _); omega), if_neg (by decide)]
  refine column (a := 4) (m := 6) ⟨by decide, by decide, by decide, by decide, by decide⟩ rfl rfl (by decide) lowInput
    (by decide) (fun q hq => ?_) j h1 (by show j + 1 ≤ 6; omega)
  have hq : q ∈ Disk 360 spot := by
    have e : (0 + 2 * ((rise.feature : Int) : Rat)) = 360 := by show (0 + 2 * ((180 : Int) : Rat)) = 360; norm_num
    rwa [e] at hq
  have hno : ∀ k < 6, k ≠ 3 → q ∉ odd (lowInput.models k) := by
    intro k hk h3
    show q ∉ odd [low k]
    have : low k = leg := if_neg (by omega)
    rw [this]
    exact not_odd_one (not_leg hq)
  refine ⟨spot_overhang _ _ 6 (by decide) rfl rfl rfl hq, fun k hk1 hk => ?_⟩
  have hk : k + 1 ≤ 6 := hk
  exact ⟨hno k (by omega) (by omega), fun _ => hno _ (by show k - 3 < 6; omega) (by show k - 3 ≠ 3; omega),
    disallowed_own rfl rfl rfl (by omega) (if_neg (by omega)) rfl hq⟩

/-! ## C76: stairs -/

/-- A plate that is 0.1 mm shorter from the second layer on. -/
def step (l : Nat) : Region :=
  if l < 3 then rect (-20000) (-19000) (-10000) 10000
  else if l = 3 then rect (-20000) 0 (-10000) 10000 else rect (-20000) (-100) (-10000) 10000

def stepInput : Input := input (fun l => [step l]) step fun _ => ∅

/-- No distance between support and model, stairs of two layers. -/
def close : Config := { config with top := 0, bottom := 0, minWall := 0, xy := 0, xyOverhang := 0, zFirst := false }

def edge : Point := (-400, 0)

theorem step_slope : edge ∈ slope euclid close stepInput 4 := by
  unfold slope
  rw [euclid_in (by decide), show (-10 : Int) = -(10 : Int) from rfl, euclid_out (by decide)]
  refine ⟨(-50, 0), fun q hq => ?_, ?_⟩
  · obtain ⟨h1, h2, h3, h4⟩ := disk_le (by norm_num) hq
    push_cast at h1 h2 h3 h4
    have e3 : solid (stepInput.models (4 - 1)) = rect (-20000) 0 (-10000) 10000 := by
      ext p
      constructor
      · rintro ⟨r, hr, hp⟩
        rwa [List.mem_singleton.1 hr] at hp
      · exact fun hp => ⟨_, List.mem_singleton.2 rfl, hp⟩
    have e4 : solid (stepInput.models 4) = rect (-20000) (-100) (-10000) 10000 := by
      ext p
      constructor
      · rintro ⟨r, hr, hp⟩
        rwa [List.mem_singleton.1 hr] at hp
      · exact fun hp => ⟨_, List.mem_singleton.2 rfl, hp⟩
    have es : close.slopeWidth = 577 := rfl
    rw [e3, e4, es]
    unfold tube
    rw [euclid_in (by decide), euclid_out (by decide), euclid_in (by decide), euclid_out (by decide)]
    refine ⟨⟨near_self _ _ ⟨by linarith, by linarith, by linarith, by linarith⟩, fun h => ?_⟩,
      ⟨(-100, q.2), ⟨by norm_num, by norm_num, by linarith, by linarith⟩, ?_⟩, fun h => ?_⟩
    · have : ((q.1 + 500, q.2) : Point) ∈ rect (-20000) 0 (-10000) 10000 := h (by
        show dist2 q (q.1 + 500, q.2) ≤ _
        unfold dist2
        dsimp only
        push_cast
        nlinarith)
      have : q.1 + 500 ≤ 0 := this.2.1
      linarith
    · unfold dist2
      dsimp only
      push_cast
      nlinarith
    · have : q ∈ rect (-20000) (-100) (-10000) 10000 := h (disk_self _ _)
      have : q.1 ≤ -100 := this.2.1
      linarith
  · show dist2 edge (-50, 0) ≤ (((10 + 577 : Int) : Rat)) ^ 2
    unfold dist2 edge
    norm_num

theorem edge_three : edge ∈ rect (-20000) 0 (-10000) 10000 := ⟨by norm_num [edge], by norm_num [edge], by norm_num [edge], by norm_num [edge]⟩

theorem stairs_four (st r : Region) : edge ∈ (moveUp euclid close stepInput st r 4).2 := by
  unfold moveUp
  have e1 : close.bottomLayers = 0 := rfl
  have e2 : close.stairLayers = 2 := rfl
  have e3 : close.stairWidth = 5000 := rfl
  rw [e1, e2, e3]
  simp only [show ¬ (2 ≤ 1) by omega, show 4 % 2 = 0 by rfl, if_false, if_true,
    show 2 ≤ 4 - 0 + 1 by omega]
  refine ⟨?_, ?_, ?_⟩
  · show times edge [step 3] % 2 = 1
    rw [times_one edge (step 3) edge_three]
  · rw [euclid_in (by decide)]
    exact near_self _ _ ⟨step 3, List.mem_singleton.2 rfl, edge_three⟩
  · unfold sloped
    rw [e2, if_pos (by decide)]
    exact .inl step_slope

theorem stairs_three (st r : Region) : (moveUp euclid close stepInput st r 3).2 = st := by
  unfold moveUp
  have e1 : close.bottomLayers = 0 := rfl
  have e2 : close.stairLayers = 2 := rfl
  rw [e1, e2]
  rw [if_neg (by decide)]
  dsimp only
  rw [if_neg (by decide), if_neg (by decide)]

theorem stairs_two (st r : Region) (h : edge ∈ st) : edge ∉ (moveUp euclid close stepInput st r 2).1 := by
  unfold moveUp
  have e1 : close.bottomLayers = 0 := rfl
  have e2 : close.stairLayers = 2 := rfl
  rw [e1, e2]
  simp only [show ¬ (2 ≤ 1) by omega, if_false]
  exact fun hc => hc.2 (.inl h)

/-- C76, counterexample: stairs above the layer remove support right below overhang, down to the build plate, although
there is no model anywhere near it on the layers below. -/
theorem C76_stairs_counterexample :
    stepInput.overhang = overhangs euclid hang stepInput.models stepInput.own (fun _ => ∅) (fun _ => ∅) ∧
    Overhanging hang stepInput.models stepInput.own (fun _ => ∅) 100 3 edge ∧
    (∀ k < 3, Free 18000 (stepInput.models k) edge) ∧ close.topLayers = 1 ∧
    edge ∉ meshAreas euclid close stepInput 6 2 := by
  have hfree : ∀ d : Rat, 0 ≤ d → d ≤ 18000 → ∀ k < 3, Free d (stepInput.models k) edge := by
    intro d h0 hd k hk
    show Free d [step k] edge
    have : step k = rect (-20000) (-19000) (-10000) 10000 := if_pos hk
    rw [this]
    refine free_right h0 ?_
    show -19000 + d < (-400 : Rat)
    linarith
  refine ⟨rfl, ⟨by decide, ?_, ?_, fun _ _ h => h⟩, hfree 18000 (by norm_num) (le_refl _), rfl, ?_⟩
  · show Disk 100 edge ⊆ rect (-20000) 0 (-10000) 10000
    refine disk_rect (by norm_num) ?_
    unfold edge
    norm_num
  · intro k h1 h2 _
    have h2 : k ≤ 2 := h2
    have g1 : (0 : Rat) ≤ k := by exact_mod_cast Nat.zero_le k
    have g2 : (k : Rat) ≤ 2 := by exact_mod_cast h2
    refine hfree _ ?_ ?_ _ (by omega)
    · show 0 ≤ (100 : Rat) + 2 * (((200 : Int) : Rat) * k)
      push_cast
      linarith
    · show (100 : Rat) + 2 * (((200 : Int) : Rat) * k) ≤ 18000
      push_cast
      linarith
  · intro h
    have hr := (meshAreas_subset euclid close stepInput euclid_ok ⟨by decide, by decide, by decide, by decide, by decide⟩ h).1
    unfold raw at hr
    have hl : (List.range (6 - close.topLayers)).reverse = [4, 3, 2, 1, 0] := by decide
    rw [hl] at hr
    simp only [List.foldl_cons, List.foldl_nil] at hr
    unfold layer at hr
    dsimp only at hr
    rw [Function.update_of_ne (by decide), Function.update_of_ne (by decide), Function.update_self] at hr
    refine stairs_two _ _ ?_ hr
    rw [stairs_three]
    exact stairs_four _ _

/-! ## C81: support blockers -/

/-- A blocker for half of the plate, on all layers. -/
def half (_ : Nat) : Region := rect 15000 40000 (-20000) 40000

def halfInput : Input := input (fun l => [own l]) own half

/-- C81, counterexample: 0.3 mm inside of a support blocker there is support. -/
theorem C81_edge_counterexample : (∀ l, Disk 300 (15300, 10000) ⊆ half l) ∧
    ((15300, 10000) : Point) ∈ meshAreas euclid { config with minWall := 0 } halfInput 12 5 := by
  refine ⟨fun l => disk_rect (by norm_num) (by norm_num), ?_⟩
  refine supported_of euclid { config with minWall := 0 } halfInput euclid_ok
    ⟨by decide, by decide, by decide, by decide, by decide⟩ (le_refl _) rfl rfl 12 0 (.inr rfl)
    (fun l p hp => ⟨own l, List.mem_singleton.2 rfl, hp⟩) 20 5000 ?_ ⟨?_, ?_, ?_⟩ 10 (by decide) _ (fun q hq => ?_) ?_ ?_
    (.inr ⟨rfl, by decide, by decide⟩) 5 (by decide) (.inl rfl)
  · show (20 : Rat) = 0 + 2 * ((10 : Int) : Rat)
    norm_num
  · show ((700 : Int) : Rat) ≤ 5000
    norm_num
  · show ((200 : Int) : Rat) ≤ 5000
    norm_num
  · show ((5000 : Int) : Rat) ≤ 5000
    norm_num
  · refine expand_self _ _ _ _ ?_
    obtain ⟨h1, h2, h3, h4⟩ := disk_le (by norm_num) hq
    dsimp only at h1 h2 h3 h4
    show q ∈ fullOverhang euclid hang (fun l => [own l]) own half (fun _ => ∅) 10
    refine ⟨?_, ⟨by linarith, by linarith, by linarith, by linarith⟩⟩
    show q ∈ euclid.offset (200 * (2 : Nat) + 100) _
    rw [euclid_in (by decide)]
    refine ⟨(14900, q.2), .inl ⟨⟨⟨by norm_num, by norm_num, by linarith, by linarith⟩, ?_⟩, ?_⟩, ?_⟩
    · have e9 : ∀ d : Rat, 0 ≤ d → d ≤ 1000 → ∀ l < 10, ((14900, q.2) : Point) ∉ Near d (solid [own l]) := by
        intro d h0 hd l hl ⟨x, ⟨r, hr, hx⟩, hdx⟩
        rw [List.mem_singleton] at hr
        subst hr
        have e : own l = leg := if_pos hl
        rw [e] at hx
        have hx1 : x.1 ≤ 1000 := hx.2.1
        unfold dist2 at hdx
        dsimp only at hdx
        nlinarith [sq_nonneg (q.2 - x.2)]
      intro h
      rcases (mem_outlinesBelow (ops := euclid) hang (fun l => [own l]) 10 (by decide) _).1 h with ⟨k, hk1, hk2, _, hk⟩
      have hk2 : k ≤ 2 := hk2
      have hkr : (0 : Int) ≤ hang.reach * k := by show (0 : Int) ≤ 200 * k; positivity
      rw [euclid_in (by show (0 : Int) ≤ 200 * k; positivity)] at hk
      refine e9 _ ?_ ?_ _ (by omega) hk
      · exact_mod_cast hkr
      · have : hang.reach * k ≤ 1000 := by show (200 : Int) * k ≤ 1000; omega
        exact_mod_cast this
    · exact fun h => by
        have : (15000 : Rat) ≤ 14900 := h.1
        norm_num at this
    · unfold dist2
      dsimp only
      push_cast
      nlinarith
  · intro k _ hk
    show Free _ [own k] _
    have e : own k = leg := if_pos hk
    rw [e]
    exact free_right (by norm_num) (by norm_num)
  · exact fun _ _ _ _ h => h

/-- C81_blocked_partial: well inside of the blocker there is no support. -/
example (l : Nat) : ((18000, 10000) : Point) ∉ meshAreas euclid config halfInput 12 l := by
  refine C81_blocked_partial euclid 0 euclid_ok config halfInput config_ok rfl rfl (by decide) rfl (fun _ => rfl) hang
    (by decide) half rfl 12 _ (fun k => ?_) (fun m => disk_rect ?_ ?_) l
  · exact table_single k _
  · show (0 : Rat) ≤ 2 * (((200 : Int) : Rat) * ((2 : Nat) : Rat) + 100)
    norm_num
  · show (15000 : Rat) ≤ 18000 - 2 * (((200 : Int) : Rat) * ((2 : Nat) : Rat) + 100) ∧ _
    unfold hang
    norm_num

/-! ## C82: support meshes -/

/-- A support mesh on ten layers, beside a leg. -/
def pillar : Input where
  models _ := [leg]
  own _ := leg
  overhang _ := ∅
  meshes l := if l < 10 then rect 14000 16000 0 20000 else ∅
  drops _ := ∅
  varying _ := ∅
  towers _ := ∅

def meshConfig : Config := { config with mesh := true }

theorem meshConfig_ok : meshConfig.Ok := ⟨by decide, by decide, by decide, by decide, by decide⟩

example (l : Nat) (hl : l ≤ 9) : spot ∈ meshAreas euclid meshConfig pillar 15 l := by
  refine C82_printed_partial euclid meshConfig pillar euclid_ok meshConfig_ok (le_refl _) rfl rfl rfl 360 5000 ?_ ⟨?_, ?_⟩ 15 0 9
    (.inl rfl) (by decide) spot (fun k _ hk => ?_) (fun k => free_right (by norm_num) (by norm_num [spot])) l (Nat.zero_le _) hl
  · show (360 : Rat) = 0 + 2 * ((180 : Int) : Rat)
    norm_num
  · show ((700 : Int) : Rat) ≤ 5000
    norm_num
  · show ((5000 : Int) : Rat) ≤ 5000
    norm_num
  · show Disk 360 spot ⊆ if k < 10 then rect 14000 16000 0 20000 else ∅
    rw [if_pos (by omega)]
    exact disk_rect (by norm_num) (by norm_num [spot])

/-- C82, counterexample: nothing of a support mesh is printed on the last layers of a print. -/
theorem C82_last_counterexample (ops : Ops) (keep : Rat) (ok : ops.Ok keep) (c : Config) (hc : c.Ok) (i : Input) (n l : Nat)
    (hl : n ≤ l + c.topLayers) : meshAreas ops c i n l = ∅ :=
  Set.eq_empty_of_forall_notMem fun p hp => by
    have := (raw_gather ops c i (meshAreas_subset ops c i ok hc hp).1).1
    omega

/-- A print that is as high as the pillar. -/
example : spot ∉ meshAreas euclid meshConfig pillar 10 8 ∧ spot ∈ pillar.meshes 8 :=
  ⟨by rw [C82_last_counterexample euclid 0 euclid_ok meshConfig meshConfig_ok pillar 10 8 (by decide)]; exact fun h => h,
    ⟨by norm_num [spot], by norm_num [spot], by norm_num [spot], by norm_num [spot]⟩⟩

/-! ## C83: areas that are taken out -/

open Verif.Box (AABB)

def strip (a b : Rat) : Region := rect a b 0 100

open Classical in
/-- Takes the middle of a strip out; the division into islands does that for the strips of this case. -/
noncomputable def cut (ex : Region) (box : AABB) (pieces : List Region) : Exclusion where
  region := ex
  box := box
  islands r := if r = strip 0 1000 \ ex ∧ (∀ p, times p pieces = times p [r]) then pieces else [r]
  boxOf _ := ⟨⟨0, 0⟩, ⟨1000, 100⟩⟩
  grow n := 2 * n

theorem cut_ok (ex : Region) (box : AABB) (pieces : List Region) (h : ∀ p ∈ ex, WithinFlat box p) : (cut ex box pieces).Ok where
  islands r p := by
    unfold cut
    dsimp only
    split
    · rename_i hr
      exact hr.2 p
    · rfl
  inside := h

def mid : Region := {p | 200 < p.1 ∧ p.1 < 400 ∧ 0 ≤ p.2 ∧ p.2 ≤ 100}

def bar : InfillPart := ⟨strip 0 1000, ⟨⟨0, 0⟩, ⟨1000, 100⟩⟩, 400, true, 400, 2000⟩

theorem mid_times (p : Point) : times p [strip 0 200, strip 400 1000] = times p [strip 0 1000 \ mid] := by
  by_cases h : p ∈ strip 0 1000 \ mid
  · rw [times_one _ _ h]
    obtain ⟨⟨h1, h2, h3, h4⟩, h5⟩ := h
    by_cases hl : p.1 ≤ 200
    · rw [times_cons, times_one p (strip 0 200) ⟨h1, hl, h3, h4⟩, times_zero p (strip 400 1000)]
      intro hc
      have := hc.1
      linarith
    · have hr : 400 ≤ p.1 := by
        by_contra hc
        exact h5 ⟨by linarith, by linarith, h3, h4⟩
      rw [times_cons, times_zero p (strip 0 200), times_one p (strip 400 1000) ⟨hr, h2, h3, h4⟩]
      intro hc
      exact hl hc.2.1
  · rw [times_zero _ _ h, times_cons, times_zero p (strip 0 200), times_zero p (strip 400 1000)]
    · rintro ⟨h1, h2, h3, h4⟩
      refine h ⟨⟨by linarith, h2, h3, h4⟩, fun hm => ?_⟩
      have := hm.2.1
      linarith
    · rintro ⟨h1, h2, h3, h4⟩
      refine h ⟨⟨h1, by linarith, h3, h4⟩, fun hm => ?_⟩
      have := hm.1
      linarith

noncomputable def midCut : Exclusion := cut mid ⟨⟨200, 0⟩, ⟨400, 100⟩⟩ [strip 0 200, strip 400 1000]

theorem midCut_ok : midCut.Ok := cut_ok _ _ _ fun p ⟨h1, h2, h3, h4⟩ => by
  refine ⟨?_, ?_, ?_, ?_⟩ <;> dsimp only <;> push_cast <;> linarith

theorem bar_ok : bar.Ok := fun p ⟨h1, h2, h3, h4⟩ => by
  refine ⟨?_, ?_, ?_, ?_⟩ <;> dsimp only [bar] <;> push_cast <;> linarith

theorem midCut_islands : midCut.islands (bar.outline \ midCut.region) = [strip 0 200, strip 400 1000] :=
  if_pos ⟨rfl, mid_times⟩

theorem bar_pieces : midCut.pieces bar = [strip 0 200, strip 400 1000] := by
  unfold Exclusion.pieces
  rw [if_pos (by decide), midCut_islands]

/-- C83: what is taken out is gone, the rest is still there, once. -/
example : ∃ out, exclude midCut 1 [bar] = .ok out ∧ times (300, 50) (out.map InfillPart.outline) = 0 ∧
    times (100, 50) (out.map InfillPart.outline) = 1 ∧ ∀ t ∈ out, t.width = 400 := by
  obtain ⟨out, h⟩ := C83_defined_partial midCut 1 [bar] (.inl (by simp [bar_pieces]))
  have hps : ∀ q ∈ [bar], q.Ok := by simpa using bar_ok
  refine ⟨out, h, (C83_exact_partial midCut midCut_ok 1 [bar] out hps h (300, 50)).1 ⟨by norm_num, by norm_num, by norm_num, by norm_num⟩, ?_,
    fun t ht => ?_⟩
  · rw [(C83_exact_partial midCut midCut_ok 1 [bar] out hps h (100, 50)).2 fun hm => by
      have : (200 : Rat) < 100 := hm.1
      norm_num at this]
    exact times_one _ (strip 0 1000) ⟨by norm_num, by norm_num, by norm_num, by norm_num⟩
  · obtain ⟨q, hq, _, hw, _⟩ := C83_same_partial midCut midCut_ok 1 [bar] out h t ht
    rw [hw, List.mem_singleton.1 hq]
    rfl

/-- C83, counterexample: a part with its own line distance loses it where it falls apart. -/
theorem C83_distance_counterexample : ∃ out, exclude midCut 1 [bar] = .ok out ∧ bar.distance = 2000 ∧ ∃ t ∈ out, t.distance = 0 := by
  obtain ⟨out, h⟩ := C83_defined_partial midCut 1 [bar] (.inl (by simp [bar_pieces]))
  refine ⟨out, h, rfl, ⟨strip 400 1000, ⟨⟨0, 0⟩, ⟨1000, 100⟩⟩, 400, true, 400, 0⟩, ?_, rfl⟩
  rw [(exclude_perm midCut 1 [bar] out h).mem_iff]
  refine List.mem_append_right _ ?_
  simp only [List.flatMap_cons, List.flatMap_nil, List.append_nil, Exclusion.rest, bar_pieces]
  exact List.mem_singleton.2 rfl

/-- Two gaps. -/
def gaps : Region := {p | (200 < p.1 ∧ p.1 < 400 ∨ 600 < p.1 ∧ p.1 < 800) ∧ 0 ≤ p.2 ∧ p.2 ≤ 100}

theorem gaps_times (p : Point) :
    times p [strip 0 200, strip 400 600, strip 800 1000] = times p [strip 0 1000 \ gaps] := by
  have key : ∀ a b, p ∈ strip a b ↔ a ≤ p.1 ∧ p.1 ≤ b ∧ 0 ≤ p.2 ∧ p.2 ≤ 100 := fun a b => Iff.rfl
  have hg : p ∈ gaps ↔ (200 < p.1 ∧ p.1 < 400 ∨ 600 < p.1 ∧ p.1 < 800) ∧ 0 ≤ p.2 ∧ p.2 ≤ 100 := Iff.rfl
  unfold times
  simp only [Set.mem_sdiff, key, hg, times]
  by_cases hy : 0 ≤ p.2 ∧ p.2 ≤ 100
  · simp only [hy, and_true]
    rcases le_or_gt 0 p.1 with h0 | h0 <;> rcases le_or_gt p.1 200 with h1 | h1 <;> rcases le_or_gt 400 p.1 with h2 | h2 <;>
      rcases le_or_gt p.1 600 with h3 | h3 <;> rcases le_or_gt 800 p.1 with h4 | h4 <;> rcases le_or_gt p.1 1000 with h5 | h5 <;>
      first
      | (exfalso; linarith)
      | simp [h0, h1, h2, h3, h4, h5, not_le.2, not_lt.2]
  · simp only [hy, and_false, if_false, false_and]

noncomputable def gapsCut : Exclusion := cut gaps ⟨⟨200, 0⟩, ⟨800, 100⟩⟩ [strip 0 200, strip 400 600, strip 800 1000]

/-- The hypotheses of C83_undefined_counterexample: a brim takes two gaps out of a part of support. -/
example : exclude gapsCut 1 [bar] = .ub :=
  C83_undefined_counterexample gapsCut bar _ _ _ [] (by decide) (if_pos ⟨rfl, gaps_times⟩) []

end Verif.Support.Cases
