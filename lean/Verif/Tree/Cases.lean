import Verif.Tree.Props
import Verif.Support.Cases

/-! # Cases for the areas that branches avoid

Exact operations on areas meet the assumptions. For every theorem there is a case that meets its hypotheses, and for what does not hold in general
there are counterexamples. -/

namespace Verif.Tree.Cases

open Verif.Volumes (Point Region)
open Verif.Support (dist2 Disk Near dist2_nonneg)

/-! ## Exact operations -/

/-- Offsets by a distance inwards or outwards, and nothing is simplified. -/
def exact : Ops where
  offset d r := if 0 ≤ d then Near d r else {p | Disk (-(d : ℚ)) p ⊆ r}
  round d r := if 0 ≤ d then Near d r else {p | Disk (-(d : ℚ)) p ⊆ r}
  simplify r := r

theorem near_zero {r : Region} {p : Point} (h : p ∈ r) : p ∈ Near 0 r := ⟨p, h, by rw [Support.dist2_self]; norm_num⟩

theorem disk_self {d : ℚ} (p : Point) : p ∈ Disk d p := by
  show dist2 p p ≤ _
  rw [Support.dist2_self]
  positivity

theorem in_neg {d : Int} (hd : 0 < d) (r : Region) : exact.offset (-d) r = {p | Disk d p ⊆ r} := by
  show (if 0 ≤ -d then _ else _) = _
  rw [if_neg (by omega)]
  push_cast
  rw [neg_neg]

theorem out_pos {d : Int} (hd : 0 ≤ d) (r : Region) : exact.offset d r = Near d r := if_pos hd

theorem exact_ok : exact.Ok 0 where
  nonneg := le_rfl
  grow d r hd := (out_pos hd r).ge
  round d r hd := (out_pos hd r).ge
  shrink d r p hd h := by
    show p ∈ if 0 ≤ -d then _ else _
    have hd' : (0 : ℚ) ≤ d := by exact_mod_cast hd
    split
    · obtain rfl : d = 0 := by omega
      simpa using near_zero (h (disk_self p))
    · intro q hq
      refine h ?_
      change dist2 p q ≤ _ at hq
      show dist2 p q ≤ _
      push_cast at hq
      nlinarith
  simplify r p h := h (disk_self p)

theorem near_zero_sub (r : Region) : Near 0 r ⊆ r := by
  rintro p ⟨q, hq, hd⟩
  have : dist2 p q = 0 := le_antisymm (by simpa using hd) (dist2_nonneg p q)
  unfold dist2 at this
  have h1 : p.1 = q.1 := by nlinarith [sq_nonneg (p.1 - q.1), sq_nonneg (p.2 - q.2)]
  have h2 : p.2 = q.2 := by nlinarith [sq_nonneg (p.1 - q.1), sq_nonneg (p.2 - q.2)]
  exact (Prod.ext h1 h2 : p = q) ▸ hq

theorem exact_tight : exact.Tight 0 where
  grown d r hd := by
    rw [out_pos hd]
    rintro p ⟨q, hq, h⟩
    refine ⟨q, hq, le_trans h ?_⟩
    have : (0 : ℚ) ≤ d := by exact_mod_cast hd
    nlinarith
  shrunk d r p hd h := by
    change p ∈ (if 0 ≤ -d then _ else _) at h
    split at h
    · obtain rfl : d = 0 := by omega
      intro q hq
      have h : p ∈ Near 0 r := by simpa using h
      have : q ∈ Near 0 ({p} : Region) := ⟨p, rfl, by rw [Support.dist2_comm]; change dist2 p q ≤ _ at hq; simpa using hq⟩
      have e : q = p := near_zero_sub ({p} : Region) this
      exact e ▸ near_zero_sub _ h
    · push_cast at h
      rw [neg_neg] at h
      exact h
  simplified r p h := near_zero h

/-! ## A column -/

/-- A square of 10 mm. -/
def square : Region := {p | 0 ≤ p.1 ∧ p.1 ≤ 10000 ∧ 0 ≤ p.2 ∧ p.2 ≤ 10000}

/-- A column of two layers; a layer above and below it is kept free. -/
def column : Group := ⟨400, 1, 1, 2, fun _ => square⟩

/-- A column on a build plate, of which the right side is out of reach. -/
def plate : Config where
  ops := exact
  move := 1000
  slow := 500
  minStep := 200
  minXy := 400
  delta := 100
  full := 1000
  radius0 := 500
  ignorable := []
  free := 0
  border := {p | 100000 < p.1}
  antiLayers := 0
  anti _ := ∅
  groups := [column]
  placed _ := ∅

theorem plate_ok : plate.Ok := ⟨by decide, by decide, by decide⟩

/-- A point left of the column. -/
def left : Point := (-50000, 0)

/-- The middle of the column. -/
def middle : Point := (5000, 5000)

theorem left_far {d : ℚ} (hd : 0 ≤ d) (hd' : d < 50000) {r : Region} (h : ∀ q ∈ r, 0 ≤ q.1) : left ∉ Near d r := by
  rintro ⟨q, hq, hn⟩
  have h0 := h q hq
  unfold dist2 left at hn
  dsimp only at hn
  nlinarith [sq_nonneg (0 - q.2)]

theorem square_right : ∀ q ∈ square, 0 ≤ q.1 := fun _ h => h.1

theorem base_right {l : Nat} : ∀ q ∈ plate.border ∪ (if l < column.layers then column.outline l else ∅), 0 ≤ q.1 := by
  rintro q (h | h)
  · exact le_trans (by norm_num) (le_of_lt (show (100000 : ℚ) < q.1 from h))
  · split at h
    · exact h.1
    · exact absurd h (by simp)

theorem left_base (l : Nat) : left ∉ base plate column 500 l := by
  unfold base
  show left ∉ exact.offset 900 _
  rw [out_pos (by norm_num)]
  exact left_far (by norm_num) (by norm_num) base_right

theorem left_collision (l : Nat) : left ∉ collision plate 500 l := by
  rintro ⟨g, hg, h⟩
  obtain rfl := List.mem_singleton.1 hg
  rcases h with ((h | ⟨k, _, _, _, h⟩) | ⟨k, h1, h2, _, h⟩) | h
  · exact left_base l h
  · exact left_base _ h
  · obtain rfl : k = 1 := le_antisymm h2 h1
    have e : required column.xy column.top 1 = 200 := by
      have : required column.xy column.top 1 = ⌊((400 : Int) : ℚ) - (((1 : Nat) : ℚ) - 1 / 2) * ((400 : Int) : ℚ) / ((1 : Nat) : ℚ)⌋ := rfl
      rw [this]
      norm_num
    rw [e] at h
    change left ∈ exact.offset 700 _ at h
    rw [out_pos (by norm_num)] at h
    exact left_far (by norm_num) (by norm_num) square_right h
  · exact absurd h (by simp [blocked, plate])

theorem collision_500 (l : Nat) : getCollision plate 500 l true = some (collision plate 500 l) := by
  have : ceilRadius plate (500 + if true = true then 0 else plate.delta) = some 500 := by decide +kernel
  unfold getCollision
  rw [if_neg (by decide), this]
  rfl

/-- With exact operations an area only gets smaller from layer to layer, except for the collision area. -/
theorem step_sub {kind : Kind} (hk : kind = .fast ∨ kind = .collision) {tm : Bool} {l : Nat} {a b : Region}
    (h : avoidStep plate kind tm 500 l a = some b) {p : Point} (ha : p ∉ a) (hc : p ∉ collision plate 500 l) : p ∉ b := by
  have e : colFor plate kind 500 l = some (collision plate 500 l) := by
    unfold colFor
    rw [if_neg (by rcases hk with rfl | rfl <;> decide), collision_500]
  have es : speed plate kind = 998 := by rcases hk with rfl | rfl <;> decide
  have em : maxStep plate 500 = 950 := by
    have : maxStep plate 500 = ⌊max (19 / 10 * ((500 : Int) : ℚ)) (((400 : Int) : ℚ) * (19 / 10))⌋ := rfl
    rw [this]
    norm_num
  unfold avoidStep at h
  rw [e, es, em] at h
  have e2 : safeOffset plate a (-998) (-950) (collision plate 500 l) = some ({p | Disk ((998 : Int) : ℚ) p ⊆ a} ∪ collision plate 500 l) := by
    unfold safeOffset
    dsimp only
    have hs : sign (-998) % 256 * max plate.minStep |-950| = 255 * 950 := by decide
    rw [hs, if_neg (by decide)]
    have h1 : ((-998 : Int).tdiv (255 * 950)).natAbs = 0 := by decide
    have h2 : (-998 : Int).tmod (255 * 950) = -998 := by decide
    rw [h1, h2]
    have := in_neg (d := 998) (by decide) a
    exact congrArg some (congrArg (· ∪ collision plate 500 l) this)
  simp only [Option.bind_eq_bind, Option.bind_some, e2] at h
  obtain ⟨t, ht, h⟩ := Option.bind_eq_some_iff.1 h
  obtain rfl := Option.some.inj h
  have hs : p ∉ {p | Disk ((998 : Int) : ℚ) p ⊆ a} ∪ collision plate 500 l := by
    rintro (h | h)
    · exact ha (h (disk_self p))
    · exact hc h
  have hpt : p ∉ t := by
    rcases hk with rfl | rfl
    · cases tm
      · obtain rfl := Option.some.inj ht
        exact hs
      · change (placeable plate 500 l).map _ = _ at ht
        obtain ⟨q, _, rfl⟩ := Option.map_eq_some_iff.1 ht
        exact fun h => hs h.1
    · obtain rfl := Option.some.inj ht
      rintro (h | h)
      · exact hs h.1
      · exact hc h
  rintro (h | h)
  · exact hpt h
  · exact hpt h

theorem left_tower {kind : Kind} (hk : kind = .fast ∨ kind = .collision) {tm : Bool} {l : Nat} {a : Region}
    (h : tower plate kind tm 500 l = some a) : left ∉ a := by
  induction l generalizing a with
  | zero =>
    unfold tower at h
    rw [collision_500] at h
    exact Option.some.inj h ▸ left_collision 0
  | succ l ih =>
    unfold tower at h
    split at h
    · rw [collision_500] at h
      exact Option.some.inj h ▸ left_collision _
    · obtain ⟨b, hb, h⟩ := Option.bind_eq_some_iff.1 h
      exact step_sub hk h (ih hb) (left_collision _)

/-- What was requested before: two other areas. -/
def before : List Request := [⟨700, 3, .slow, true, false⟩, ⟨500, 2, .fast, false, true⟩]

theorem before_some : ∃ m, After plate before m := by
  obtain ⟨a, m, h⟩ := C109_answered plate_ok (by decide) (by decide) (by decide) (by decide) After.start ⟨700, 3, .slow, true, false⟩
  obtain ⟨a', m', h'⟩ := C109_answered plate_ok (by decide) (by decide) (by decide) (by decide) (After.start.request h) ⟨500, 2, .fast, false, true⟩
  exact ⟨m', (After.start.request h).request h'⟩

theorem left_out {kind : Kind} (hk : kind = .fast ∨ kind = .collision) {tm : Bool} {l : Nat} {m : Cache} (hm : After plate before m) :
    ∃ a m', getAvoidance plate m 500 l kind tm true = some (a, m') ∧ left ∉ a := by
  obtain ⟨a, m', h⟩ := C109_answered plate_ok (by decide) (by decide) (by decide) (by decide) hm ⟨500, l, kind, tm, true⟩
  refine ⟨a, m', h, ?_⟩
  have := (get_inv plate_ok (after_inv plate_ok hm) h).2
  unfold answer at this
  split at this
  · rename_i h0
    change l = 0 at h0
    subst h0
    change getCollision plate 500 0 true = some a at this
    rw [collision_500] at this
    exact Option.some.inj this ▸ left_collision 0
  · have e : ceilRadius plate (500 + if true = true then 0 else plate.delta) = some 500 := by decide +kernel
    change (ceilRadius plate (500 + if true = true then 0 else plate.delta)).bind _ = _ at this
    rw [e] at this
    have ek : kindFor plate kind 500 = kind := by rcases hk with rfl | rfl <;> decide
    change tower plate (kindFor plate kind 500) tm 500 l = some a at this
    rw [ek] at this
    exact left_tower hk this

/-- Left of the column there is a way down from the tenth layer. -/
example : ∃ m a m', After plate before m ∧ getAvoidance plate m 500 10 .fast false true = some (a, m') ∧ left ∉ a ∧
    WayDown 1000 (Clear plate (2 * 0) (500 + 0)) 10 left := by
  obtain ⟨m, hm⟩ := before_some
  obtain ⟨a, m', h, hp⟩ := left_out (.inl rfl) (tm := false) (l := 10) hm
  refine ⟨m, a, m', hm, h, hp, ?_⟩
  exact C109_way_down exact_ok plate_ok hm (q := ⟨500, 10, .fast, false, true⟩) (by decide) rfl h hp

/-- Outside of the collision area. -/
example : Clear plate 0 (500 + 0) 1 left := C109_collision exact_ok plate_ok (collision_500 1) (left_collision 1)

/-! ## On the column -/

theorem middle_disk : Disk ((1000 : Int) : ℚ) middle ⊆ placeable0 plate 3 := by
  intro q hq
  obtain ⟨h1, h2, h3, h4⟩ := Support.Cases.disk_le (by norm_num) hq
  unfold middle at h1 h2 h3 h4
  norm_num at h1 h2 h3 h4
  have out : ∀ l, 2 ≤ l → q ∉ base plate column 0 l := by
    intro l hl h
    change q ∈ exact.offset 400 (_ ∪ (if _ < _ then _ else _)) at h
    rw [out_pos (by norm_num), if_neg (by show ¬ l < 2; omega)] at h
    obtain ⟨z, hz | hz, hd⟩ := h
    · change (100000 : ℚ) < z.1 at hz
      unfold dist2 at hd
      norm_num at hd
      nlinarith [sq_nonneg (q.2 - z.2)]
    · exact hz
  refine ⟨column, List.mem_singleton.2 rfl, ⟨Or.inr ⟨1, le_rfl, le_rfl, by norm_num, ?_⟩, ?_⟩⟩
  · show q ∈ exact.offset 400 _
    rw [out_pos (by norm_num), if_pos (by decide)]
    refine ⟨q, Or.inr ⟨?_, ?_, ?_, ?_⟩, by rw [Support.dist2_self]; norm_num⟩ <;> linarith
  · rintro ((h | ⟨k, hk, hk', _, h⟩) | h)
    · exact out _ (by norm_num) h
    · obtain rfl : k = 1 := le_antisymm hk' hk
      exact out _ (by norm_num) h
    · exact absurd h (by simp [plate])

theorem middle_placeable : ∃ b, placeable plate 500 3 = some b ∧ middle ∈ b := by
  have e : ceilRadius plate 500 = some 500 := by decide +kernel
  unfold placeable
  rw [e]
  refine ⟨_, rfl, ?_⟩
  have := in_neg (d := 1000) (by decide) (placeable0 plate 3)
  show middle ∈ exact.offset (-1000) (placeable0 plate 3)
  rw [this]
  exact middle_disk

/-- In the middle a branch stands on the column, with a layer between. -/
example : Stands plate (2 * 0) ((500 : Int) + (((400 : Int) : ℚ) + (100 : Int))) 3 middle := by
  obtain ⟨b, hb, hm⟩ := middle_placeable
  exact C109_stands exact_ok exact_tight plate_ok (by simp [plate, column]) (by decide) (by decide) hb hm

theorem middle_collision : middle ∉ collision plate 500 3 := by
  have out : ∀ l, 2 ≤ l → middle ∉ base plate column 500 l := by
    intro l hl h
    change middle ∈ exact.offset 900 (_ ∪ (if _ < _ then _ else _)) at h
    rw [out_pos (by norm_num), if_neg (by show ¬ l < 2; omega)] at h
    obtain ⟨z, hz | hz, hd⟩ := h
    · change (100000 : ℚ) < z.1 at hz
      unfold dist2 middle at hd
      norm_num at hd
      nlinarith [sq_nonneg (5000 - z.2)]
    · exact hz
  rintro ⟨g, hg, h⟩
  obtain rfl := List.mem_singleton.1 hg
  rcases h with ((h | ⟨k, hk, hk', _, h⟩) | ⟨k, _, _, h3, h⟩) | h
  · exact out 3 (by norm_num) h
  · obtain rfl : k = 1 := le_antisymm hk' hk
    exact out 2 (by norm_num) h
  · have : 3 + k < 2 := lt_of_lt_of_le h3 (min_le_left _ _)
    omega
  · exact absurd h (by simp [blocked, plate])

/-- From above the column a branch can go down to it. -/
example : ∃ m a m', After plate before m ∧ getAvoidance plate m 500 3 .fast true true = some (a, m') ∧ middle ∉ a ∧
    WayToRest 1000 (Clear plate (2 * 0) (500 + 0))
      (fun i x => ∃ b, placeable plate (500 + if true = true then 0 else plate.delta) i = some b ∧ x ∈ b) 3 middle := by
  obtain ⟨m, hm⟩ := before_some
  obtain ⟨a, m', h⟩ := C109_answered plate_ok (by decide) (by decide) (by decide) (by decide) hm ⟨500, 3, .fast, true, true⟩
  have hp : middle ∉ a := by
    have := (get_inv plate_ok (after_inv plate_ok hm) h).2
    have e : ceilRadius plate (500 + if true = true then 0 else plate.delta) = some 500 := by decide +kernel
    unfold answer at this
    rw [if_neg (by decide)] at this
    change (ceilRadius plate (500 + if true = true then 0 else plate.delta)).bind _ = _ at this
    rw [e] at this
    change tower plate .fast true 500 3 = some a at this
    unfold tower at this
    rw [if_neg (by decide)] at this
    obtain ⟨b, hb, h⟩ := Option.bind_eq_some_iff.1 this
    obtain ⟨q, hq, hmq⟩ := middle_placeable
    unfold avoidStep at h
    obtain ⟨col, hcol, h⟩ := Option.bind_eq_some_iff.1 h
    obtain ⟨s, hs, h⟩ := Option.bind_eq_some_iff.1 h
    obtain ⟨t, ht, h⟩ := Option.bind_eq_some_iff.1 h
    obtain rfl := Option.some.inj h
    change (placeable plate 500 3).map _ = _ at ht
    rw [hq] at ht
    obtain rfl := Option.some.inj ht
    rintro (h | h)
    · exact h.2 hmq
    · exact h.2 hmq
  refine ⟨m, a, m', hm, h, hp, ?_⟩
  exact C109_way_to_rest exact_ok plate_ok hm (q := ⟨500, 3, .fast, true, true⟩) (by decide) rfl h hp

/-- Left of the column there is a way down that keeps its distances even if it need not rest properly. -/
example : ∃ m a m', After plate before m ∧ getAvoidance plate m 500 10 .collision true true = some (a, m') ∧ left ∉ a ∧
    WayToRest 1000 (Clear plate (2 * 0) (500 + 0)) (fun i x => Clear plate (2 * 0) (500 + 0) i x ∧
      (i ≤ 0 ∨ ∃ r : Int, (500 + 0 : ℚ) ≤ r ∧ x ∈ exact.round (-max r 1000) ∅)) 10 left := by
  obtain ⟨m, hm⟩ := before_some
  obtain ⟨a, m', h, hp⟩ := left_out (.inr rfl) (tm := true) (l := 10) hm
  refine ⟨m, a, m', hm, h, hp, ?_⟩
  exact C109_way_to_free exact_ok plate_ok hm (q := ⟨500, 10, .collision, true, true⟩) rfl h hp

/-- The same area without the requests before. -/
example : ∃ m a m' n', After plate before m ∧ getAvoidance plate m 500 10 .fast false true = some (a, m') ∧
    getAvoidance plate [] 500 10 .fast false true = some (a, n') := by
  obtain ⟨m, hm⟩ := before_some
  obtain ⟨a, m', h, _⟩ := left_out (.inl rfl) (tm := false) (l := 10) hm
  obtain ⟨n', hn⟩ := C109_history plate_ok hm After.start ⟨500, 10, .fast, false, true⟩ h
  exact ⟨m, a, m', n', hm, h, hn⟩

example : collisionRun plate 500 4 9 7 = collisionRun plate 500 (-1) 7 7 := C109_collision_history plate 500 (by decide) (by decide)

example : ceilRadius plate 600 = some 1000 ∧ ceilRadius plate 2100 = some 2250 ∧ ceilRadius { plate with ignorable := [2250] } 2100 = some 3375 := by
  decide +kernel

/-! ## What does not hold in general -/

/-- A plate of one layer. -/
def flat : Group := ⟨400, 1, 1, 1, fun _ => square⟩

/-- C109: a layer is to be kept free above the models, but the layer above the first layer is not. -/
theorem C109_first_layer_counterexample : ∃ (c : Config) (a : Region), c.ops.Ok 0 ∧ c.Ok ∧ flat ∈ c.groups ∧ flat.bottom = 1 ∧
    getCollision c 500 1 true = some a ∧ middle ∉ a ∧ middle ∈ flat.outline 0 := by
  refine ⟨{ plate with groups := [flat] }, collision { plate with groups := [flat] } 500 1, exact_ok, ⟨by decide, by decide, by decide⟩,
    List.mem_singleton.2 rfl, rfl, ?_, ?_, by constructor <;> norm_num [middle]⟩
  · have : ceilRadius { plate with groups := [flat] } (500 + if true = true then 0 else plate.delta) = some 500 := by decide +kernel
    unfold getCollision
    rw [if_neg (by decide)]
    change (ceilRadius { plate with groups := [flat] } (500 + if true = true then 0 else plate.delta)).map _ = _
    rw [this]
    rfl
  · rintro ⟨g, hg, h⟩
    obtain rfl := List.mem_singleton.1 hg
    rcases h with ((h | ⟨k, hk, hk', hl, h⟩) | ⟨k, _, _, h3, h⟩) | h
    · change middle ∈ exact.offset 900 (_ ∪ (if _ < _ then _ else _)) at h
      rw [out_pos (by norm_num), if_neg (by decide)] at h
      obtain ⟨z, hz | hz, hd⟩ := h
      · change (100000 : ℚ) < z.1 at hz
        unfold dist2 middle at hd
        norm_num at hd
        nlinarith [sq_nonneg (5000 - z.2)]
      · exact hz
    · have h0 : (0 : Int) ≤ max 0 (-1 - (flat.bottom : Int)) := le_max_left _ _
      omega
    · have : 1 + k < 1 := lt_of_lt_of_le h3 (min_le_left _ _)
      omega
    · exact absurd h (by simp [blocked, plate])

/-- C109: if branches may move no more than 2 µm per layer, a request is a division by zero. -/
theorem C109_still_counterexample : ∃ c : Config, c.ops.Ok 0 ∧ c.Ok ∧ 0 < c.move ∧ 0 < c.slow ∧ 0 < c.minStep ∧
    getAvoidance c [] 500 1 .fast false true = none := by
  refine ⟨{ plate with move := 2 }, exact_ok, ⟨by decide, by decide, by decide⟩, by decide, by decide, by decide, ?_⟩
  cases h : getAvoidance { plate with move := 2 } [] 500 1 .fast false true with
  | none => rfl
  | some x =>
    obtain ⟨a, m'⟩ := x
    have hc : Config.Ok { plate with move := 2 } := ⟨by decide, by decide, by decide⟩
    have := (get_inv hc (after_inv hc After.start) (q := ⟨500, 1, .fast, false, true⟩) h).2
    unfold answer at this
    rw [if_neg (by decide)] at this
    obtain ⟨r, _, this⟩ := Option.bind_eq_some_iff.1 this
    have ek : kindFor { plate with move := 2 } .fast r = .fast := by unfold kindFor; rw [if_neg (by simp)]
    change tower _ (kindFor { plate with move := 2 } .fast r) false r 1 = some a at this
    rw [ek] at this
    unfold tower at this
    rw [if_neg (by decide)] at this
    obtain ⟨b, _, this⟩ := Option.bind_eq_some_iff.1 this
    unfold avoidStep at this
    obtain ⟨col, _, this⟩ := Option.bind_eq_some_iff.1 this
    obtain ⟨s, hs, _⟩ := Option.bind_eq_some_iff.1 this
    have e : speed { plate with move := 2 } .fast = 0 := by decide
    rw [e] at hs
    unfold safeOffset at hs
    dsimp only at hs
    have e0 : sign (-0) % 256 = 0 := by decide
    rw [e0, if_pos (by simp)] at hs
    cases hs

/-- C109: if the tips are thicker than 3 mm, the calculation of the radius overflows. -/
theorem C109_radius_counterexample : ∃ c : Config, c.ops.Ok 0 ∧ c.Ok ∧ 2 < c.move ∧ 2 < c.slow ∧ 0 < c.minStep ∧ c.radius0 = 1501 ∧
    ceilRadius c 2000 = none :=
  ⟨{ plate with radius0 := 1501 }, exact_ok, ⟨by decide, by decide, by decide⟩, by decide, by decide, by decide, rfl, by decide +kernel⟩

end Verif.Tree.Cases
