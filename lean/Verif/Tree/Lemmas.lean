import Verif.Tree.Radius
import Verif.Support.Lemmas
import Mathlib.Tactic.Linarith

/-! # Lemmas about collision and avoidance areas -/

namespace Verif.Tree

open Verif.Volumes (Point Region)
open Verif.Support (dist2 Disk Near dist2_triangle dist2_comm dist2_nonneg near_self)

/-! ## Collision -/

/-- An area that is avoided on a layer, and the distance to keep from it. -/
inductive Source (c : Config) (l : Nat) : Region → Int → Prop
  | here (g : Group) : g ∈ c.groups → l < g.layers → Source c l (g.outline l) g.xy
  | border (g : Group) : g ∈ c.groups → Source c l c.border g.xy
  | below (g : Group) (k : Nat) : g ∈ c.groups → 1 ≤ k → k ≤ g.bottom → k < l → l - k < g.layers → Source c l (g.outline (l - k)) g.xy
  | above (g : Group) (k : Nat) : g ∈ c.groups → 1 ≤ k → k ≤ g.top → l + k < g.layers → Source c l (g.outline (l + k)) (required g.xy g.top k)
  | blocker (g : Group) : g ∈ c.groups → l < c.antiLayers → Source c l (c.anti l) 0

theorem clear_of_source {c : Config} {tol r : ℚ} {l : Nat} {p : Point} (h : ∀ S x, Source c l S x → Far (r + x - tol) S p) :
    Clear c tol r l p where
  here g hg hl := h _ _ (.here g hg hl)
  border g hg := h _ _ (.border g hg)
  below g hg k h1 h2 h3 h4 := h _ _ (.below g k hg h1 h2 h3 h4)
  above g hg k h1 h2 h3 := h _ _ (.above g k hg h1 h2 h3)
  blocker hl hn := by
    obtain ⟨g, hg⟩ := List.exists_mem_of_ne_nil _ hn
    have := h _ _ (.blocker g hg hl)
    simpa using this

theorem near_mono {d : ℚ} {a b : Region} (h : a ⊆ b) : Near d a ⊆ Near d b := fun _ ⟨q, hq, hd⟩ => ⟨q, h hq, hd⟩

theorem disk_near {dev d e : ℚ} {S : Region} {p q : Point} (hq : q ∈ S) (hdev : 0 ≤ dev) (hd : 0 ≤ d) (hpq : dist2 p q ≤ d ^ 2)
    (he : d + dev ≤ e) : Disk dev p ⊆ Near e S := by
  intro y hy
  refine ⟨q, hq, ?_⟩
  have h1 : dist2 y p ≤ dev ^ 2 := by rw [dist2_comm]; exact hy
  have := dist2_triangle hdev hd h1 hpq
  refine le_trans this ?_
  gcongr
  linarith

/-- A branch that comes too close to an area is in the collision area. -/
theorem source_mem {c : Config} {dev : ℚ} (ho : c.ops.Ok dev) {l : Nat} {S : Region} {x r : Int} (h : Source c l S x) {p q : Point} (hq : q ∈ S)
    {d : ℚ} (hd : 0 ≤ d) (hpq : dist2 p q ≤ d ^ 2) (hr : d + dev ≤ r + x) : p ∈ collision c r l := by
  have hn := ho.nonneg
  have h0 : 0 ≤ r + x := by
    have : (0 : ℚ) ≤ ((r + x : Int) : ℚ) := by push_cast; linarith
    exact_mod_cast this
  have hr' : d + dev ≤ ((r + x : Int) : ℚ) := by push_cast; exact hr
  have key : Disk dev p ⊆ c.ops.offset (r + x) S := (disk_near hq hn hd hpq hr').trans (ho.grow _ _ h0)
  have grow : ∀ T, S ⊆ T → Disk dev p ⊆ c.ops.offset (r + x) T := fun T hT =>
    ((disk_near hq hn hd hpq hr').trans (near_mono hT)).trans (ho.grow _ _ h0)
  unfold collision collisionRun
  cases h with
  | here g hg hl =>
    refine ⟨g, hg, ho.simplify _ _ fun y hy => ?_⟩
    left; left; left
    exact grow _ (by rw [if_pos hl]; exact Set.subset_union_right) hy
  | border g hg =>
    refine ⟨g, hg, ho.simplify _ _ fun y hy => ?_⟩
    left; left; left
    exact grow _ Set.subset_union_left hy
  | below g k hg h1 h2 h3 h4 =>
    refine ⟨g, hg, ho.simplify _ _ fun y hy => ?_⟩
    left; left; right
    refine ⟨k, h1, h2, by omega, ?_⟩
    exact grow _ (by rw [if_pos h4]; exact Set.subset_union_right) hy
  | above g k hg h1 h2 h3 =>
    refine ⟨g, hg, ho.simplify _ _ fun y hy => ?_⟩
    left; right
    exact ⟨k, h1, h2, by omega, key hy⟩
  | blocker g hg hl =>
    refine ⟨g, hg, ho.simplify _ _ fun y hy => ?_⟩
    right
    unfold blocked
    rw [if_pos hl]
    simpa using key hy

/-- A collision area does not depend on what was calculated before. -/
theorem collisionRun_eq (c : Config) (r : Int) {known : Int} {key l : Nat} (h2 : known < l) (h3 : l ≤ key) :
    collisionRun c r known key l = collision c r l := by
  unfold collision collisionRun
  have hb : ∀ g : Group, below c g r (max 0 (known - g.bottom)) l = below c g r (max 0 (-1 - g.bottom)) l := by
    intro g
    ext p
    unfold below
    constructor <;> rintro ⟨k, a, b, e, f⟩ <;> refine ⟨k, a, b, ?_, f⟩ <;> omega
  have ha : ∀ g : Group, above c g r (key + max 1 g.top) l = above c g r (l + max 1 g.top) l := by
    intro g
    ext p
    unfold above
    constructor <;> rintro ⟨k, a, b, e, f⟩ <;> refine ⟨k, a, b, ?_, f⟩ <;> omega
  simp only [hb, ha]

theorem getCollision_ceil {c : Config} {q : Int} {l : Nat} {a : Region} (hq : ceilRadius c q = some q) (h : getCollision c q l true = some a) :
    a = collision c q l := by
  unfold getCollision at h
  simp only [if_true, add_zero] at h
  split at h
  · exact (Option.some.inj h).symm
  · rw [hq] at h; exact (Option.some.inj h).symm

theorem ceil_fix_pos {c : Config} {q : Int} (h0 : 0 < c.radius0) (hq : ceilRadius c q = some q) (hne : q ≠ 0) : 0 < q := by
  have := ceil_nonneg h0 hq
  omega

theorem col_mem {c : Config} {dev : ℚ} (ho : c.ops.Ok dev) (hc : c.Ok) {kind : Kind} {q : Int} {l : Nat} {col : Region}
    (hq : ceilRadius c q = some q) (h : colFor c kind q l = some col) {S : Region} {x : Int} (hS : Source c l S x) {p y : Point} (hy : y ∈ S) {d : ℚ}
    (hd : 0 ≤ d) (hpy : dist2 p y ≤ d ^ 2) (hr : d + 2 * dev ≤ q + x) : p ∈ col := by
  have hn := ho.nonneg
  have plain : ∀ col, getCollision c q l true = some col → p ∈ col := by
    intro col h
    rw [getCollision_ceil hq h]
    exact source_mem ho hS hy hd hpy (by linarith)
  unfold colFor at h
  split at h
  · unfold holefree at h
    split at h
    · exact plain _ h
    · rename_i hlt
      obtain ⟨big, hbig, h⟩ := Option.bind_eq_some_iff.1 h
      obtain ⟨small, hsmall, h⟩ := Option.bind_eq_some_iff.1 h
      obtain ⟨a, ha, h⟩ := Option.bind_eq_some_iff.1 h
      rw [hq] at hsmall
      obtain rfl := Option.some.inj hsmall
      have ha' : a = collision c big l := by
        unfold getCollision at ha
        rw [if_neg (by have := hc.full; omega)] at ha
        simp only [Bool.false_eq_true, if_false] at ha
        rw [hbig] at ha
        exact (Option.some.inj ha).symm
      have hqb : q ≤ big := by
        rcases eq_or_ne q 0 with h0 | h0
        · have := ceil_nonneg hc.radius0 hbig; omega
        · exact ceil_mono hc.radius0 (ceil_fix_pos hc.radius0 hq h0) (by omega) hq hbig
      rw [← Option.some.inj h]
      refine ho.simplify _ _ fun p' hp' => ?_
      have hp2 : dist2 p' y ≤ (dev + d) ^ 2 := dist2_triangle hn hd (by rw [dist2_comm]; exact hp') hpy
      subst ha'
      rcases le_or_gt 5 (big - q) with h5 | h5
      · rw [show 5 - (big - q) = -(big - q - 5) by ring]
        refine ho.shrink _ _ _ (by omega) fun p'' hp'' => ?_
        have hb0 : (0 : ℚ) ≤ ((big - q - 5 : Int) : ℚ) + 2 := by
          have : (0 : ℚ) ≤ ((big - q - 5 : Int) : ℚ) := by exact_mod_cast (by omega : 0 ≤ big - q - 5)
          linarith
        have hp3 : dist2 p'' y ≤ (((big - q - 5 : Int) : ℚ) + 2 + (dev + d)) ^ 2 :=
          dist2_triangle hb0 (by linarith) (by rw [dist2_comm]; exact hp'') hp2
        refine source_mem ho hS hy (by linarith) hp3 ?_
        push_cast
        linarith
      · refine ho.round _ _ (by omega) (near_self _ _ ?_)
        refine source_mem ho hS hy (by linarith) hp2 ?_
        have : (q : ℚ) ≤ big := by exact_mod_cast hqb
        linarith
  · exact plain _ h

/-- Outside of the collision area a branch keeps its distances. -/
theorem col_clear {c : Config} {dev : ℚ} (ho : c.ops.Ok dev) (hc : c.Ok) {kind : Kind} {q : Int} {l : Nat} {col : Region}
    (hq : ceilRadius c q = some q) (h : colFor c kind q l = some col) {r : ℚ} (hr : r ≤ q) {p : Point} (hp : p ∉ col) :
    Clear c (2 * dev) r l p := by
  refine clear_of_source fun S x hS hd y hy => ?_
  by_contra hlt
  exact hp (col_mem ho hc hq h hS hy hd (not_lt.1 hlt) (by linarith))

theorem collision_clear {c : Config} {dev : ℚ} (ho : c.ops.Ok dev) {q : Int} {l : Nat} {r : ℚ} (hr : r ≤ q) {p : Point}
    (hp : p ∉ collision c q l) : Clear c dev r l p := by
  refine clear_of_source fun S x hS hd y hy => ?_
  by_contra hlt
  exact hp (source_mem ho hS hy hd (not_lt.1 hlt) (by linarith))

theorem clear_mono {c : Config} {s t : ℚ} (h : s ≤ t) {r : ℚ} {l : Nat} {p : Point} (hc : Clear c s r l p) : Clear c t r l p := by
  have far : ∀ x a, Far (x - s) a p → Far (x - t) a p := by
    intro x a hf hd q hq
    refine lt_of_le_of_lt ?_ (hf (by linarith) q hq)
    gcongr
  exact ⟨fun g hg hl => far _ _ (hc.here g hg hl), fun g hg => far _ _ (hc.border g hg),
    fun g hg k a b e f => far _ _ (hc.below g hg k a b e f), fun g hg k a b e => far _ _ (hc.above g hg k a b e),
    fun a b => far _ _ (hc.blocker a b)⟩

/-! ## Offsets in steps -/

theorem steps_sub {ops : Ops} {dev : ℚ} (ho : ops.Ok dev) {d : Int} (hd : 0 ≤ d) (col : Region) (n : Nat) (a : Region) :
    a ⊆ steps ops d col n a := by
  induction n generalizing a with
  | zero => exact subset_rfl
  | succ n ih => exact ((near_self _ _).trans (ho.round d a hd)).trans (Set.subset_union_left.trans (ih _))

/-- What is outside of an area that was offset inwards is outside of the collision area and near the outside of the area. -/
theorem safeOffset_out {c : Config} {dev : ℚ} (ho : c.ops.Ok dev) {a col s : Region} {m st : Int} (hm : 0 ≤ m)
    (h : safeOffset c a (-m) st col = some s) {p : Point} (hp : p ∉ s) : 0 < m ∧ p ∉ col ∧ ∃ y, y ∉ a ∧ dist2 p y ≤ (m + 2) ^ 2 := by
  unfold safeOffset at h
  dsimp only at h
  split at h
  · cases h
  rename_i hs
  have hm0 : 0 < m := by
    rcases hm.eq_or_lt with h0 | h0
    · subst h0; simp [sign] at hs
    · exact h0
  have hsg : sign (-m) % 256 = 255 := by
    unfold sign
    rw [if_neg (by omega), if_pos (by omega)]
    rfl
  rw [hsg] at h hs
  have hst : 0 < 255 * max c.minStep |st| := by
    have := le_max_right c.minStep |st|
    have := abs_nonneg st
    omega
  set t := 255 * max c.minStep |st| with ht
  have hmod : (-m).tmod t = -(m % t) := by rw [Int.neg_tmod, Int.tmod_eq_emod_of_nonneg hm]
  have h1 : 0 ≤ m % t := Int.emod_nonneg _ (by omega)
  have h2 : m % t ≤ m := by
    have h3 := Int.emod_add_mul_ediv m t
    have h4 : 0 ≤ t * (m / t) := mul_nonneg hst.le (Int.ediv_nonneg hm hst.le)
    omega
  rw [hmod] at h
  obtain rfl := Option.some.inj h
  have hp1 : p ∉ col := fun hc => hp (Or.inr hc)
  have hp2 : ¬ Disk ((m % t : Int) + 2) p ⊆ steps c.ops t col ((-m).tdiv t).natAbs a := fun hc => hp (Or.inl (ho.shrink _ _ _ h1 hc))
  obtain ⟨y, hy, hya⟩ := Set.not_subset.1 hp2
  refine ⟨hm0, hp1, y, fun hc => hya (steps_sub ho hst.le _ _ _ hc), ?_⟩
  refine le_trans hy ?_
  have e1 : (0 : ℚ) ≤ (m % t : Int) := by exact_mod_cast h1
  have e2 : ((m % t : Int) : ℚ) ≤ m := by exact_mod_cast h2
  gcongr

theorem speed_nonneg (c : Config) (kind : Kind) : 0 ≤ speed c kind := by unfold speed; split <;> exact le_max_right _ _

theorem speed_move {c : Config} {kind : Kind} (h : 0 < speed c kind) : ((speed c kind : Int) : ℚ) + 2 = moveOf c kind := by
  unfold speed at *
  unfold moveOf
  split at h
  · rename_i hk
    rw [if_pos hk, if_pos hk, max_eq_left (by omega)]; push_cast; ring
  · rename_i hk
    rw [if_neg hk, if_neg hk, max_eq_left (by omega)]; push_cast; ring

/-! ## The areas layer by layer -/

/-- The avoidance areas, without caches. -/
def tower (c : Config) (kind : Kind) (toModel : Bool) (r : Int) : Nat → Option Region
  | 0 => getCollision c r 0 true
  | l + 1 => if kind = .collision ∧ l + 1 ≤ c.free then getCollision c r (l + 1) true
    else (tower c kind toModel r l).bind fun a => avoidStep c kind toModel r (l + 1) a

theorem avoidStep_out {c : Config} {dev : ℚ} (ho : c.ops.Ok dev) {kind : Kind} {toModel : Bool} {r : Int} {l : Nat} {a b : Region}
    (h : avoidStep c kind toModel r l a = some b) {p : Point} (hp : p ∉ b) :
    ∃ col, colFor c kind r l = some col ∧
      ((p ∉ col ∧ ∃ y, y ∉ a ∧ dist2 p y ≤ moveOf c kind ^ 2) ∨
        kind ≠ .collision ∧ toModel = true ∧ (∃ q, placeable c r l = some q ∧ p ∈ q) ∨
        kind = .collision ∧ p ∉ col ∧ p ∈ c.ops.round (-max r c.full) (c.placed l)) := by
  unfold avoidStep at h
  obtain ⟨col, hcol, h⟩ := Option.bind_eq_some_iff.1 h
  obtain ⟨s, hs, h⟩ := Option.bind_eq_some_iff.1 h
  obtain ⟨t, ht, h⟩ := Option.bind_eq_some_iff.1 h
  obtain rfl := Option.some.inj h
  have hpt : p ∉ t := fun hc => hp (Or.inr hc)
  refine ⟨col, hcol, ?_⟩
  have out : p ∉ s → p ∉ col ∧ ∃ y, y ∉ a ∧ dist2 p y ≤ moveOf c kind ^ 2 := by
    intro hps
    obtain ⟨h0, h1, y, h2, h3⟩ := safeOffset_out ho (speed_nonneg c kind) hs hps
    rw [speed_move h0] at h3
    exact ⟨h1, y, h2, h3⟩
  by_cases hk : kind = .collision
  · subst hk
    obtain rfl := Option.some.inj ht
    by_cases hps : p ∈ s
    · right; right
      refine ⟨rfl, fun hc => hpt (Or.inr hc), ?_⟩
      by_contra hr
      exact hpt (Or.inl ⟨hps, hr⟩)
    · exact Or.inl (out hps)
  · cases toModel with
    | false =>
      have : t = s := by cases kind <;> first | exact absurd rfl hk | exact (Option.some.inj ht).symm
      subst this
      exact Or.inl (out hpt)
    | true =>
      have : (placeable c r l).map (fun q => s \ q) = some t := by cases kind <;> first | exact absurd rfl hk | exact ht
      obtain ⟨q, hq, rfl⟩ := Option.map_eq_some_iff.1 this
      by_cases hps : p ∈ s
      · right; left
        refine ⟨hk, rfl, q, hq, ?_⟩
        by_contra hr
        exact hpt ⟨hps, hr⟩
      · exact Or.inl (out hps)

theorem wayDown_zero {move : ℚ} {ok : Nat → Point → Prop} {p : Point} (h : ok 0 p) : WayDown move ok 0 p :=
  ⟨fun _ => p, rfl, fun i hi => by obtain rfl : i = 0 := by omega
                                   exact h, fun i hi => by omega⟩

theorem wayDown_succ {move : ℚ} {ok : Nat → Point → Prop} {l : Nat} {p y : Point} (h : ok (l + 1) p) (hd : dist2 p y ≤ move ^ 2)
    (hy : WayDown move ok l y) : WayDown move ok (l + 1) p := by
  obtain ⟨way, h1, h2, h3⟩ := hy
  refine ⟨fun i => if i = l + 1 then p else way i, by simp, fun i hi => ?_, fun i hi => ?_⟩
  · by_cases he : i = l + 1
    · simp [he, h]
    · simp only [he, if_false]; exact h2 i (by omega)
  · have hne : i ≠ l + 1 := by omega
    by_cases he : i = l
    · subst he; simp only [if_true, hne, if_false, h1]; exact hd
    · show dist2 (if i + 1 = l + 1 then p else way (i + 1)) (if i = l + 1 then p else way i) ≤ _
      rw [if_neg (by omega), if_neg hne]; exact h3 i (by omega)

theorem wayToRest_zero {move : ℚ} {ok rest : Nat → Point → Prop} {p : Point} (h : ok 0 p) : WayToRest move ok rest 0 p :=
  ⟨0, fun _ => p, le_refl _, rfl, fun i h1 h2 => by omega, Or.inl ⟨rfl, h⟩, fun i h1 h2 => by omega⟩

theorem wayToRest_rest {move : ℚ} {ok rest : Nat → Point → Prop} {l : Nat} {p : Point} (hl : 0 < l) (h : rest l p) :
    WayToRest move ok rest l p :=
  ⟨l, fun _ => p, le_refl _, rfl, fun i h1 h2 => by omega, Or.inr ⟨hl, h⟩, fun i h1 h2 => by omega⟩

theorem wayToRest_succ {move : ℚ} {ok rest : Nat → Point → Prop} {l : Nat} {p y : Point} (h : ok (l + 1) p) (hd : dist2 p y ≤ move ^ 2)
    (hy : WayToRest move ok rest l y) : WayToRest move ok rest (l + 1) p := by
  obtain ⟨e, way, h0, h1, h2, h3, h4⟩ := hy
  refine ⟨e, fun i => if i = l + 1 then p else way i, by omega, by simp, fun i hi hil => ?_, ?_, fun i hi hil => ?_⟩
  · by_cases he : i = l + 1
    · simp [he, h]
    · simp only [he, if_false]; exact h2 i hi (by omega)
  · rcases h3 with ⟨e0, hok⟩ | ⟨e0, hrest⟩
    · left; refine ⟨e0, ?_⟩; simpa using hok
    · right; refine ⟨e0, ?_⟩; show rest e (if e = l + 1 then p else way e); rw [if_neg (by omega)]; exact hrest
  · have hne : i ≠ l + 1 := by omega
    by_cases he : i = l
    · subst he; simp only [if_true, hne, if_false, h1]; exact hd
    · show dist2 (if i + 1 = l + 1 then p else way (i + 1)) (if i = l + 1 then p else way i) ≤ _
      rw [if_neg (by omega), if_neg hne]; exact h4 i hi (by omega)

theorem getCollision_clear {c : Config} {dev : ℚ} (ho : c.ops.Ok dev) {q : Int} {l : Nat} {a : Region}
    (hq : ceilRadius c q = some q) (h : getCollision c q l true = some a) {r : ℚ} (hr : r ≤ q) {p : Point} (hp : p ∉ a) :
    Clear c (2 * dev) r l p := by
  rw [getCollision_ceil hq h] at hp
  exact clear_mono (by have := ho.nonneg; linarith) (collision_clear ho hr hp)

/-- Outside of the avoidance area there is a way down. -/
theorem tower_wayDown {c : Config} {dev : ℚ} (ho : c.ops.Ok dev) (hc : c.Ok) {kind : Kind} (hk : kind ≠ .collision) {q : Int}
    (hq : ceilRadius c q = some q) {r : ℚ} (hr : r ≤ q) {l : Nat} {a : Region} (h : tower c kind false q l = some a) {p : Point} (hp : p ∉ a) :
    WayDown (moveOf c kind) (Clear c (2 * dev) r) l p := by
  induction l generalizing a p with
  | zero => exact wayDown_zero (getCollision_clear ho hq h hr hp)
  | succ l ih =>
    unfold tower at h
    rw [if_neg (fun hh => hk hh.1)] at h
    obtain ⟨b, hb, h⟩ := Option.bind_eq_some_iff.1 h
    obtain ⟨col, hcol, h1 | h1 | h1⟩ := avoidStep_out ho h hp
    · obtain ⟨h1, y, hy, hd⟩ := h1
      exact wayDown_succ (col_clear ho hc hq hcol hr h1) hd (ih hb hy)
    · exact absurd h1.2.1 (by decide)
    · exact absurd h1.1 hk

/-- Outside of the avoidance area to the model there is a way down to a place to rest. -/
theorem tower_wayToRest {c : Config} {dev : ℚ} (ho : c.ops.Ok dev) (hc : c.Ok) {kind : Kind} (hk : kind ≠ .collision) {q : Int}
    (hq : ceilRadius c q = some q) {r : ℚ} (hr : r ≤ q) {l : Nat} {a : Region} (h : tower c kind true q l = some a) {p : Point} (hp : p ∉ a) :
    WayToRest (moveOf c kind) (Clear c (2 * dev) r) (fun i x => ∃ b, placeable c q i = some b ∧ x ∈ b) l p := by
  induction l generalizing a p with
  | zero => exact wayToRest_zero (getCollision_clear ho hq h hr hp)
  | succ l ih =>
    unfold tower at h
    rw [if_neg (fun hh => hk hh.1)] at h
    obtain ⟨b, hb, h⟩ := Option.bind_eq_some_iff.1 h
    obtain ⟨col, hcol, h1 | h1 | h1⟩ := avoidStep_out ho h hp
    · obtain ⟨h1, y, hy, hd⟩ := h1
      exact wayToRest_succ (col_clear ho hc hq hcol hr h1) hd (ih hb hy)
    · exact wayToRest_rest (by omega) h1.2.2
    · exact absurd h1.1 hk

/-- Outside of the avoidance area for branches that need not rest properly, there is a way down to where no support blocker is below. -/
theorem tower_wayToFree {c : Config} {dev : ℚ} (ho : c.ops.Ok dev) (hc : c.Ok) {toModel : Bool} {q : Int}
    (hq : ceilRadius c q = some q) {r : ℚ} (hr : r ≤ q) {l : Nat} {a : Region} (h : tower c .collision toModel q l = some a) {p : Point}
    (hp : p ∉ a) :
    WayToRest c.move (Clear c (2 * dev) r)
      (fun i x => Clear c (2 * dev) r i x ∧ (i ≤ c.free ∨ x ∈ c.ops.round (-max q c.full) (c.placed i))) l p := by
  induction l generalizing a p with
  | zero => exact wayToRest_zero (getCollision_clear ho hq h hr hp)
  | succ l ih =>
    unfold tower at h
    split at h
    · rename_i hf
      exact wayToRest_rest (by omega) ⟨getCollision_clear ho hq h hr hp, Or.inl hf.2⟩
    obtain ⟨b, hb, h⟩ := Option.bind_eq_some_iff.1 h
    obtain ⟨col, hcol, h1 | h1 | h1⟩ := avoidStep_out ho h hp
    · obtain ⟨h1, y, hy, hd⟩ := h1
      exact wayToRest_succ (col_clear ho hc hq hcol hr h1) hd (ih hb hy)
    · exact absurd rfl h1.1
    · exact wayToRest_rest (by omega) ⟨col_clear ho hc hq hcol hr h1.2.1, Or.inr h1.2.2⟩

end Verif.Tree
