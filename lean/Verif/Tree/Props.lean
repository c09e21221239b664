import Verif.Tree.History

/-! # Tree support: where branches may be (C109) -/

namespace Verif.Tree

open Verif.Volumes (Point Region)
open Verif.Support (dist2 Disk Near)

theorem size_le {c : Config} (hc : c.Ok) {q : Request} {r : Int} (h : ceilRadius c (q.radius + if q.minXy then 0 else c.delta) = some r) :
    q.size c ≤ r := by
  have := ceil_ge hc.radius0 h
  have h' : ((q.radius + if q.minXy then 0 else c.delta : Int) : ℚ) ≤ r := by exact_mod_cast this
  unfold Request.size
  refine le_trans (le_of_eq ?_) h'
  cases q.minXy <;> simp

theorem moveOf_kindFor (c : Config) (k : Kind) (r : Int) : moveOf c (kindFor c k r) = moveOf c k := by
  unfold kindFor
  split
  · rename_i h; rw [h.2]; rfl
  · rfl

theorem kindFor_ne (c : Config) {k : Kind} (r : Int) (h : k ≠ .collision) : kindFor c k r ≠ .collision := by
  unfold kindFor
  split
  · decide
  · exact h

/-- C109. Outside of the collision area a branch keeps its distances from the models, the border and the support blockers. -/
theorem C109_collision {c : Config} {dev : ℚ} (ho : c.ops.Ok dev) (hc : c.Ok) {r : Int} {l : Nat} {minXy : Bool} {a : Region}
    (h : getCollision c r l minXy = some a) {p : Point} (hp : p ∉ a) : Clear c dev (r + if minXy then 0 else (c.delta : ℚ)) l p := by
  unfold getCollision at h
  dsimp only at h
  have e : ((r + if minXy then 0 else c.delta : Int) : ℚ) = r + if minXy then 0 else (c.delta : ℚ) := by cases minXy <;> simp
  split at h
  · obtain rfl := Option.some.inj h
    exact collision_clear ho (le_of_eq e.symm) hp
  · obtain ⟨q, hq, rfl⟩ := Option.map_eq_some_iff.1 h
    refine collision_clear ho ?_ hp
    rw [← e]
    exact_mod_cast ceil_ge hc.radius0 hq

/-- C109. From every point outside of an avoidance area there is a way down to the build plate, on which the branch keeps its distances and moves no
further per layer than it is allowed to, whatever was requested before. -/
theorem C109_way_down {c : Config} {dev : ℚ} (ho : c.ops.Ok dev) (hc : c.Ok) {qs : List Request} {m m' : Cache} (hm : After c qs m) {q : Request}
    (hk : q.kind ≠ .collision) (ht : q.toModel = false) {a : Region}
    (h : getAvoidance c m q.radius q.layer q.kind q.toModel q.minXy = some (a, m')) {p : Point} (hp : p ∉ a) :
    WayDown (moveOf c q.kind) (Clear c (2 * dev) (q.size c)) q.layer p := by
  have ha := (get_inv hc (after_inv hc hm) h).2
  unfold answer at ha
  split at ha
  · rename_i h0
    rw [h0]
    refine wayDown_zero (clear_mono (by have := ho.nonneg; linarith) (C109_collision ho hc ha hp))
  · obtain ⟨r, hr, ha⟩ := Option.bind_eq_some_iff.1 ha
    rw [ht] at ha
    rw [← moveOf_kindFor c q.kind r]
    exact tower_wayDown ho hc (kindFor_ne c r hk) (ceil_idem hc.radius0 hr) (size_le hc hr) ha hp

theorem placeable_ceil {c : Config} (hc : c.Ok) {r q : Int} (h : ceilRadius c r = some q) (l : Nat) : placeable c q l = placeable c r l := by
  unfold placeable
  rw [h, ceil_idem hc.radius0 h]

/-- C109. From every point outside of an avoidance area to the model there is a way down to the build plate or to an area on which the branch is
allowed to rest. -/
theorem C109_way_to_rest {c : Config} {dev : ℚ} (ho : c.ops.Ok dev) (hc : c.Ok) {qs : List Request} {m m' : Cache} (hm : After c qs m) {q : Request}
    (hk : q.kind ≠ .collision) (ht : q.toModel = true) {a : Region}
    (h : getAvoidance c m q.radius q.layer q.kind q.toModel q.minXy = some (a, m')) {p : Point} (hp : p ∉ a) :
    WayToRest (moveOf c q.kind) (Clear c (2 * dev) (q.size c))
      (fun i x => ∃ b, placeable c (q.radius + if q.minXy then 0 else c.delta) i = some b ∧ x ∈ b) q.layer p := by
  have ha := (get_inv hc (after_inv hc hm) h).2
  unfold answer at ha
  split at ha
  · rename_i h0
    rw [h0]
    refine wayToRest_zero (clear_mono (by have := ho.nonneg; linarith) (C109_collision ho hc ha hp))
  · obtain ⟨r, hr, ha⟩ := Option.bind_eq_some_iff.1 ha
    rw [ht] at ha
    rw [← moveOf_kindFor c q.kind r]
    have := tower_wayToRest ho hc (kindFor_ne c r hk) (ceil_idem hc.radius0 hr) (size_le hc hr) ha hp
    simp only [placeable_ceil hc hr] at this
    exact this

/-- C109. From every point outside of the avoidance area for branches that need not rest properly there is a way down to a layer without support
blockers below it, or to an accumulated place to rest. -/
theorem C109_way_to_free {c : Config} {dev : ℚ} (ho : c.ops.Ok dev) (hc : c.Ok) {qs : List Request} {m m' : Cache} (hm : After c qs m) {q : Request}
    (hk : q.kind = .collision) {a : Region} (h : getAvoidance c m q.radius q.layer q.kind q.toModel q.minXy = some (a, m')) {p : Point}
    (hp : p ∉ a) :
    WayToRest c.move (Clear c (2 * dev) (q.size c))
      (fun i x => Clear c (2 * dev) (q.size c) i x ∧ (i ≤ c.free ∨ ∃ r : Int, q.size c ≤ r ∧ x ∈ c.ops.round (-max r c.full) (c.placed i))) q.layer p := by
  have ha := (get_inv hc (after_inv hc hm) h).2
  unfold answer at ha
  split at ha
  · rename_i h0
    rw [h0]
    refine wayToRest_zero (clear_mono (by have := ho.nonneg; linarith) (C109_collision ho hc ha hp))
  · obtain ⟨r, hr, ha⟩ := Option.bind_eq_some_iff.1 ha
    have hkf : kindFor c q.kind r = .collision := by rw [hk]; unfold kindFor; simp
    rw [hkf] at ha
    obtain ⟨e, way, h1, h2, h3, h4, h5⟩ := tower_wayToFree ho hc (ceil_idem hc.radius0 hr) (size_le hc hr) ha hp
    refine ⟨e, way, h1, h2, h3, h4.imp_right fun h => ⟨h.1, h.2.1, h.2.2.imp_right fun hx => ⟨r, size_le hc hr, hx⟩⟩, h5⟩

theorem base_near {c : Config} {dev : ℚ} (hx : c.ops.Tight dev) {g : Group} (hg : 0 ≤ g.xy) {l : Nat} {w : Point} (h : w ∈ base c g 0 l) :
    w ∈ Near (2 * g.xy) (c.border ∪ g.outline l) := by
  unfold base at h
  obtain ⟨z, hz, hd⟩ := hx.grown _ _ (by omega) h
  refine ⟨z, ?_, by simpa using hd⟩
  rcases hz with hz | hz
  · exact Or.inl hz
  · split at hz
    · exact Or.inr hz
    · exact absurd hz (by simp)

/-- C109. Where a branch is allowed to rest on the model, the model is under all of it. -/
theorem C109_stands {c : Config} {dev : ℚ} (ho : c.ops.Ok dev) (hx : c.ops.Tight dev) (hc : c.Ok) (hxy : ∀ g ∈ c.groups, 0 ≤ g.xy)
    (hmin : 0 ≤ c.minXy) {r : Int} (hr : 0 < r) {l : Nat} {b : Region} (h : placeable c r (l + 1) = some b) {p : Point} (hp : p ∈ b) :
    Stands c (2 * dev) (r + (c.minXy + c.delta)) (l + 1) p := by
  unfold placeable at h
  obtain ⟨q, hq, h⟩ := Option.bind_eq_some_iff.1 h
  have hge := ceil_ge hc.radius0 hq
  have hd := hc.delta
  have hn := ho.nonneg
  rw [if_neg (by omega)] at h
  obtain rfl := Option.some.inj h
  intro y hy
  have hy1 : y ∈ c.ops.simplify (placeable0 c (l + 1)) := by
    refine hx.shrunk _ _ _ (by omega) hp ?_
    change dist2 p y ≤ _ at hy
    refine le_trans hy ?_
    have h1 : (r : ℚ) ≤ q := by exact_mod_cast hge
    have h2 : (0 : ℚ) ≤ r := by exact_mod_cast hr.le
    have h3 : (0 : ℚ) ≤ c.minXy := by exact_mod_cast hmin
    have h4 : (0 : ℚ) ≤ c.delta := by exact_mod_cast hd
    push_cast
    gcongr
  obtain ⟨v, ⟨g, hg, hv⟩, hyv⟩ := hx.simplified _ hy1
  obtain ⟨w, ⟨hw, hwn⟩, hvw⟩ := hx.simplified _ hv
  have hyw := Support.dist2_triangle hn hn hyv hvw
  refine ⟨w, by rw [two_mul]; exact hyw, g, hg, ?_, fun hl hc' => hwn ?_⟩
  · rcases hw with hw | ⟨k, h1, h2, h3, hw⟩
    · exact ⟨0, Nat.zero_le _, Nat.succ_pos _, by simpa using base_near hx (hxy g hg) hw⟩
    · exact ⟨k, h2, by omega, by simpa using base_near hx (hxy g hg) hw⟩
  · left; left
    unfold base
    rw [if_pos hl]
    refine ho.grow _ _ (by have := hxy g hg; omega) ?_
    simp only [zero_add]
    exact near_mono Set.subset_union_right hc'

/-- C109. An avoidance area does not depend on what was requested before. -/
theorem C109_history {c : Config} (hc : c.Ok) {qs qs' : List Request} {m m' n : Cache} (hm : After c qs m) (hn : After c qs' n) (q : Request)
    {a : Region} (h : getAvoidance c m q.radius q.layer q.kind q.toModel q.minXy = some (a, m')) :
    ∃ n', getAvoidance c n q.radius q.layer q.kind q.toModel q.minXy = some (a, n') :=
  get_some hc (after_inv hc hn) (get_inv hc (after_inv hc hm) h).2

/-- C109. The collision areas that are added to the cache are the same whatever layers are in the cache already. -/
theorem C109_collision_history (c : Config) (r : Int) {known : Int} {key l : Nat} (h : known < l) (hk : l ≤ key) :
    collisionRun c r known key l = collisionRun c r (-1) l l := collisionRun_eq c r h hk

/-- C109. The radius for which areas are calculated is at least the radius of the branch; it is one of the radii for which areas are kept, and it
grows with the radius of the branch. -/
theorem C109_radius {c : Config} (hc : c.Ok) {r q : Int} (h : ceilRadius c r = some q) :
    r ≤ q ∧ ceilRadius c q = some q ∧ ∀ s t, 0 < r → r ≤ s → ceilRadius c s = some t → q ≤ t :=
  ⟨ceil_ge hc.radius0 h, ceil_idem hc.radius0 h, fun _ _ hr hs ht => ceil_mono hc.radius0 hr hs h ht⟩

theorem getCollision_some {c : Config} (hc : c.Ok) (h : c.radius0 ≤ 1500) (r : Int) (l : Nat) (mn : Bool) : ∃ a, getCollision c r l mn = some a := by
  unfold getCollision
  dsimp only
  split
  · exact ⟨_, rfl⟩
  · obtain ⟨q, hq⟩ := ceil_some (r + if mn = true then 0 else c.delta) hc.radius0 h
    rw [hq]
    exact ⟨_, rfl⟩

theorem avoidStep_some {c : Config} (hc : c.Ok) (h : c.radius0 ≤ 1500) (hm : 2 < c.move) (hs : 2 < c.slow) (hst : 0 < c.minStep) (kind : Kind)
    (tm : Bool) (r : Int) (l : Nat) (a : Region) : ∃ b, avoidStep c kind tm r l a = some b := by
  have hcol : ∃ col, colFor c kind r l = some col := by
    unfold colFor
    split
    · unfold holefree
      split
      · exact getCollision_some hc h _ _ _
      · obtain ⟨big, hbig⟩ := ceil_some (c.full + c.delta) hc.radius0 h
        obtain ⟨small, hsmall⟩ := ceil_some r hc.radius0 h
        obtain ⟨col, hcol⟩ := getCollision_some hc h c.full l false
        rw [hbig, hsmall, hcol]
        exact ⟨_, rfl⟩
    · exact getCollision_some hc h _ _ _
  obtain ⟨col, hcol⟩ := hcol
  have hoff : ∃ s, safeOffset c a (-speed c kind) (-maxStep c r) col = some s := by
    have hsp : 0 < speed c kind := by unfold speed; split <;> omega
    unfold safeOffset
    dsimp only
    have hsg : sign (-speed c kind) % 256 = 255 := by
      unfold sign
      rw [if_neg (by omega), if_pos (by omega)]
      rfl
    rw [hsg, if_neg (by omega)]
    exact ⟨_, rfl⟩
  obtain ⟨s, hs⟩ := hoff
  have hrest : ∃ t, removeRest c kind tm r l col s = some t := by
    obtain ⟨q, hq⟩ := ceil_some r hc.radius0 h
    have hp : ∃ b, placeable c r l = some b := by
      unfold placeable
      rw [hq]
      simp only [Option.bind_eq_bind, Option.bind_some]
      split <;> exact ⟨_, rfl⟩
    obtain ⟨b, hb⟩ := hp
    unfold removeRest
    split
    · exact ⟨_, rfl⟩
    · rw [hb]; exact ⟨_, rfl⟩
    · exact ⟨_, rfl⟩
  obtain ⟨t, ht⟩ := hrest
  unfold avoidStep
  rw [hcol]
  simp only [Option.bind_eq_bind, Option.bind_some, hs, ht]
  exact ⟨_, rfl⟩

/-- C109. Every request is answered, if the tips of the branches are not too thick and branches may move. -/
theorem C109_answered {c : Config} (hc : c.Ok) (h : c.radius0 ≤ 1500) (hm : 2 < c.move) (hs : 2 < c.slow) (hst : 0 < c.minStep) {qs : List Request}
    {m : Cache} (ha : After c qs m) (q : Request) : ∃ a m', getAvoidance c m q.radius q.layer q.kind q.toModel q.minXy = some (a, m') := by
  have : ∃ a, answer c q = some a := by
    unfold answer
    split
    · exact getCollision_some hc h _ _ _
    · obtain ⟨r, hr⟩ := ceil_some (q.radius + if q.minXy then 0 else c.delta) hc.radius0 h
      rw [hr]
      simp only [Option.bind_some]
      generalize q.layer = l
      induction l with
      | zero => exact getCollision_some hc h _ _ _
      | succ l ih =>
        unfold tower
        split
        · exact getCollision_some hc h _ _ _
        · obtain ⟨b, hb⟩ := ih
          rw [hb]
          exact avoidStep_some hc h hm hs hst _ _ _ _ _
  obtain ⟨a, hq⟩ := this
  obtain ⟨m', hm'⟩ := get_some hc (after_inv hc ha) hq
  exact ⟨a, m', hm'⟩

end Verif.Tree
