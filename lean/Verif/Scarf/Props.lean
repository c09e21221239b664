import Verif.Scarf.SumLemmas

/-! # Properties of following a wall -/

namespace Verif.Scarf

open Verif.Order (Pt)
open Verif.Walls (Junction size)

theorem covers_nil {a b : Junction} (h : a.p = b.p) (e : ℚ) : Covers a b e [] :=
  ⟨fun h' => absurd h h', fun _ => rfl, by simp, .nil, by simp, by simp, by simp, by simp, by simp, by simp⟩

theorem pass_spec {c : Cfg} (hc : Sane c) {js : List Junction} {start : Nat} (hs : start < js.length) (hsm : (c.small && !c.closure) = false)
    (hsc : c.closure = true → 0 < c.scarf) :
    ∃ (j : Junction) (parts : List (List Seg)) (st st' : St), js[start]? = some j ∧
      st = ⟨⟨j.p.x, j.p.y, if !c.closure && decide (0 < c.scarf) then c.drop else 0⟩, 0, 0, 0, true⟩ ∧
      pass c js start = some ((if !c.closure && decide (0 < steps c js) then [.travel j.p] else []) ++ parts.flatten.map .seg) ∧
      Trace c st parts.flatten st' ∧ Ok c st ∧ Ok c st' ∧ parts.length ≤ steps c js ∧ (st'.keep = true → parts.length = steps c js) ∧
      (∀ k part, parts[k]? = some part → ∃ a b e, visited c.reversed js start k = some a ∧ visited c.reversed js start (k + 1) = some b ∧
        Covers a b e part ∧ (c.reversed = false → ∀ s ∈ part, s.index = (start + k) % js.length) ∧
        (c.closure = false ∨ k + 1 < parts.length → |e - 1| ≤ 1 / (2 * c.resolution) ∧ (a.w = b.w → e = 1))) ∧
      st'.done ≤ ((List.range (steps c js)).map fun i => run c js start i).sum ∧
      (st'.keep = true → st'.done = ((List.range (steps c js)).map fun i => run c js start i).sum) := by
  have hstep : steps c js ≤ js.length := by unfold steps; split <;> omega
  let j := js[start]
  have hj : js[start]? = some j := List.getElem?_eq_getElem hs
  let st : St := ⟨⟨j.p.x, j.p.y, if !c.closure && decide (0 < c.scarf) then c.drop else 0⟩, 0, 0, 0, true⟩
  have hok : Ok c st := by
    unfold Ok
    split
    · rename_i h
      have := hsc h
      exact ⟨⟨fun _ => this, fun _ => rfl⟩, show (0 : Int) ≤ _ by omega⟩
    · rfl
  obtain ⟨parts, st', h1, h2, h3, h4, h5, h6, -, h7, h8⟩ := follow_spec hc hs hsm (steps c js) 1 (st := st) (le_refl _) hok
  refine ⟨j, parts, st, st', hj, rfl, ?_, h2, hok, h3, h4, h5, ?_, ?_, ?_⟩
  · unfold pass
    rw [hj]
    dsimp only [Option.bind_some]
    rw [h1]
    rfl
  · intro k part hp
    have hk : k < parts.length := by
      by_contra hn
      rw [List.getElem?_eq_none (by omega)] at hp
      simp at hp
    obtain ⟨a, b, e, g1, g2, g3, g4, g5, g6⟩ := (h6 k part hp).ex
    rw [show 1 - 1 + k = k by omega] at g1 g2 g4
    have hidx : c.reversed = false → ∀ s ∈ part, s.index = (start + k) % js.length := by
      intro hr s hm
      rw [g4 s hm]
      unfold indexBefore vertex
      rw [hr, if_neg (by simp)]
      rw [show js.length + start + (k + 1) = start + (k + 1) + js.length by omega, Nat.add_mod_right,
        show (start + (k + 1)) % js.length + js.length - 1 = (start + (k + 1)) % js.length + (js.length - 1) by omega, Nat.mod_add_mod,
        show start + (k + 1) + (js.length - 1) = start + k + js.length by omega, Nat.add_mod_right]
    by_cases hab : a.p = b.p
    · have hnil := g3.none hab
      subst hnil
      refine ⟨a, b, 1, ?_, ?_, covers_nil hab 1, hidx, fun _ => ⟨?_, fun _ => rfl⟩⟩
      · rw [visited_eq c (by omega)]; exact g1
      · rw [visited_eq c (by omega)]; exact g2
      · rw [sub_self, abs_zero]
        have := hc.resolution
        have : (0 : ℚ) < c.resolution := by exact_mod_cast (by omega : 0 < c.resolution)
        positivity
    · refine ⟨a, b, e, ?_, ?_, g3, hidx, fun h => ⟨?_, fun hw => ?_⟩⟩
      · rw [visited_eq c (by omega)]; exact g1
      · rw [visited_eq c (by omega)]; exact g2
      · exact (g5 h).resolve_right hab
      · exact (g6 h hw).resolve_right hab
  · simpa [st] using h7
  · intro h; simpa [st] using h8 h

/-- **C107** (the wall is followed). After a travel to the start, the moves follow the lines of the wall from vertex to vertex, one after the other, all
around or to the other end: each line is covered by parts that go forward, each from where the one before ended to a point on the line, with a width
between those at its ends. A line of constant width is covered exactly; one of varying width up to half a unit per `resolution`. -/
theorem C107_follow {c : Cfg} (hc : Sane c) {js : List Junction} {start : Nat} (hs : start < js.length) (hsm : c.small = false) (hcl : c.closure = false) :
    ∃ (j : Junction) (parts : List (List Seg)), js[start]? = some j ∧ parts.length = (if c.closed then js.length else js.length - 1) ∧
      pass c js start = some ((if parts = [] then [] else [.travel j.p]) ++ parts.flatten.map .seg) ∧
      (∀ k part, parts[k]? = some part → ∃ a b e, visited c.reversed js start k = some a ∧ visited c.reversed js start (k + 1) = some b ∧
        Covers a b e part ∧ |e - 1| ≤ 1 / (2 * c.resolution) ∧ (a.w = b.w → e = 1) ∧
        (c.reversed = false → ∀ s ∈ part, s.index = (start + k) % js.length)) ∧
      Connected ⟨j.p.x, j.p.y, if 0 < c.scarf then c.drop else 0⟩ parts.flatten ∧
      (FromEnd c js start → (∀ a ∈ js, ∀ b ∈ js, a.w = b.w) →
        ∀ s, parts.flatten.getLast? = some s → s.d1 = wallLength c.closed js) := by
  obtain ⟨j, parts, st, st', hj, hst, h1, h2, h3, h4, h5, h6, h7, h8, h9⟩ := pass_spec hc hs (by simp [hsm]) (by simp [hcl])
  have hk : st'.keep = true := by unfold Ok at h4; rw [hcl] at h4; simpa using h4
  have hlen := h6 hk
  have hcon := h2.connected
  refine ⟨j, parts, hj, hlen, ?_, ?_, ?_, ?_⟩
  · rw [h1]
    congr 2
    cases parts with
    | nil => simp at hlen; simp [← hlen]
    | cons p l =>
      have : 0 < steps c js := by rw [← hlen]; simp
      simp [hcl, this]
  · intro k part hp
    obtain ⟨a, b, e, g1, g2, g3, g4, g5⟩ := h7 k part hp
    exact ⟨a, b, e, g1, g2, g3, (g5 (.inl hcl)).1, (g5 (.inl hcl)).2, g4⟩
  · refine ⟨fun s hs => ?_, hcon.2.1⟩
    have := hcon.1 s hs
    rw [hst] at this
    simpa [hcl] using this
  · intro hfe hu s hl
    rw [(hcon.2.2.1 s hl).2, h9 hk]
    exact total_uniform hc hu hs hfe

/-- The parts of a pass. -/
theorem pass_parts {c : Cfg} (hc : Sane c) {js : List Junction} {start : Nat} (hs : start < js.length) (hsm : (c.small && !c.closure) = false)
    (hsc : c.closure = true → 0 < c.scarf) {moves : List Move} (hp : pass c js start = some moves) :
    ∃ (j : Junction) (segs : List Seg) (st st' : St), st = ⟨⟨j.p.x, j.p.y, if !c.closure && decide (0 < c.scarf) then c.drop else 0⟩, 0, 0, 0, true⟩ ∧
      Trace c st segs st' ∧ Ok c st ∧ ∀ s, .seg s ∈ moves → s ∈ segs := by
  obtain ⟨j, parts, st, st', hj, hst, h1, h2, h3, -⟩ := pass_spec hc hs hsm hsc
  rw [hp] at h1
  injection h1 with h1
  refine ⟨j, parts.flatten, st, st', hst, h2, h3, fun s hm => ?_⟩
  rw [h1, List.mem_append] at hm
  rcases hm with hm | hm
  · split at hm <;> simp at hm
  · obtain ⟨t, ht, he⟩ := List.mem_map.mp hm
    rw [← Move.seg.inj he]; exact ht

/-- **C107** (the ramp of the scarf). Each part is at the height of a ramp from the lowest point up to the layer, rounded, never goes down, and is in
steps of at most the split distance; beyond the length of the scarf it is at the height of the layer. -/
theorem C107_heights {c : Cfg} (hc : Sane c) {js : List Junction} {start : Nat} (hs : start < js.length) (hsm : c.small = false)
    (hcl : c.closure = false) (hd : c.drop ≤ 0) {moves : List Move} (hp : pass c js start = some moves) {s : Seg} (hm : .seg s ∈ moves) :
    |(s.a.z : ℚ) - rampAt c s.d0| ≤ 1 / 2 ∧ |(s.b.z : ℚ) - rampAt c s.d1| ≤ 1 / 2 ∧ c.drop ≤ s.a.z ∧ s.a.z ≤ s.b.z ∧ s.b.z ≤ 0 ∧
      (c.scarf ≤ s.d0 → s.a.z = 0) ∧ (c.scarf ≤ s.d1 → s.b.z = 0) ∧ (s.d0 < c.scarf → s.d1 ≤ c.scarf ∧ s.d1 - s.d0 ≤ c.scarfSplit) ∧
      (s.toZ = true ↔ s.d0 = 0) := by
  obtain ⟨j, segs, st, st', hst, h1, -, h2⟩ := pass_parts hc hs (by simp [hsm]) (by simp [hcl]) hp
  have h0 : 0 ≤ st.done ∧ st.origin.z = ideal c st.done := by
    rw [hst]
    refine ⟨le_refl _, ?_⟩
    unfold ideal lerp
    dsimp only
    rw [hcl]
    by_cases h : 0 < c.scarf
    · simp [h, llrint_int]
    · simp [h]
  obtain ⟨g1, g2, g3, g4, g5, g6⟩ := (h1.all (step_height hc hcl) h0).1 s (h2 s hm)
  have n1 := ideal_near c s.d0
  have n2 := ideal_near c s.d1
  have b1 := ideal_bounds hd g1
  have b2 := ideal_bounds hd (d := s.d1) (by omega)
  have mono := ideal_mono hd g1 g2.le
  unfold rampAt
  rw [g3, g4]
  refine ⟨by simpa using n1, by simpa using n2, b1.1, mono, b2.2, fun h => ?_, fun h => ?_, g5, g6⟩
  · unfold ideal; rw [if_neg (by omega)]
  · unfold ideal; rw [if_neg (by omega)]

/-- **C107** (speed). Each part is printed at the share of the speed that is due in its middle, and where the speed changes parts are no longer than the
split distance. Within the wall, the share is between the product of those at the ends and 1. -/
theorem C107_speed {c : Cfg} (hc : Sane c) {js : List Junction} {start : Nat} (hs : start < js.length) (hsm : c.small = false)
    (hcl : c.closure = false) (hdec : c.decelerate ≤ c.wallLength) {moves : List Move} (hp : pass c js start = some moves) {s : Seg}
    (hm : .seg s ∈ moves) :
    s.speed = speedAt c (((s.d0 : ℚ) + s.d1) / 2) ∧ (s.d0 < c.accelerate → s.d1 ≤ c.accelerate ∧ s.d1 - s.d0 ≤ c.speedSplit) ∧
      (0 < c.decelerate → (s.d0 < c.wallLength - c.decelerate → s.d1 ≤ c.wallLength - c.decelerate) ∧
        (c.wallLength - c.decelerate ≤ s.d0 → s.d1 - s.d0 ≤ c.speedSplit)) ∧
      (0 ≤ c.startSpeed → c.startSpeed ≤ 1 → 0 ≤ c.endSpeed → c.endSpeed ≤ 1 → s.d1 ≤ c.wallLength →
        c.startSpeed * c.endSpeed ≤ s.speed ∧ s.speed ≤ 1) := by
  obtain ⟨j, segs, st, st', hst, h1, -, h2⟩ := pass_parts hc hs (by simp [hsm]) (by simp [hcl]) hp
  have h0 : Speeds c st := by
    rw [hst]
    refine ⟨le_refl _, fun h => ?_, fun h => ?_⟩
    · simp
    · have h' : 0 < c.decelerate ∧ c.wallLength ≤ c.decelerate := by
        unfold slowing at h
        simpa [hcl] using h
      have he : c.wallLength = c.decelerate := by omega
      have hne : (c.decelerate : ℚ) ≠ 0 := by exact_mod_cast (by omega : c.decelerate ≠ 0)
      simp [he, div_self hne]
  have h0' : 0 ≤ st.done ∧ st.origin.z = ideal c st.done := by
    rw [hst]
    refine ⟨le_refl _, ?_⟩
    unfold ideal lerp
    dsimp only
    rw [hcl]
    by_cases h : 0 < c.scarf
    · simp [h, llrint_int]
    · simp [h]
  obtain ⟨g1, g2, -⟩ := (h1.all (step_height hc hcl) h0').1 s (h2 s hm)
  obtain ⟨e1, e2, e3⟩ := (h1.all (step_speed hc hcl) h0).1 s (h2 s hm)
  have q0 : (0 : ℚ) ≤ s.d0 := by exact_mod_cast g1
  have q1 : (s.d0 : ℚ) < s.d1 := by exact_mod_cast g2
  have hup : (((s.d0 : ℚ) + s.d1) / 2 < c.accelerate) ↔ s.d0 < c.accelerate := by
    constructor
    · intro h
      have : (s.d0 : ℚ) < c.accelerate := by linarith
      exact_mod_cast this
    · intro h
      have : (s.d1 : ℚ) ≤ c.accelerate := by exact_mod_cast (e2 h).1
      linarith
  have hdown : (0 < c.decelerate ∧ (c.wallLength : ℚ) - c.decelerate ≤ ((s.d0 : ℚ) + s.d1) / 2) ↔
      0 < c.decelerate ∧ c.wallLength - c.decelerate ≤ s.d0 := by
    constructor
    · rintro ⟨h, h'⟩
      refine ⟨h, ?_⟩
      by_contra hn
      have : (s.d1 : ℚ) ≤ ((c.wallLength - c.decelerate : Int) : ℚ) := by exact_mod_cast (e3 h).1 (by omega)
      push_cast at this
      linarith
    · rintro ⟨h, h'⟩
      have : ((c.wallLength - c.decelerate : Int) : ℚ) ≤ s.d0 := by exact_mod_cast h'
      push_cast at this
      exact ⟨h, by linarith⟩
  have he : s.speed = speedAt c (((s.d0 : ℚ) + s.d1) / 2) := by
    rw [e1]
    unfold speedAt
    simp only [hup, hdown]
  refine ⟨he, e2, e3, fun s0 s1 f0 f1 hw => ?_⟩
  rw [he]
  unfold speedAt
  have hw' : (s.d1 : ℚ) ≤ c.wallLength := by exact_mod_cast hw
  have A : c.startSpeed ≤ (if ((s.d0 : ℚ) + s.d1) / 2 < c.accelerate then c.startSpeed + (1 - c.startSpeed) * (((s.d0 : ℚ) + s.d1) / 2 / c.accelerate) else 1) ∧
      (if ((s.d0 : ℚ) + s.d1) / 2 < c.accelerate then c.startSpeed + (1 - c.startSpeed) * (((s.d0 : ℚ) + s.d1) / 2 / c.accelerate) else 1) ≤ 1 := by
    split
    · rename_i h
      have hpos : (0 : ℚ) < c.accelerate := by linarith
      have t0 : 0 ≤ ((s.d0 : ℚ) + s.d1) / 2 / c.accelerate := div_nonneg (by linarith) hpos.le
      have t1 : ((s.d0 : ℚ) + s.d1) / 2 / c.accelerate ≤ 1 := by rw [div_le_one hpos]; exact h.le
      constructor <;> nlinarith
    · exact ⟨s1, le_refl _⟩
  have B : c.endSpeed ≤ (if 0 < c.decelerate ∧ (c.wallLength : ℚ) - c.decelerate ≤ ((s.d0 : ℚ) + s.d1) / 2 then
        c.endSpeed + (1 - c.endSpeed) * ((c.wallLength - ((s.d0 : ℚ) + s.d1) / 2) / c.decelerate) else 1) ∧
      (if 0 < c.decelerate ∧ (c.wallLength : ℚ) - c.decelerate ≤ ((s.d0 : ℚ) + s.d1) / 2 then
        c.endSpeed + (1 - c.endSpeed) * ((c.wallLength - ((s.d0 : ℚ) + s.d1) / 2) / c.decelerate) else 1) ≤ 1 := by
    split
    · rename_i h
      have hpos : (0 : ℚ) < c.decelerate := by exact_mod_cast h.1
      have t0 : 0 ≤ (c.wallLength - ((s.d0 : ℚ) + s.d1) / 2) / c.decelerate := div_nonneg (by linarith) hpos.le
      have t1 : (c.wallLength - ((s.d0 : ℚ) + s.d1) / 2) / c.decelerate ≤ 1 := by rw [div_le_one hpos]; linarith [h.2]
      constructor <;> nlinarith
    · exact ⟨f1, le_refl _⟩
  generalize (if ((s.d0 : ℚ) + s.d1) / 2 < c.accelerate then c.startSpeed + (1 - c.startSpeed) * (((s.d0 : ℚ) + s.d1) / 2 / c.accelerate) else 1) = x at *
  generalize (if 0 < c.decelerate ∧ (c.wallLength : ℚ) - c.decelerate ≤ ((s.d0 : ℚ) + s.d1) / 2 then
        c.endSpeed + (1 - c.endSpeed) * ((c.wallLength - ((s.d0 : ℚ) + s.d1) / 2) / c.decelerate) else 1) = y at *
  exact ⟨mul_le_mul A.1 B.1 f0 (by linarith), mul_le_one₀ A.2 (by linarith) B.2⟩

/-- **C107** (the closure of the scarf). The closure follows the wall again from the start, at the height of the layer and at the speed of the end, in steps
of at most the split distance, and stops exactly after the length of the scarf. -/
theorem C107_closure {c : Cfg} (hc : Sane c) {js : List Junction} {start : Nat} (hs : start < js.length) (hcl : c.closure = true)
    (hsc : 0 < c.scarf) :
    ∃ (j : Junction) (parts : List (List Seg)), js[start]? = some j ∧ parts.length ≤ (if c.closed then js.length else js.length - 1) ∧
      pass c js start = some (parts.flatten.map .seg) ∧
      (∀ k part, parts[k]? = some part → ∃ a b e, visited c.reversed js start k = some a ∧ visited c.reversed js start (k + 1) = some b ∧
        Covers a b e part ∧ (k + 1 < parts.length → |e - 1| ≤ 1 / (2 * c.resolution) ∧ (a.w = b.w → e = 1))) ∧
      Connected ⟨j.p.x, j.p.y, 0⟩ parts.flatten ∧
      (∀ s ∈ parts.flatten, s.a.z = 0 ∧ s.b.z = 0 ∧ s.speed = c.endSpeed ∧ s.d1 ≤ c.scarf ∧ s.d1 - s.d0 ≤ c.scarfSplit) ∧
      (FromEnd c js start → (∀ a ∈ js, ∀ b ∈ js, a.w = b.w) → c.scarf ≤ wallLength c.closed js →
        ∃ s, parts.flatten.getLast? = some s ∧ s.d1 = c.scarf) := by
  obtain ⟨j, parts, st, st', hj, hst, h1, h2, h3, h4, h5, h6, h7, h8, h9⟩ := pass_spec hc hs (by simp [hcl]) (fun _ => hsc)
  have hcon := h2.connected
  have h0 : Ok c st ∧ 0 ≤ st.done ∧ st.origin.z = 0 := by
    refine ⟨h3, ?_⟩
    rw [hst]
    simp [hcl]
  have hall := (h2.all (step_closure hc hcl) h0).1
  refine ⟨j, parts, hj, h5, ?_, ?_, ?_, ?_, ?_⟩
  · rw [h1]; simp [hcl]
  · intro k part hp
    obtain ⟨a, b, e, g1, g2, g3, g4, g5⟩ := h7 k part hp
    exact ⟨a, b, e, g1, g2, g3, fun h => g5 (.inr h)⟩
  · refine ⟨fun s hs => ?_, hcon.2.1⟩
    have := hcon.1 s hs
    rw [hst] at this
    simpa [hcl] using this
  · intro s hm
    obtain ⟨-, -, g3, g4, g5, g6, g7, -⟩ := hall s hm
    exact ⟨g3, g4, g7, g5, g6⟩
  · intro hfe hu hle
    have htot := total_uniform hc hu hs hfe
    rw [htot] at h9
    have hd : st'.done = c.scarf := by
      unfold Ok at h4
      rw [hcl, if_pos rfl] at h4
      by_cases hk : st'.keep = true
      · have := h9 hk
        have := h4.1.mp hk
        omega
      · have : ¬st'.done < c.scarf := fun h => hk (h4.1.mpr h)
        omega
    cases hl : parts.flatten.getLast? with
    | none =>
      exfalso
      have := hcon.2.2.2 (List.getLast?_eq_none_iff.mp hl)
      rw [← this, hst] at hd
      simp at hd
      omega
    | some s => exact ⟨s, rfl, by rw [(hcon.2.2.1 s hl).2, hd]⟩

/-- **C107** (both passes). With a scarf the wall is followed once, and then the closure; without, only once. -/
theorem C107_wall {c : Cfg} (hc : Sane c) {js : List Junction} {start : Nat} (hs : start < js.length) (hsm : c.small = false) :
    ∃ m m', pass { c with closure := false } js start = some m ∧ (0 < c.scarf → pass { c with closure := true } js start = some m') ∧
      addWall c js start = some (if 0 < c.scarf then m ++ m' else m) := by
  have hc1 : Sane { c with closure := false } := ⟨hc.1, hc.2, hc.3, hc.4⟩
  have hc2 : Sane { c with closure := true } := ⟨hc.1, hc.2, hc.3, hc.4⟩
  obtain ⟨j, parts, -, -, h1, -⟩ := C107_follow hc1 hs hsm rfl
  by_cases h : 0 < c.scarf
  · obtain ⟨j', parts', -, -, h2, -⟩ := C107_closure hc2 hs rfl h
    refine ⟨_, _, h1, fun _ => h2, ?_⟩
    unfold addWall
    rw [h1, h2]
    simp [h]
  · refine ⟨_, [], h1, fun h' => absurd h' h, ?_⟩
    unfold addWall
    rw [h1]
    simp [h]

/-- **C107** (varying width). A line is divided into pieces of one width each. There are enough of them for the area not to deviate by more than what is
allowed per piece, or else pieces are shorter than twice the resolution; and none are shorter than the resolution. -/
theorem C107_pieces {c : Cfg} (hc : Sane c) (a b : Junction) :
    1 ≤ pieces c a b ∧ (pieces c a b = 1 ∨ (pieces c a b : Int) * c.resolution ≤ size b.p a.p) ∧
      (|b.w - a.w| * size b.p a.p < 4 * (pieces c a b * c.areaDeviation + 1) ∨ size b.p a.p < 2 * pieces c a b * c.resolution) ∧
      ∀ piece < pieces c a b, |(lineWidth a b (pieces c a b) piece : ℚ) - (a.w + ((piece : ℚ) + 1 / 2) / pieces c a b * (b.w - a.w))| ≤ 1 / 2 := by
  refine ⟨pieces_pos c a b, pieces_le c hc a b, ?_, fun piece _ => ?_⟩
  · have hd := hc.deviation
    have hr := hc.resolution
    have hl := size_nonneg b.p a.p
    unfold pieces
    dsimp only
    set L := size b.p a.p
    set A := |b.w - a.w| * L with hA
    have hA0 : 0 ≤ A := mul_nonneg (abs_nonneg _) hl
    set D := (A / 4 + c.areaDeviation - 1) / c.areaDeviation with hD
    set R := L / c.resolution with hR
    have hR0 : 0 ≤ R := Int.ediv_nonneg hl (by omega)
    have hD0 : 0 ≤ D := Int.ediv_nonneg (by omega) (by omega)
    have hD1 : A / 4 ≤ D * c.areaDeviation := by
      have := Int.lt_ediv_add_one_mul_self (A / 4 + c.areaDeviation - 1) (show 0 < c.areaDeviation by omega)
      rw [← hD] at this
      nlinarith
    have hR1 : L < (R + 1) * c.resolution := Int.lt_ediv_add_one_mul_self L (show 0 < c.resolution by omega)
    by_cases h : D.toNat ≤ R.toNat
    · left
      rw [min_eq_left h]
      have hm : D ≤ ((max 1 D.toNat : Nat) : Int) := by omega
      have : D * c.areaDeviation ≤ ((max 1 D.toNat : Nat) : Int) * c.areaDeviation := Int.mul_le_mul_of_nonneg_right hm (by omega)
      omega
    · right
      rw [min_eq_right (by omega)]
      have hm : R + 1 ≤ 2 * ((max 1 R.toNat : Nat) : Int) := by omega
      have : (R + 1) * c.resolution ≤ 2 * ((max 1 R.toNat : Nat) : Int) * c.resolution := Int.mul_le_mul_of_nonneg_right hm (by omega)
      omega
  · unfold lineWidth
    have := llrint_near ((a.w : ℚ) + ((piece : ℚ) + 1 / 2) / pieces c a b * ((b.w - a.w : Int) : ℚ))
    push_cast at *
    exact this

theorem along_full (p q : Pt) : along p q (size q p) = q := by
  unfold along
  have h0 := size_nonneg q p
  split
  · rename_i h
    have h1 : size q p = 0 := by omega
    rw [h1, size_zero.mp h1]
    simp
  · rw [Int.mul_tdiv_cancel _ (by omega), Int.mul_tdiv_cancel _ (by omega)]
    simp

theorem follow_small {c : Cfg} (hc : Sane c) {js : List Junction} {start : Nat} (hs : start < js.length) (hsm : c.small = true)
    (hcl : c.closure = false) (hu : ∀ a ∈ js, ∀ b ∈ js, a.w = b.w) (left k : Nat) (hk : 1 ≤ k) (st : St) (hst : st.keep = true) :
    ∃ bs : List Junction, bs.length = left ∧ follow c js start left k st = some (bs.map fun b => .small b.p b.w, st) ∧
      ∀ i b, bs[i]? = some b → js[vertex c js.length start (k + i)]? = some b := by
  induction left generalizing k with
  | zero => exact ⟨[], rfl, rfl, by simp⟩
  | succ left ih =>
    unfold follow
    rw [if_pos hst]
    have ha := vertex_lt c (k := k - 1) hs
    have hb := vertex_lt c (k := k) hs
    obtain ⟨a, ha⟩ : ∃ a, js[vertex c js.length start (k - 1)]? = some a := ⟨_, List.getElem?_eq_getElem ha⟩
    obtain ⟨b, hb⟩ : ∃ b, js[vertex c js.length start k]? = some b := ⟨_, List.getElem?_eq_getElem hb⟩
    obtain ⟨bs, h1, h2, h3⟩ := ih (k + 1) (by omega)
    rw [ha, hb]
    dsimp only [Option.bind_some]
    rw [if_pos (by simp [hsm, hcl]), h2]
    have hw := hu a (List.mem_of_getElem? ha) b (List.mem_of_getElem? hb)
    have hp := pieces_same hc hw
    refine ⟨b :: bs, by simp [h1], ?_, ?_⟩
    · have hm : smallMoves c a b = [.small b.p b.w] := by
        unfold smallMoves
        rw [hp, pieceLength_one hp]
        simp only [List.range_one, List.map_cons, List.map_nil, List.cons.injEq, and_true]
        rw [show size b.p a.p * ((0 + 1 : Nat) : Int) = size b.p a.p by simp, along_full]
        unfold lineWidth
        rw [hw]
        simp [llrint_int]
      rw [hm]
      rfl
    · intro i b' hb'
      cases i with
      | zero => simp at hb'; rw [← hb']; exact hb
      | succ i =>
        rw [List.getElem?_cons_succ] at hb'
        rw [show k + (i + 1) = k + 1 + i by omega]
        exact h3 i b' hb'

/-- **C107** (small features). When a wall of constant width is a small feature, there is one move to each of the next vertices, in order. -/
theorem C107_small {c : Cfg} (hc : Sane c) {js : List Junction} {start : Nat} (hs : start < js.length) (hsm : c.small = true)
    (hcl : c.closure = false) (hu : ∀ a ∈ js, ∀ b ∈ js, a.w = b.w) :
    ∃ (j : Junction) (bs : List Junction), js[start]? = some j ∧ bs.length = (if c.closed then js.length else js.length - 1) ∧
      pass c js start = some ((if bs = [] then [] else [.travel j.p]) ++ bs.map fun b => .small b.p b.w) ∧
      ∀ k b, bs[k]? = some b → visited c.reversed js start (k + 1) = some b := by
  have hj : js[start]? = some js[start] := List.getElem?_eq_getElem hs
  have hstep : steps c js ≤ js.length := by unfold steps; split <;> omega
  obtain ⟨bs, h1, h2, h3⟩ := follow_small hc hs hsm hcl hu (steps c js) 1 (le_refl _)
    ⟨⟨js[start].p.x, js[start].p.y, if !c.closure && decide (0 < c.scarf) then c.drop else 0⟩, 0, 0, 0, true⟩ rfl
  refine ⟨_, bs, hj, h1, ?_, fun k b hb => ?_⟩
  · unfold pass
    rw [hj]
    dsimp only [Option.bind_some]
    rw [h2]
    dsimp only [Option.map_some]
    congr 2
    cases bs with
    | nil => simp at h1; simp [← h1]
    | cons p l =>
      have : 0 < steps c js := by rw [← h1]; simp
      simp [hcl, this]
  · have hk : k < bs.length := by
      by_contra hn
      rw [List.getElem?_eq_none (by omega)] at hb
      simp at hb
    have := h3 k b hb
    rw [visited_eq c (by omega), show k + 1 = 1 + k by omega]
    exact this

/-- **C107** (flow on the ramp). The flow is reduced below the layer, never below zero and never increased; at the height of the layer it is as is. -/
theorem C107_flow (thickness now offset : Int) :
    0 ≤ thicknessFactor thickness now offset ∧ thicknessFactor thickness now offset ≤ 1 ∧
      (now = 0 → offset = 0 → thicknessFactor thickness now offset = 1) ∧
      (0 < thickness → -thickness ≤ now → now ≤ 0 → -thickness ≤ offset → offset ≤ 0 →
        thicknessFactor thickness now offset = 1 + ((now : ℚ) + offset) / 2 / thickness) := by
  have hcl : ∀ x, 0 ≤ clamp01 x ∧ clamp01 x ≤ 1 := by
    intro x
    unfold clamp01
    split
    · exact ⟨le_refl _, by norm_num⟩
    · split
      · exact ⟨by norm_num, le_refl _⟩
      · constructor <;> linarith
  have h1 := hcl (1 + (now : ℚ) / thickness)
  have h2 := hcl (1 + (offset : ℚ) / thickness)
  refine ⟨?_, ?_, ?_, ?_⟩
  · unfold thicknessFactor
    split <;> linarith
  · unfold thicknessFactor
    split <;> linarith
  · rintro rfl rfl
    unfold thicknessFactor
    rw [if_neg (by simp)]
  · intro ht n0 n1 o0 o1
    have ht' : (0 : ℚ) < thickness := by exact_mod_cast ht
    have hin : ∀ z : Int, -thickness ≤ z → z ≤ 0 → clamp01 (1 + (z : ℚ) / thickness) = 1 + (z : ℚ) / thickness := by
      intro z z0 z1
      have z0' : (-thickness : ℚ) ≤ z := by exact_mod_cast z0
      have z1' : (z : ℚ) ≤ 0 := by exact_mod_cast z1
      have a1 : (z : ℚ) / thickness ≤ 0 := div_nonpos_of_nonpos_of_nonneg z1' ht'.le
      have a2 : -1 ≤ (z : ℚ) / thickness := by rw [le_div_iff₀ ht']; linarith
      unfold clamp01
      rw [if_neg (by linarith), if_neg (by linarith)]
    unfold thicknessFactor
    rw [hin now n0 n1, hin offset o0 o1]
    split
    · field_simp; ring
    · rename_i h
      push Not at h
      rw [h.1, h.2]
      simp

end Verif.Scarf
