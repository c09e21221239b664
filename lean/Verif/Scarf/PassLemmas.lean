import Verif.Scarf.Lemmas
import Mathlib.Algebra.BigOperators.Group.Finset.Basic

/-! # Lemmas on a pass along a wall -/

namespace Verif.Scarf

open Verif.Order (Pt)
open Verif.Walls (Junction size)

/-! ## Chains of parts -/

theorem Trace.connected {c : Cfg} {st st' : St} {segs : List Seg} (h : Trace c st segs st') :
    (∀ s, segs.head? = some s → s.a = st.origin ∧ s.d0 = st.done) ∧ (segs.IsChain fun s t => t.a = s.b ∧ t.d0 = s.d1) ∧
    (∀ s, segs.getLast? = some s → s.b = st'.origin ∧ s.d1 = st'.done) ∧ (segs = [] → st = st') := by
  induction h with
  | nil => exact ⟨by simp, .nil, by simp, fun _ => rfl⟩
  | cons hs _ ih =>
    rename_i st s st1 l st2 _
    obtain ⟨index, a, b, width, sofar, remaining, -, -, he⟩ := hs
    obtain ⟨i1, i2, i3, i4⟩ := ih
    have e1 : s.a = st.origin ∧ s.d0 = st.done := by
      rw [← (Prod.mk.inj he).1]; exact ⟨rfl, rfl⟩
    have e2 : st1.origin = s.b ∧ st1.done = s.d1 := by
      rw [← (Prod.mk.inj he).1, ← (Prod.mk.inj he).2]; exact ⟨rfl, rfl⟩
    refine ⟨?_, ?_, ?_, by simp⟩
    · intro t ht; simp at ht; rw [← ht]; exact e1
    · rw [List.isChain_cons]
      refine ⟨fun t ht => ?_, i2⟩
      rw [(i1 t ht).1, (i1 t ht).2]
      exact e2
    · intro t ht
      cases l with
      | nil =>
        simp at ht
        rw [← ht, ← i4 rfl]
        exact ⟨e2.1.symm, e2.2.symm⟩
      | cons u l => rw [List.getLast?_cons_cons] at ht; exact i3 t ht

/-- What holds of the state before a round and is kept, holds before every round. -/
theorem Trace.all {c : Cfg} {I : St → Prop} {P : Seg → Prop} (step : ∀ st s st', I st → Step c st s st' → P s ∧ I st')
    {st st' : St} {segs : List Seg} (h : Trace c st segs st') (h0 : I st) : (∀ s ∈ segs, P s) ∧ I st' := by
  induction h with
  | nil => exact ⟨by simp, h0⟩
  | cons hs _ ih =>
    obtain ⟨h1, h2⟩ := step _ _ _ h0 hs
    obtain ⟨i1, i2⟩ := ih h2
    refine ⟨fun s hm => ?_, i2⟩
    rcases List.mem_cons.mp hm with rfl | hm
    · exact h1
    · exact i1 s hm

/-! ## Height -/

/-- The rounded ramp. -/
def ideal (c : Cfg) (d : Int) : Int := if d < c.scarf then Simplify.llrint (lerp c.drop 0 ((d : ℚ) / c.scarf)) else 0

theorem step_height {c : Cfg} (hc : Sane c) (hcl : c.closure = false) :
    ∀ st s st', (0 ≤ st.done ∧ st.origin.z = ideal c st.done) → Step c st s st' →
      (0 ≤ s.d0 ∧ s.d0 < s.d1 ∧ s.a.z = ideal c s.d0 ∧ s.b.z = ideal c s.d1 ∧ (s.d0 < c.scarf → s.d1 ≤ c.scarf ∧ s.d1 - s.d0 ≤ c.scarfSplit) ∧
        (s.toZ = true ↔ s.d0 = 0)) ∧ (0 ≤ st'.done ∧ st'.origin.z = ideal c st'.done) := by
  rintro st s st' ⟨h0, hz⟩ ⟨index, a, b, width, sofar, remaining, hr, -, he⟩
  have hb := stop_bounds hc (done := st.done) hr
  have key : height c st.done (stop c st.done remaining) = ideal c (stop c st.done remaining) := by
    unfold height ideal
    by_cases hd : st.done < c.scarf
    · have hs := stop_scarf (remaining := remaining) hd
      rw [if_pos ⟨hd, hcl⟩]
      by_cases he : stop c st.done remaining < c.scarf
      · rw [if_pos he]
      · rw [if_neg he]
        have he : stop c st.done remaining = c.scarf := by omega
        have hne : (c.scarf : ℚ) ≠ 0 := by exact_mod_cast (by omega : c.scarf ≠ 0)
        rw [he, div_self hne]
        unfold lerp
        have : ((c.drop : ℚ) + 1 * (0 - c.drop)) = ((0 : Int) : ℚ) := by push_cast; ring
        rw [this, llrint_int]
    · rw [if_neg (fun h => hd h.1), if_neg (by omega)]
  obtain ⟨rfl, rfl⟩ := Prod.mk.inj he
  refine ⟨⟨h0, hb.1, hz, key, fun hd => ?_, ?_⟩, ?_, key⟩
  · change st.done < _ at hd
    have hs := stop_scarf (remaining := remaining) hd
    exact ⟨hs.1, show stop c st.done remaining - st.done ≤ _ by omega⟩
  · exact decide_eq_true_iff
  · show 0 ≤ stop c st.done remaining
    omega

theorem step_closure {c : Cfg} (hc : Sane c) (hcl : c.closure = true) :
    ∀ st s st', (Ok c st ∧ 0 ≤ st.done ∧ st.origin.z = 0) → Step c st s st' →
      (0 ≤ s.d0 ∧ s.d0 < s.d1 ∧ s.a.z = 0 ∧ s.b.z = 0 ∧ s.d1 ≤ c.scarf ∧ s.d1 - s.d0 ≤ c.scarfSplit ∧ s.speed = c.endSpeed ∧
        (s.toZ = true ↔ s.d0 = 0)) ∧ (Ok c st' ∧ 0 ≤ st'.done ∧ st'.origin.z = 0) := by
  rintro st s st' ⟨hok, h0, hz⟩ ⟨index, a, b, width, sofar, remaining, hr, hk, he⟩
  have hb := stop_bounds hc (done := st.done) hr
  have hd : st.done < c.scarf := by
    unfold Ok at hok
    rw [hcl, if_pos rfl] at hok
    exact hok.1.mp hk
  have hs := stop_scarf (remaining := remaining) hd
  have hh : height c st.done (stop c st.done remaining) = 0 := by
    unfold height
    rw [if_neg (by simp [hcl])]
  have hok' := sub_ok (c := c) (index := index) (a := a) (b := b) (width := width) (sofar := sofar) (remaining := remaining) hok hk
  rw [he] at hok'
  obtain ⟨rfl, rfl⟩ := Prod.mk.inj he
  refine ⟨⟨h0, hb.1, hz, hh, hs.1, show stop c st.done remaining - st.done ≤ _ by omega, ?_, decide_eq_true_iff⟩, hok', ?_, hh⟩
  · show speed c st _ = _
    unfold speed slowing
    simp [hcl]
  · show 0 ≤ stop c st.done remaining
    omega

theorem ideal_near (c : Cfg) (d : Int) : |(ideal c d : ℚ) - if d < c.scarf then c.drop * (1 - (d : ℚ) / c.scarf) else 0| ≤ 1 / 2 := by
  unfold ideal
  split
  · have := llrint_near (lerp c.drop 0 ((d : ℚ) / c.scarf))
    unfold lerp at *
    rw [show (c.drop : ℚ) * (1 - (d : ℚ) / c.scarf) = c.drop + (d : ℚ) / c.scarf * (0 - c.drop) by ring]
    exact this
  · simp

theorem ideal_bounds {c : Cfg} (hd : c.drop ≤ 0) {d : Int} (h0 : 0 ≤ d) : c.drop ≤ ideal c d ∧ ideal c d ≤ 0 := by
  unfold ideal
  split
  · rename_i h
    have hs : (0 : ℚ) < c.scarf := by exact_mod_cast (by omega : 0 < c.scarf)
    have h1 : 0 ≤ (d : ℚ) / c.scarf := div_nonneg (by exact_mod_cast h0) hs.le
    have h2 : (d : ℚ) / c.scarf ≤ 1 := by rw [div_le_one hs]; exact_mod_cast h.le
    have hd' : (c.drop : ℚ) ≤ 0 := by exact_mod_cast hd
    apply llrint_between <;> unfold lerp <;> push_cast <;> nlinarith
  · omega

theorem ideal_mono {c : Cfg} (hd : c.drop ≤ 0) {d e : Int} (h0 : 0 ≤ d) (h : d ≤ e) : ideal c d ≤ ideal c e := by
  by_cases he : e < c.scarf
  · unfold ideal
    rw [if_pos he, if_pos (by omega)]
    apply llrint_mono
    have hs : (0 : ℚ) < c.scarf := by exact_mod_cast (by omega : 0 < c.scarf)
    have h1 : (d : ℚ) / c.scarf ≤ (e : ℚ) / c.scarf := by
      rw [div_le_div_iff_of_pos_right hs]; exact_mod_cast h
    have hd' : (c.drop : ℚ) ≤ 0 := by exact_mod_cast hd
    unfold lerp
    nlinarith
  · have : ideal c e = 0 := by unfold ideal; rw [if_neg he]
    rw [this]
    exact (ideal_bounds hd h0).2

/-! ## Speed -/

/-- The invariant on the factors kept from the round before. -/
def Speeds (c : Cfg) (st : St) : Prop :=
  0 ≤ st.done ∧ (st.done < c.accelerate → st.acc = (st.done : ℚ) / c.accelerate) ∧
    (slowing c st.done = true → st.dec = 1 - ((c.wallLength - st.done : Int) : ℚ) / c.decelerate)

theorem step_speed {c : Cfg} (hc : Sane c) (hcl : c.closure = false) :
    ∀ st s st', Speeds c st → Step c st s st' →
      (s.speed = (if s.d0 < c.accelerate then c.startSpeed + (1 - c.startSpeed) * (((s.d0 : ℚ) + s.d1) / 2 / c.accelerate) else 1) *
        (if 0 < c.decelerate ∧ c.wallLength - c.decelerate ≤ s.d0 then
          c.endSpeed + (1 - c.endSpeed) * ((c.wallLength - ((s.d0 : ℚ) + s.d1) / 2) / c.decelerate) else 1) ∧
       (s.d0 < c.accelerate → s.d1 ≤ c.accelerate ∧ s.d1 - s.d0 ≤ c.speedSplit) ∧
       (0 < c.decelerate → (s.d0 < c.wallLength - c.decelerate → s.d1 ≤ c.wallLength - c.decelerate) ∧
          (c.wallLength - c.decelerate ≤ s.d0 → s.d1 - s.d0 ≤ c.speedSplit))) ∧ Speeds c st' := by
  rintro st s st' ⟨h0, ha, hd⟩ ⟨index, a, b, width, sofar, remaining, hr, -, he⟩
  have hb := stop_bounds hc (done := st.done) hr
  obtain ⟨rfl, rfl⟩ := Prod.mk.inj he
  have hsl : slowing c st.done = true ↔ 0 < c.decelerate ∧ c.wallLength - c.decelerate ≤ st.done := by
    unfold slowing
    simp [hcl]
  refine ⟨⟨?_, fun h => ?_, fun h => ⟨fun h' => ?_, fun h' => ?_⟩⟩, ?_, fun h => ?_, fun h => ?_⟩
  · show speed c st (stop c st.done remaining) = (if st.done < c.accelerate then _ else 1) *
      (if 0 < c.decelerate ∧ c.wallLength - c.decelerate ≤ st.done then _ else 1)
    unfold speed
    congr 1
    · by_cases h : st.done < c.accelerate
      · rw [if_pos ⟨hcl, h⟩, if_pos h, ha h]
        unfold lerp accTo
        rw [if_pos ⟨hcl, h⟩]
        have : (c.accelerate : ℚ) ≠ 0 := by exact_mod_cast (by omega : c.accelerate ≠ 0)
        show _ = c.startSpeed + (1 - c.startSpeed) * (((st.done : ℚ) + (stop c st.done remaining : Int)) / 2 / c.accelerate)
        field_simp
      · rw [if_neg (fun h' => h h'.2), if_neg h]
    · by_cases h : slowing c st.done = true
      · rw [if_pos h, if_pos (hsl.mp h), hd h]
        unfold lerp decTo
        rw [if_pos h]
        have : (c.decelerate : ℚ) ≠ 0 := by have := (hsl.mp h).1; exact_mod_cast (by omega : c.decelerate ≠ 0)
        show _ = c.endSpeed + (1 - c.endSpeed) * ((c.wallLength - ((st.done : ℚ) + (stop c st.done remaining : Int)) / 2) / c.decelerate)
        push_cast
        field_simp
        ring
      · rw [if_neg h, if_neg (fun h' => h (hsl.mpr h')), hcl]
        simp
  · change st.done < _ at h
    have := stop_accelerate (remaining := remaining) hcl h
    exact ⟨this.1, show stop c st.done remaining - st.done ≤ _ by omega⟩
  · exact (stop_decelerate hcl h).1 h'
  · change _ ≤ st.done at h'
    have := (stop_decelerate (remaining := remaining) hcl h).2 h'
    show stop c st.done remaining - st.done ≤ _
    omega
  · show 0 ≤ stop c st.done remaining
    omega
  · change stop c st.done remaining < _ at h
    show accTo c st.done (stop c st.done remaining) = _
    unfold accTo
    rw [if_pos ⟨hcl, by omega⟩]
  · change slowing c (stop c st.done remaining) = true at h
    show decTo c st.done (stop c st.done remaining) = 1 - ((c.wallLength - stop c st.done remaining : Int) : ℚ) / c.decelerate
    have h' : 0 < c.decelerate ∧ c.wallLength - c.decelerate ≤ stop c st.done remaining := by
      unfold slowing at h
      simpa [hcl] using h
    unfold decTo
    by_cases hs : slowing c st.done = true
    · rw [if_pos hs]
    · rw [if_neg hs]
      have hlt : st.done < c.wallLength - c.decelerate := by
        by_contra hn
        exact hs (hsl.mpr ⟨h'.1, by omega⟩)
      have := (stop_decelerate (remaining := remaining) hcl h'.1).1 hlt
      have he : c.wallLength - stop c st.done remaining = c.decelerate := by omega
      have hne : (c.decelerate : ℚ) ≠ 0 := by exact_mod_cast (by omega : c.decelerate ≠ 0)
      rw [he, div_self hne]
      ring

/-! ## Vertices -/

theorem vertex_eq (c : Cfg) {n start k : Nat} (hk : k ≤ n) :
    vertex c n start k = (((start : Int) + if c.reversed then -(k : Int) else k) % n).toNat := by
  unfold vertex
  cases c.reversed
  · simp only [Bool.false_eq_true, if_false]
    rw [show n + start + k = start + k + n by omega, Nat.add_mod_right]
    exact_mod_cast (Int.toNat_natCast _).symm
  · simp only [if_true]
    have : (((n + start - k : Nat) : Int) % n) = ((start : Int) + -(k : Int)) % n := by
      rw [show ((n + start - k : Nat) : Int) = (start : Int) + -(k : Int) + n by omega, Int.add_emod_right]
    rw [← this]
    omega

theorem vertex_lt (c : Cfg) {n start k : Nat} (hs : start < n) : vertex c n start k < n := by
  unfold vertex
  split <;> exact Nat.mod_lt _ (by omega)

theorem visited_eq (c : Cfg) {js : List Junction} {start k : Nat} (hk : k ≤ js.length) :
    visited c.reversed js start k = js[vertex c js.length start k]? := by
  unfold visited
  rw [vertex_eq c hk]

/-- How far the line from the `k`th vertex goes. -/
def run (c : Cfg) (js : List Junction) (start k : Nat) : Int :=
  match js[vertex c js.length start k]?, js[vertex c js.length start (k + 1)]? with
  | some a, some b => pieces c a b * pieceLength c a b
  | _, _ => 0

theorem run_nonneg {c : Cfg} (hc : Sane c) (js : List Junction) (start k : Nat) : 0 ≤ run c js start k := by
  unfold run
  split
  · rename_i a b _ _
    have : 0 ≤ pieceLength c a b := by
      by_cases h : a.p = b.p
      · rw [pieceLength_zero hc h]
      · have := pieceLength_pos hc h; omega
    positivity
  · exact le_refl _

theorem ratio_near {c : Cfg} (hc : Sane c) {a b : Junction} (hab : a.p ≠ b.p) :
    |(((pieces c a b : Int) * pieceLength c a b : Int) : ℚ) / size b.p a.p - 1| ≤ 1 / (2 * c.resolution) := by
  have hl : (0 : ℚ) < size b.p a.p := by
    have h1 := size_nonneg b.p a.p
    have h2 : size b.p a.p ≠ 0 := fun h0 => hab (size_zero.mp h0).symm
    exact_mod_cast (by omega : 0 < size b.p a.p)
  have hr : (0 : ℚ) < c.resolution := by have := hc.resolution; exact_mod_cast (by omega : 0 < c.resolution)
  rcases pieces_le c hc a b with hp | hp
  · rw [pieceLength_one hp, hp]
    push_cast
    rw [one_mul, div_self hl.ne', sub_self, abs_zero]
    positivity
  · have hsum := pieceLength_sum c a b
    set P := (pieces c a b : Int)
    set R := P * pieceLength c a b
    set L := size b.p a.p
    have hsum' : (2 : ℚ) * |(R : ℚ) - L| ≤ P := by exact_mod_cast hsum
    have hp' : (P : ℚ) * c.resolution ≤ L := by exact_mod_cast hp
    rw [show (R : ℚ) / L - 1 = ((R : ℚ) - L) / L by field_simp, abs_div, abs_of_pos hl, div_le_div_iff₀ hl (by positivity)]
    have := mul_le_mul_of_nonneg_right hsum' hr.le
    linarith

/-- One part of the result of following the wall. -/
structure PartOf (c : Cfg) (js : List Junction) (start k : Nat) (full : Prop) (part : List Seg) : Prop where
  ex : ∃ a b e, js[vertex c js.length start k]? = some a ∧ js[vertex c js.length start (k + 1)]? = some b ∧ Covers a b e part ∧
    (∀ s ∈ part, s.index = indexBefore js.length (vertex c js.length start (k + 1))) ∧
    (full → |e - 1| ≤ 1 / (2 * c.resolution) ∨ a.p = b.p) ∧ (full → a.w = b.w → e = 1 ∨ a.p = b.p)

theorem follow_spec {c : Cfg} (hc : Sane c) {js : List Junction} {start : Nat} (hs : start < js.length) (hsm : (c.small && !c.closure) = false)
    (left k : Nat) {st : St} (hk : 1 ≤ k) (hok : Ok c st) :
    ∃ (parts : List (List Seg)) (st' : St), follow c js start left k st = some (parts.flatten.map .seg, st') ∧ Trace c st parts.flatten st' ∧ Ok c st' ∧
      parts.length ≤ left ∧ (st'.keep = true → parts.length = left) ∧
      (∀ i part, parts[i]? = some part → PartOf c js start (k - 1 + i) (c.closure = false ∨ i + 1 < parts.length) part) ∧
      (st.keep = false → parts = []) ∧
      st'.done - st.done ≤ ((List.range left).map fun i => run c js start (k - 1 + i)).sum ∧
      (st'.keep = true → st'.done - st.done = ((List.range left).map fun i => run c js start (k - 1 + i)).sum) := by
  induction left generalizing k st with
  | zero => exact ⟨[], st, rfl, .nil _, hok, by simp, by simp, by simp, by simp, by simp, by simp⟩
  | succ left ih =>
    have hsum : ((List.range (left + 1)).map fun i => run c js start (k - 1 + i)).sum =
        run c js start (k - 1) + ((List.range left).map fun i => run c js start (k + 1 - 1 + i)).sum := by
      rw [List.range_succ_eq_map, List.map_cons, List.sum_cons, List.map_map]
      congr 2
      apply List.map_congr_left
      intro i _
      show run c js start (k - 1 + (i + 1)) = _
      congr 1
      omega
    unfold follow
    by_cases hkeep : st.keep = true
    · rw [if_pos hkeep]
      have ha := vertex_lt c (k := k - 1) hs
      have hb := vertex_lt c (k := k) hs
      obtain ⟨a, ha⟩ : ∃ a, js[vertex c js.length start (k - 1)]? = some a := ⟨_, List.getElem?_eq_getElem ha⟩
      obtain ⟨b, hb⟩ : ∃ b, js[vertex c js.length start k]? = some b := ⟨_, List.getElem?_eq_getElem hb⟩
      rw [ha, hb]
      dsimp only [Option.bind_some]
      rw [hsm, if_neg (by simp)]
      obtain ⟨segs, e, st1, h1, h2, h3, h4, h5, h6, h7⟩ := cutAll_spec hc (indexBefore js.length (vertex c js.length start k)) a b
        (pieces c a b) (pieces c a b) (piece := 0) (sofar := 0) (st := st) (by omega) hok
      rw [zero_add] at h6 h7
      obtain ⟨parts, st', g1, g2, g3, g4, g5, g6, g9, g7, g8⟩ := ih (k + 1) (st := st1) (by omega) h4
      rw [h1]
      dsimp only [Option.bind_some]
      rw [g1]
      have hrun : run c js start (k - 1) = pieces c a b * pieceLength c a b := by
        unfold run
        rw [show k - 1 + 1 = k by omega, ha, hb]
      have hpp := pieces_pos c a b
      have hstop : st1.keep = true ∨ (follow c js start left (k + 1) st1 = some ([], st1)) := by
        by_cases hk1 : st1.keep = true
        · exact .inl hk1
        · right
          cases left with
          | zero => rfl
          | succ left => unfold follow; rw [if_neg hk1]
      refine ⟨segs :: parts, st', by simp, ?_, g3, by simp; omega, fun h => by simp [g5 h], ?_, fun h => by simp [hkeep] at h, ?_, ?_⟩
      · rw [List.flatten_cons]; exact h2.append g2
      · intro i part hp
        cases i with
        | zero =>
          simp only [List.getElem?_cons_zero, Option.some.injEq] at hp
          subst hp
          have hcov := h3.covers (fun h => by
            have h8 := h3.le
            rw [pieceLength_zero hc h] at h6
            simp at h6
            omega) (fun h => by
            have hpl := pieceLength_pos hc h
            by_cases hk1 : st1.keep = true
            · rw [h7 hk1]; positivity
            · unfold Ok at hok h4
              cases hcl : c.closure
              · rw [hcl] at h4; simp at h4; exact absurd h4 hk1
              · rw [hcl, if_pos rfl] at hok h4
                have := hok.1.mp hkeep
                have : ¬st1.done < c.scarf := fun h => hk1 (h4.1.mpr h)
                omega)
          have hkk : (c.closure = false ∨ 0 + 1 < (segs :: parts).length) → st1.keep = true := by
            rintro (hcl | hlt)
            · unfold Ok at h4; rw [hcl] at h4; simpa using h4
            · by_contra hk1
              rw [g9 (by simpa using hk1)] at hlt
              simp at hlt
          refine ⟨a, b, _, ?_, ?_, hcov.1, ?_, ?_, ?_⟩
          · rw [Nat.add_zero]; exact ha
          · rw [show k - 1 + 0 + 1 = k by omega]; exact hb
          · rw [show k - 1 + 0 + 1 = k by omega]; exact hcov.2
          · intro hcl
            by_cases hab : a.p = b.p
            · exact .inr hab
            · left
              have hk1 : st1.keep = true := hkk hcl
              rw [h7 hk1]
              exact ratio_near hc hab
          · intro hcl hw
            by_cases hab : a.p = b.p
            · exact .inr hab
            · left
              have hk1 : st1.keep = true := hkk hcl
              have hl : (size b.p a.p : ℚ) ≠ 0 := by
                have h2 : size b.p a.p ≠ 0 := fun h0 => hab (size_zero.mp h0).symm
                exact_mod_cast h2
              have hp := pieces_same hc hw
              rw [h7 hk1, pieceLength_one hp, hp]
              push_cast
              rw [one_mul, div_self hl]
        | succ i =>
          rw [List.getElem?_cons_succ] at hp
          have := g6 i part hp
          rw [show k + 1 - 1 + i = k - 1 + (i + 1) by omega] at this
          simpa [List.length_cons] using this
      · rw [hsum, hrun]; omega
      · intro h
        rw [hsum, hrun]
        have h8 := g8 h
        rcases hstop with hk1 | hst
        · have := h7 hk1; omega
        · rw [hst] at g1
          simp only [Option.some.injEq, Prod.mk.injEq] at g1
          have := h7 (g1.2 ▸ h)
          omega
    · rw [if_neg hkeep]
      have hnn : 0 ≤ ((List.range (left + 1)).map fun i => run c js start (k - 1 + i)).sum := by
        apply List.sum_nonneg
        intro x hx
        obtain ⟨i, -, rfl⟩ := List.mem_map.mp hx
        exact run_nonneg hc _ _ _
      exact ⟨[], st, rfl, .nil _, hok, by simp, fun h => absurd h hkeep, by simp, fun _ => rfl, by omega, fun h => absurd h hkeep⟩

end Verif.Scarf
