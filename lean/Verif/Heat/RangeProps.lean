import Verif.Heat.BufferProps
import Verif.Heat.PreheatProps

/-! # C55: temperature commands stay in the configured range -/

namespace Verif.Heat

/-- The temperatures configured for each extruder are between `lo` and `hi`; the standby temperature is the lowest
of them; zero means "not used" for the initial, the final and the first layer's temperature. Extruders that share a heater have the same
range. Heating and cooling speeds are positive. -/
structure Ranges (cfg : Nat → ExtSettings) (lo hi : Nat → ℚ) : Prop where
  pos : ∀ e, 0 < lo e
  standby : ∀ e, lo e ≤ (cfg e).standby
  print : ∀ e, (cfg e).standby ≤ (cfg e).printTemp ∧ (cfg e).printTemp ≤ hi e
  print0 : ∀ e, (cfg e).printTemp0 ≠ 0 → (cfg e).standby ≤ (cfg e).printTemp0 ∧ (cfg e).printTemp0 ≤ hi e
  initial : ∀ e, (cfg e).initialTemp ≠ 0 → (cfg e).standby ≤ (cfg e).initialTemp ∧ (cfg e).initialTemp ≤ hi e
  final : ∀ e, (cfg e).final ≠ 0 → lo e ≤ (cfg e).final ∧ (cfg e).final ≤ hi e
  coolMin : ∀ e, (cfg e).standby ≤ (cfg e).coolMin ∧ (cfg e).coolMin ≤ hi e
  share : ∀ e e', (cfg e).shareHeater = true → lo e = lo e' ∧ hi e = hi e'
  heat : ∀ e, 0 < (cfg e).speeds.heat
  cool : ∀ e, 0 < (cfg e).speeds.cool

/-- A temperature is in the range of an extruder. -/
def In (lo hi : Nat → ℚ) (e : Nat) (t : ℚ) : Prop := lo e ≤ t ∧ t ≤ hi e

/-- The commands of a plan are in the range of their extruder, up to the differences of the paths. -/
def GoodPlan (lo hi : Nat → ℚ) (down up : ℚ) (p : EPlan) : Prop :=
  (∀ i ∈ p.inserts, lo i.ext - down ≤ i.temp ∧ i.temp ≤ hi i.ext + up) ∧
  (∀ t ∈ p.extrusionTemp, In lo hi p.ext t) ∧ 0 ≤ p.time

variable {cfg : Nat → ExtSettings} {lo hi : Nat → ℚ} {down up : ℚ}

theorem GoodPlan.insert {p : EPlan} (h : GoodPlan lo hi down up p) {path ext : Nat} {temp after : ℚ}
    (ht : lo ext - down ≤ temp ∧ temp ≤ hi ext + up) : GoodPlan lo hi down up (p.insert path ext temp after) := by
  refine ⟨?_, h.2⟩
  intro i hi'
  rcases List.mem_append.1 hi' with hi' | hi'
  · exact h.1 i hi'
  · rw [List.mem_singleton.1 hi']; exact ht

theorem widen {e : Nat} {t : ℚ} (hd : 0 ≤ down) (hu : 0 ≤ up) (h : In lo hi e t) :
    lo e - down ≤ t ∧ t ≤ hi e + up := ⟨by linarith [h.1], by linarith [h.2]⟩

theorem GoodPlan.single {p : EPlan} (h : GoodPlan lo hi down up p) {s : ExtSettings} {ext : Nat} {temp : ℚ}
    (ht : lo ext - down ≤ temp ∧ temp ≤ hi ext + up) : GoodPlan lo hi down up (p.single s ext temp) := by
  unfold EPlan.single
  split_ifs
  · exact h.insert ht
  · exact h

/-- All plans are good. -/
def GoodPlans (lo hi : Nat → ℚ) (down up : ℚ) (plans : List EPlan) : Prop := ∀ p ∈ plans, GoodPlan lo hi down up p

theorem GoodPlans.modify {plans : List EPlan} (h : GoodPlans lo hi down up plans) (k : Nat) (f : EPlan → EPlan)
    (hf : ∀ p, GoodPlan lo hi down up p → GoodPlan lo hi down up (f p)) : GoodPlans lo hi down up (setPlan plans k f) := by
  intro p hp
  unfold setPlan at hp
  rw [List.mem_iff_getElem?] at hp
  obtain ⟨i, hi'⟩ := hp
  rw [List.getElem?_modify] at hi'
  by_cases hik : k = i
  · simp only [hik, if_true] at hi'
    obtain ⟨q, hq, rfl⟩ := Option.map_eq_some_iff.1 hi'
    exact hf q (h q (List.mem_of_getElem? hq))
  · simp only [hik, if_false, id_eq, Option.map_id'] at hi'
    exact h p (List.mem_of_getElem? (by simpa using hi'))

theorem GoodPlans.set {plans : List EPlan} (h : GoodPlans lo hi down up plans) {k : Nat} {q : EPlan}
    (hq : GoodPlan lo hi down up q) : GoodPlans lo hi down up (plans.set k q) := by
  intro p hp
  rcases List.mem_or_eq_of_mem_set hp with hp | rfl
  · exact h p hp
  · exact hq

theorem GoodPlans.handleStandby {plans : List EPlan} (h : GoodPlans lo hi down up plans) {idx ext : Nat} {temp : ℚ}
    (ht : lo ext - down ≤ temp ∧ temp ≤ hi ext + up) :
    GoodPlans lo hi down up (handleStandby plans idx ext temp) := by
  unfold Heat.handleStandby
  split
  · exact h.modify _ _ fun p hp => hp
  · exact h.modify _ _ fun p hp => hp.insert ht

theorem GoodPlans.placePreheat {plans : List EPlan} (h : GoodPlans lo hi down up plans) {ext : Nat} {temp : ℚ}
    (ht : lo ext - down ≤ temp ∧ temp ≤ hi ext + up) : ∀ (k : Nat) (t : ℚ),
    GoodPlans lo hi down up (placePreheat ext temp plans k t)
  | 0, _ => by
    unfold Heat.placePreheat
    exact h.modify _ _ fun p hp => hp.insert ht
  | k + 1, t => by
    unfold Heat.placePreheat
    cases plans[k]? with
    | none => exact h
    | some p =>
      dsimp only
      split_ifs
      · exact h.modify _ _ fun p hp => hp.insert ht
      · exact h.placePreheat ht k _

theorem warmUp_turn {s : Speeds} {l h window start mid stop : ℚ}
    (hs : l ≤ start ∧ start ≤ h) (hm : l ≤ mid ∧ mid ≤ h) (he : l ≤ stop ∧ stop ≤ h) :
    l ≤ (warmUp s window start mid stop false).turn ∧ (warmUp s window start mid stop false).turn ≤ h := by
  have key : ∀ w extra limited outer, 0 ≤ extra →
      l ≤ (warmUpWithin s false w extra limited outer mid stop).turn ∧
      (warmUpWithin s false w extra limited outer mid stop).turn ≤ h := by
    intro w extra limited outer hx
    unfold warmUpWithin
    dsimp only
    split_ifs
    · exact hm
    · dsimp only
      refine ⟨le_trans hm.1 (le_max_left _ _), max_le hm.2 ?_⟩
      have h0 : ∀ x, 0 ≤ duration x := by
        intro x; unfold duration; split_ifs with hx
        · exact le_of_lt hx
        · exact le_rfl
      have : 0 ≤ (extra + duration (duration (limited * duration (1 / s.up false)) /
          duration (duration (1 / s.down false) + duration (1 / s.up false)))) / duration (1 / s.up false) :=
        div_nonneg (add_nonneg hx (h0 _)) (h0 _)
      linarith [he.2]
  have h0 : ∀ x, 0 ≤ duration x := by
    intro x; unfold duration; split_ifs with hx
    · exact le_of_lt hx
    · exact le_rfl
  unfold warmUp
  dsimp only
  by_cases hc : start < stop
  · simp only [if_pos hc]
    split_ifs
    · exact ⟨le_min hs.1 he.1, le_trans (min_le_left _ _) hs.2⟩
    · exact key _ _ _ _ (h0 _)
  · simp only [if_neg hc]
    split_ifs
    · exact ⟨le_min hs.1 he.1, le_trans (min_le_left _ _) hs.2⟩
    · exact key _ _ _ _ le_rfl

theorem standbyPlan_turn (hr : Ranges cfg lo hi) {e : Nat} {initial : ℚ}
    (hi1 : (cfg e).standby ≤ initial) (hi2 : initial ≤ hi e) : ∀ (before : List EPlan) (idle : ℚ),
    GoodPlans lo hi down up before → 0 ≤ idle →
    In lo hi e (standbyPlan (cfg e) e initial before idle).turn
  | [], idle, _, h0 => by
    unfold standbyPlan
    have hin : In lo hi e (cfg e).standby := ⟨hr.standby e, le_trans hi1 hi2⟩
    dsimp only
    split_ifs with hc
    · rw [timeUp (s := (cfg e).speeds) (printing := false) (by unfold Speeds.up; simpa using hr.heat e) hi1] at hc
      have : idle * (cfg e).speeds.heat < initial - (cfg e).standby := by
        have := hr.heat e
        unfold Speeds.up at hc
        simp only [Bool.false_eq_true, if_false] at hc
        exact (lt_div_iff₀ this).1 hc
      have h1 : 0 ≤ idle * (cfg e).speeds.heat := mul_nonneg h0 (hr.heat e).le
      exact ⟨by dsimp only; linarith [hr.standby e], by dsimp only; linarith⟩
    · exact hin
  | b :: earlier, idle, hb, h0 => by
    unfold standbyPlan
    have hg := hb b (by simp)
    by_cases he : b.ext = e
    · rw [if_pos he]
      dsimp only
      have hinit : In lo hi e initial := ⟨le_trans (hr.standby e) hi1, hi2⟩
      refine warmUp_turn ?_ ⟨hr.standby e, le_trans hi1 hi2⟩ hinit
      split_ifs with hf
      · cases hx : b.extrusionTemp with
        | none => exact hinit
        | some t => have := hg.2.1 t (by simp [hx]); rw [he] at this; exact this
      · exact hr.final e hf
    · rw [if_neg he]
      exact standbyPlan_turn hr hi1 hi2 earlier _ (fun p hp => hb p (by simp [hp])) (by linarith [hg.2.2])

theorem GoodPlans.multi (hr : Ranges cfg lo hi) (hd : 0 ≤ down) (hu : 0 ≤ up) {plans : List EPlan}
    (h : GoodPlans lo hi down up plans) {idx : Nat} {p : EPlan} (h1 : (cfg p.ext).standby ≤ p.required)
    (h2 : p.required ≤ hi p.ext) : GoodPlans lo hi down up (multi (cfg p.ext) plans idx p) := by
  have hreq : In lo hi p.ext p.required := ⟨le_trans (hr.standby _) h1, h2⟩
  unfold Heat.multi
  dsimp only
  by_cases hen : (cfg p.ext).enabled = true
  · rw [if_pos hen]
    have hbefore : GoodPlans lo hi down up (plansBefore plans idx) := by
      intro q hq
      unfold plansBefore at hq
      exact h q (List.mem_of_mem_take (List.mem_reverse.1 hq))
    have hturn := standbyPlan_turn (down := down) (up := up) hr h1 h2 _ 0 hbefore le_rfl
    by_cases hw : (standbyPlan (cfg p.ext) p.ext p.required (plansBefore plans idx) 0).window < (cfg p.ext).minWindow
    · rw [if_pos hw]; exact h.handleStandby (widen hd hu hreq)
    · rw [if_neg hw]
      refine GoodPlans.placePreheat ?_ (widen hd hu hreq) _ _
      split_ifs
      · exact h.handleStandby (widen hd hu hturn)
      · exact h
  · rw [if_neg hen]; exact h

theorem GoodPlan.eraseCmd {p q : EPlan} (h : GoodPlan lo hi down up p) (he : p.eraseCmd = .ok q) :
    GoodPlan lo hi down up q := by
  unfold EPlan.eraseCmd at he
  cases hc : p.cmd with
  | none => rw [hc] at he; cases he; exact h
  | some id =>
    rw [hc] at he
    dsimp only at he
    split_ifs at he
    cases he
    exact ⟨fun i hi' => h.1 i (List.mem_of_mem_filter hi'), h.2⟩

theorem GoodPlan.rememberLast {p q : EPlan} (h : GoodPlan lo hi down up p) (he : p.rememberLast = .ok q) :
    GoodPlan lo hi down up q := by
  unfold EPlan.rememberLast at he
  cases hc : p.inserts.getLast? with
  | none => rw [hc] at he; cases he
  | some i => rw [hc] at he; cases he; exact h

theorem GoodPlans.findPrecool : ∀ (k : Nat) (plans : List EPlan) (found : Nat) (t : ℚ) (r : List EPlan × Nat × ℚ),
    GoodPlans lo hi down up plans → findPrecool plans k found t = .ok r → GoodPlans lo hi down up r.1
  | 0, plans, found, t, r, hg, h => by
    unfold Heat.findPrecool at h; cases h; exact hg
  | k + 1, plans, found, t, r, hg, h => by
    unfold Heat.findPrecool at h
    obtain ⟨p, hp, h⟩ := bind_eq_ok.1 h
    obtain ⟨q, hq, h⟩ := bind_eq_ok.1 h
    have hg' : GoodPlans lo hi down up (plans.set k q) :=
      hg.set ((hg p (List.mem_of_getElem? (index_ok hp))).eraseCmd hq)
    by_cases hc : t < q.time
    · rw [if_pos hc] at h
      cases h
      exact hg'
    · rw [if_neg hc] at h
      exact GoodPlans.findPrecool k _ _ _ _ hg' h

theorem GoodPlans.finalPrint (hr : Ranges cfg lo hi) (hd : 0 ≤ down) (hu : 0 ≤ up) {e : Nat} {plans r : List EPlan}
    {last : Nat} (hg : GoodPlans lo hi down up plans) (hlast : extOf plans last = some e)
    (h : finalPrint (cfg e) plans last = .ok r) : GoodPlans lo hi down up r := by
  unfold Heat.finalPrint at h
  obtain ⟨lp, hlp, h⟩ := bind_eq_ok.1 h
  have hext : lp.ext = e := by
    unfold extOf at hlast
    rw [index_ok hlp] at hlast
    simpa using hlast
  by_cases h1 : (cfg e).enabled = false
  · rw [if_pos h1] at h; cases h; exact hg
  rw [if_neg h1] at h
  by_cases h2 : (cfg e).final = 0
  · rw [if_pos h2] at h; cases h; exact hg
  rw [if_neg h2] at h
  dsimp only at h
  by_cases h3 : (statistics lp.ext (plansBefore plans (last + 1)) (0, 0, none, -1)).1 ≤ 0
  · rw [if_pos h3] at h; cases h; exact hg
  rw [if_neg h3] at h
  cases h4 : (statistics lp.ext (plansBefore plans (last + 1)) (0, 0, none, -1)).2.2.1 with
  | none => rw [h4] at h; cases h; exact hg
  | some first =>
    rw [h4] at h
    dsimp only at h
    obtain ⟨r', hr', h⟩ := bind_eq_ok.1 h
    obtain ⟨plans', k, t⟩ := r'
    cases h
    refine GoodPlans.modify (GoodPlans.findPrecool _ _ _ _ _ hg hr') _ _ fun p hp => hp.insert ?_
    rw [hext]
    exact widen hd hu (hr.final e h2)

theorem extOf_bases {a b : List EPlan} (h : bases a = bases b) (k : Nat) : extOf a k = extOf b k := by
  have := congrArg (fun l => (l[k]?).map EPlan.ext) h
  simpa [bases, extOf, EPlan.base, Function.comp_def] using this

/-- The plan with this number has been given its temperatures. -/
def Ready (cfg : Nat → ExtSettings) (hi : Nat → ℚ) (p : EPlan) : Prop :=
  (cfg p.ext).standby ≤ p.required ∧ p.required ≤ hi p.ext

theorem GoodPlans.insertTemp (hr : Ranges cfg lo hi) (hd : 0 ≤ down) (hu : 0 ≤ up) {plans r : List EPlan} {idx : Nat}
    (hg : GoodPlans lo hi down up plans) (hready : ∀ p, plans[idx]? = some p → Ready cfg hi p)
    (h : insertTemp cfg plans idx = .ok r) : GoodPlans lo hi down up r := by
  unfold Heat.insertTemp at h
  obtain ⟨p, hp, h⟩ := bind_eq_ok.1 h
  obtain ⟨q1, q2⟩ := hready p (index_ok hp)
  have hreq : In lo hi p.ext p.required := ⟨le_trans (hr.standby _) q1, q2⟩
  by_cases h0 : idx = 0
  · rw [if_pos h0] at h; cases h
  rw [if_neg h0] at h
  obtain ⟨prev, hprev, h⟩ := bind_eq_ok.1 h
  have hgprev := hg prev (List.mem_of_getElem? (index_ok hprev))
  by_cases h1 : prev.ext = p.ext
  · rw [if_pos h1] at h
    obtain ⟨q, hq, h⟩ := bind_eq_ok.1 h
    cases h
    exact hg.set ((hgprev.single (widen hd hu hreq)).rememberLast hq)
  · rw [if_neg h1] at h
    dsimp only at h
    have hg1 : GoodPlans lo hi down up (setPlan plans idx fun p => { p with standby := some (cfg prev.ext).standby }) :=
      hg.modify _ _ fun p hp => hp
    by_cases h2 : (cfg p.ext).shareHeater = true
    · rw [if_pos h2] at h
      cases h
      refine hg1.modify _ _ fun q hq => hq.single ?_
      obtain ⟨e1, e2⟩ := hr.share p.ext prev.ext h2
      rw [← e1, ← e2]
      exact widen hd hu hreq
    · rw [if_neg h2] at h
      obtain ⟨q, hq, h⟩ := bind_eq_ok.1 h
      cases h
      have hg2 := hg1.multi hr hd hu (idx := idx) q1 q2
      have hb := bases_multi (cfg p.ext) (setPlan plans idx fun p =>
        { p with standby := some (cfg prev.ext).standby }) idx p
      rw [bases_setPlan _ (fun p => base_standby p _)] at hb
      have hext : extOf (Heat.multi (cfg p.ext) (setPlan plans idx fun p =>
          { p with standby := some (cfg prev.ext).standby }) idx p) (idx - 1) = some prev.ext := by
        rw [extOf_bases hb]
        unfold extOf
        rw [index_ok hprev]
        rfl
      refine GoodPlans.modify (GoodPlans.finalPrint hr hd hu hg2 hext hq) _ _ fun q hq => ?_
      unfold EPlan.printTemp
      cases hx : q.extrusionTemp with
      | none => exact hq
      | some t =>
        dsimp only
        split_ifs
        · have := hq.insert (path := (firstExtrusion q.paths).1) (after := 0)
            (widen hd hu (hq.2.1 t (by simp [hx])))
          exact ⟨this.1, this.2⟩
        · exact ⟨hq.1, hx ▸ hq.2.1, hq.2.2⟩
        · exact hq

/-! ## The temperatures of a plan -/

theorem temps_spec (hr : Ranges cfg lo hi) {p : EPlan} (hf : 0 ≤ p.factor ∧ p.factor ≤ 1) :
    ((cfg p.ext).standby ≤ (temps (cfg p.ext) p).1 ∧ (temps (cfg p.ext) p).1 ≤ hi p.ext) ∧
    ((temps (cfg p.ext) p).2 ≠ 0 →
      (cfg p.ext).standby ≤ (temps (cfg p.ext) p).2 ∧ (temps (cfg p.ext) p).2 ≤ hi p.ext) := by
  have ht : (cfg p.ext).standby ≤ (cfg p.ext).temp p.initial ∧ (cfg p.ext).temp p.initial ≤ hi p.ext := by
    unfold ExtSettings.temp
    split_ifs with hc
    · refine hr.print0 _ ?_
      simp at hc
      exact hc.2
    · exact hr.print _
  have hc := hr.coolMin p.ext
  unfold temps
  by_cases h : p.factor > 0
  · rw [if_pos h]
    dsimp only
    have h1 : (cfg p.ext).standby ≤ (cfg p.ext).temp p.initial * (1 - p.factor) + p.factor * (cfg p.ext).coolMin := by
      nlinarith [hf.1, hf.2, mul_le_mul_of_nonneg_right ht.1 (by linarith [hf.2] : 0 ≤ 1 - p.factor),
        mul_le_mul_of_nonneg_left hc.1 hf.1]
    have h2 : (cfg p.ext).temp p.initial * (1 - p.factor) + p.factor * (cfg p.ext).coolMin ≤ hi p.ext := by
      nlinarith [hf.1, hf.2, mul_le_mul_of_nonneg_right ht.2 (by linarith [hf.2] : 0 ≤ 1 - p.factor),
        mul_le_mul_of_nonneg_left hc.2 hf.1]
    refine ⟨⟨h1, h2⟩, fun hne => ?_⟩
    by_cases h0 : (cfg p.ext).initialTemp = 0
    · exfalso
      apply hne
      rw [h0, min_eq_left]
      exact le_trans (le_trans (hr.pos _).le (hr.standby _)) h1
    · obtain ⟨i1, i2⟩ := hr.initial _ h0
      exact ⟨le_min i1 h1, le_trans (min_le_left _ _) i2⟩
  · rw [if_neg h]
    exact ⟨ht, fun hne => hr.initial _ hne⟩

theorem setTemps_spec (hr : Ranges cfg lo hi) {p : EPlan} (hg : GoodPlan lo hi down up p)
    (hf : 0 ≤ p.factor ∧ p.factor ≤ 1) (u : Bool) (prev : Option EPlan) :
    GoodPlan lo hi down up (setTemps (cfg p.ext) u p prev) ∧ Ready cfg hi (setTemps (cfg p.ext) u p prev) := by
  obtain ⟨h1, h2⟩ := temps_spec hr hf
  unfold setTemps
  by_cases hc : startsAtPrint (cfg p.ext) u p prev = true
  · rw [if_pos hc]
    exact ⟨hg, h1⟩
  · rw [if_neg hc]
    refine ⟨⟨hg.1, ?_, hg.2.2⟩, h2 ?_⟩
    · intro t ht
      simp only [Option.mem_def, Option.some.injEq] at ht
      rw [← ht]
      exact ⟨le_trans (hr.standby _) h1.1, h1.2⟩
    · intro h0
      apply hc
      unfold startsAtPrint
      simp [h0]

/-- A plan with the temperatures it has been given, but without commands. -/
def EPlan.core (p : EPlan) : EPlan := { p.base with required := p.required, extrusionTemp := p.extrusionTemp }

/-- The plans with their temperatures, but without commands. -/
def cores (plans : List EPlan) : List EPlan := plans.map EPlan.core

theorem cores_setPlan (f : EPlan → EPlan) (hf : ∀ p, (f p).core = p.core) (plans : List EPlan) (k : Nat) :
    cores (setPlan plans k f) = cores plans := by
  unfold cores setPlan
  apply List.ext_getElem?
  intro i
  rw [List.getElem?_map, List.getElem?_map, List.getElem?_modify]
  by_cases h : k = i
  · simp only [h, if_true]
    cases plans[i]? with
    | none => rfl
    | some p => simp [hf]
  · simp [h]

theorem cores_set {plans : List EPlan} {k : Nat} {p q : EPlan} (hp : plans[k]? = some p) (h : q.core = p.core) :
    cores (plans.set k q) = cores plans := by
  obtain ⟨hk, rfl⟩ := List.getElem?_eq_some_iff.1 hp
  unfold cores
  rw [List.map_set, h]
  apply List.ext_getElem
  · simp
  · intro i h1 h2
    rw [List.getElem_set]
    split_ifs with hi
    · subst hi; simp
    · rfl

theorem core_single (s : ExtSettings) (p : EPlan) (ext : Nat) (temp : ℚ) : (p.single s ext temp).core = p.core := by
  unfold EPlan.single; split_ifs <;> rfl

theorem core_insert (p : EPlan) (path ext : Nat) (temp after : ℚ) : (p.insert path ext temp after).core = p.core := rfl

theorem core_standby (p : EPlan) (t : Option ℚ) : ({ p with standby := t } : EPlan).core = p.core := rfl

theorem cores_handleStandby (plans : List EPlan) (idx ext : Nat) (temp : ℚ) :
    cores (handleStandby plans idx ext temp) = cores plans := by
  unfold handleStandby
  split
  · exact cores_setPlan _ (fun p => core_standby p _) _ _
  · exact cores_setPlan _ (fun p => core_insert p _ _ _ _) _ _

theorem cores_placePreheat (ext : Nat) (temp : ℚ) (plans : List EPlan) : ∀ (k : Nat) (t : ℚ),
    cores (placePreheat ext temp plans k t) = cores plans
  | 0, _ => cores_setPlan _ (fun p => core_insert p _ _ _ _) _ _
  | k + 1, t => by
    unfold placePreheat
    cases plans[k]? with
    | none => rfl
    | some p =>
      dsimp only
      split_ifs
      · exact cores_setPlan _ (fun p => core_insert p _ _ _ _) _ _
      · exact cores_placePreheat ext temp plans k _

theorem cores_multi (s : ExtSettings) (plans : List EPlan) (idx : Nat) (p : EPlan) :
    cores (multi s plans idx p) = cores plans := by
  unfold multi
  dsimp only
  by_cases h : s.enabled = true
  · rw [if_pos h]
    by_cases h1 : (standbyPlan s p.ext p.required (plansBefore plans idx) 0).window < s.minWindow
    · rw [if_pos h1]; exact cores_handleStandby _ _ _ _
    · rw [if_neg h1, cores_placePreheat]
      split_ifs
      · exact cores_handleStandby _ _ _ _
      · rfl
  · rw [if_neg h]

theorem core_eraseCmd {p q : EPlan} (h : p.eraseCmd = .ok q) : q.core = p.core := by
  unfold EPlan.eraseCmd at h
  cases hc : p.cmd with
  | none => rw [hc] at h; cases h; rfl
  | some id =>
    rw [hc] at h
    dsimp only at h
    split_ifs at h
    · cases h; rfl

theorem core_rememberLast {p q : EPlan} (h : p.rememberLast = .ok q) : q.core = p.core := by
  unfold EPlan.rememberLast at h
  cases hc : p.inserts.getLast? with
  | none => rw [hc] at h; cases h
  | some i => rw [hc] at h; cases h; rfl

theorem cores_findPrecool : ∀ (k : Nat) (plans : List EPlan) (found : Nat) (t : ℚ) (r : List EPlan × Nat × ℚ),
    findPrecool plans k found t = .ok r → cores r.1 = cores plans
  | 0, plans, found, t, r, h => by
    unfold findPrecool at h; cases h; rfl
  | k + 1, plans, found, t, r, h => by
    unfold findPrecool at h
    obtain ⟨p, hp, h⟩ := bind_eq_ok.1 h
    obtain ⟨q, hq, h⟩ := bind_eq_ok.1 h
    have hb := cores_set (index_ok hp) (core_eraseCmd hq)
    by_cases hc : t < q.time
    · rw [if_pos hc] at h
      cases h
      exact hb
    · rw [if_neg hc] at h
      rw [cores_findPrecool k _ _ _ _ h, hb]

theorem cores_finalPrint {s : ExtSettings} {plans r : List EPlan} {last : Nat}
    (h : finalPrint s plans last = .ok r) : cores r = cores plans := by
  unfold finalPrint at h
  obtain ⟨lp, hlp, h⟩ := bind_eq_ok.1 h
  by_cases h1 : s.enabled = false
  · rw [if_pos h1] at h; cases h; rfl
  rw [if_neg h1] at h
  by_cases h2 : s.final = 0
  · rw [if_pos h2] at h; cases h; rfl
  rw [if_neg h2] at h
  dsimp only at h
  by_cases h3 : (statistics lp.ext (plansBefore plans (last + 1)) (0, 0, none, -1)).1 ≤ 0
  · rw [if_pos h3] at h; cases h; rfl
  rw [if_neg h3] at h
  cases h4 : (statistics lp.ext (plansBefore plans (last + 1)) (0, 0, none, -1)).2.2.1 with
  | none => rw [h4] at h; cases h; rfl
  | some first =>
    rw [h4] at h
    dsimp only at h
    obtain ⟨r', hr', h⟩ := bind_eq_ok.1 h
    obtain ⟨plans', k, t⟩ := r'
    cases h
    rw [cores_setPlan _ (fun p => core_insert p _ _ _ _)]
    exact cores_findPrecool _ _ _ _ _ hr'

theorem core_printTemp (s : ExtSettings) (p : EPlan) : (p.printTemp s).core = p.core := by
  unfold EPlan.printTemp
  cases hx : p.extrusionTemp with
  | none => rfl
  | some t => dsimp only; split_ifs <;> simp [EPlan.core, EPlan.base, EPlan.insert, hx]

theorem cores_insertTemp {cfg : Nat → ExtSettings} {plans r : List EPlan} {idx : Nat}
    (h : insertTemp cfg plans idx = .ok r) : cores r = cores plans := by
  unfold insertTemp at h
  obtain ⟨p, hp, h⟩ := bind_eq_ok.1 h
  by_cases h0 : idx = 0
  · rw [if_pos h0] at h; cases h
  rw [if_neg h0] at h
  obtain ⟨prev, hprev, h⟩ := bind_eq_ok.1 h
  by_cases h1 : prev.ext = p.ext
  · rw [if_pos h1] at h
    obtain ⟨q, hq, h⟩ := bind_eq_ok.1 h
    cases h
    refine cores_set (index_ok hprev) ?_
    rw [core_rememberLast hq, core_single]
  · rw [if_neg h1] at h
    dsimp only at h
    by_cases h2 : (cfg p.ext).shareHeater = true
    · rw [if_pos h2] at h
      cases h
      rw [cores_setPlan _ (fun _ => core_single _ _ _ _), cores_setPlan _ (fun p => core_standby p _)]
    · rw [if_neg h2] at h
      obtain ⟨q, hq, h⟩ := bind_eq_ok.1 h
      cases h
      rw [cores_setPlan _ (fun _ => core_printTemp _ _), cores_finalPrint hq, cores_multi,
        cores_setPlan _ (fun p => core_standby p _)]

/-! ## The whole buffer -/

/-- What is assumed about the plans: temperature factors between 0 and 1, times that are not negative, and
differences of the paths between `-down` and `up`. -/
def Sane (down up : ℚ) (p : EPlan) : Prop :=
  0 ≤ p.factor ∧ p.factor ≤ 1 ∧ 0 ≤ p.time ∧ ∀ x ∈ p.paths, -down ≤ x.delta ∧ x.delta ≤ up

theorem Sane.of_base {p q : EPlan} (h : q.base = p.base) (hs : Sane down up p) : Sane down up q := by
  have h1 : q.factor = p.factor := by have := congrArg EPlan.factor h; exact this
  have h2 : q.time = p.time := by have := congrArg EPlan.time h; exact this
  have h3 : q.paths = p.paths := by have := congrArg EPlan.paths h; exact this
  unfold Sane
  rw [h1, h2, h3]
  exact hs

theorem sane_of_bases {a b : List EPlan} (h : bases b = bases a) (ha : ∀ p ∈ a, Sane down up p) :
    ∀ p ∈ b, Sane down up p := by
  intro p hp
  have : p.base ∈ bases a := by rw [← h]; exact List.mem_map_of_mem hp
  obtain ⟨p', hp', e⟩ := List.mem_map.1 this
  exact Sane.of_base e.symm (ha p' hp')

theorem core_at {a b : List EPlan} (h : cores a = cores b) {k : Nat} {p : EPlan} (hp : a[k]? = some p) :
    ∃ q, b[k]? = some q ∧ p.core = q.core := by
  have := congrArg (fun l => l[k]?) h
  simp only [cores, List.getElem?_map, hp, Option.map_some] at this
  obtain ⟨q, hq, e⟩ := Option.map_eq_some_iff.1 this.symm
  exact ⟨q, hq, e.symm⟩

theorem Ready.of_core {p q : EPlan} (h : p.core = q.core) (hq : Ready cfg hi q) : Ready cfg hi p := by
  have h1 : p.ext = q.ext := by have := congrArg EPlan.ext h; exact this
  have h2 : p.required = q.required := by have := congrArg EPlan.required h; exact this
  unfold Ready
  rw [h1, h2]
  exact hq

theorem tempsFor_range {job : Job} (hr : Ranges job.cfg lo hi) (hd : 0 ≤ down) (hu : 0 ≤ up) {first : Bool}
    {st r : List EPlan × (Nat → Bool) × List (Nat × ℚ)} {idx : Nat} (hg : GoodPlans lo hi down up st.1)
    (hs : ∀ p ∈ st.1, Sane down up p) (h : tempsFor job first st idx = .ok r) :
    GoodPlans lo hi down up r.1 ∧ (∀ p, r.1[idx]? = some p → Ready job.cfg hi p) ∧
      (∀ k p, k ≠ idx → r.1[k]? = some p → ∃ q, st.1[k]? = some q ∧ p.core = q.core) := by
  unfold tempsFor at h
  obtain ⟨p, hp, h⟩ := bind_eq_ok.1 h
  have hp' := index_ok hp
  have hmem := List.mem_of_getElem? hp'
  obtain ⟨hk, _⟩ := List.getElem?_eq_some_iff.1 hp'
  dsimp only at h
  generalize (if idx = 0 then none else st.1[idx - 1]?) = prev at h
  obtain ⟨g1, g2⟩ := setTemps_spec hr (hg p hmem) ⟨(hs p hmem).1, (hs p hmem).2.1⟩ (st.2.1 p.ext) prev
  generalize setTemps (job.cfg p.ext) (st.2.1 p.ext) p prev = q at *
  have other : ∀ (x : EPlan) k p, k ≠ idx → (st.1.set idx x)[k]? = some p → st.1[k]? = some p := by
    intro x k p hne hk'
    rwa [List.getElem?_set_ne (Ne.symm hne)] at hk'
  by_cases h1 : first = true
  · rw [if_pos h1] at h
    by_cases h2 : job.firstGroup = true
    · rw [if_pos h2] at h
      cases h
      refine ⟨hg.set g1, ?_, fun k p hne hk' => ⟨p, other _ k p hne hk', rfl⟩⟩
      intro p' hp''
      dsimp only at hp''
      rw [List.getElem?_set_self hk] at hp''
      cases hp''
      exact g2
    · rw [if_neg h2] at h
      cases h
      dsimp only
      rw [List.set_set]
      have hc : (laterStandby job q).core = q.core := by
        unfold laterStandby
        cases ((List.range job.extruders).filter (· ≠ q.ext)).getLast? <;> rfl
      refine ⟨hg.set ?_, ?_, fun k p hne hk' => ⟨p, other _ k p hne hk', rfl⟩⟩
      · unfold laterStandby
        cases ((List.range job.extruders).filter (· ≠ q.ext)).getLast? <;> exact g1
      · intro p' hp''
        rw [List.getElem?_set_self hk] at hp''
        cases hp''
        exact Ready.of_core hc g2
  · rw [if_neg h1] at h
    obtain ⟨plans, hq, h⟩ := bind_eq_ok.1 h
    cases h
    dsimp only
    have hcore := cores_insertTemp hq
    refine ⟨GoodPlans.insertTemp hr hd hu (hg.set g1) ?_ hq, ?_, ?_⟩
    · intro p' hp''
      rw [List.getElem?_set_self hk] at hp''
      cases hp''
      exact g2
    · intro p' hp''
      obtain ⟨x, hx, e⟩ := core_at hcore hp''
      rw [List.getElem?_set_self hk] at hx
      cases hx
      exact Ready.of_core e g2
    · intro k p' hne hk'
      obtain ⟨x, hx, e⟩ := core_at hcore hk'
      exact ⟨x, other _ k x hne hx, e⟩

theorem tempsForAll_range {job : Job} (hr : Ranges job.cfg lo hi) (hd : 0 ≤ down) (hu : 0 ≤ up) {only : Bool} :
    ∀ (l : List Nat) (isFirst : Bool) (st r : List EPlan × (Nat → Bool) × List (Nat × ℚ)),
      GoodPlans lo hi down up st.1 → (∀ p ∈ st.1, Sane down up p) → tempsForAll job only isFirst l st = .ok r →
      GoodPlans lo hi down up r.1 ∧
      (∀ k p, (k ∈ l ∨ ∀ q, st.1[k]? = some q → Ready job.cfg hi q) → r.1[k]? = some p → Ready job.cfg hi p)
  | [], _, st, r, hg, hs, h => by
    unfold tempsForAll at h
    cases h
    refine ⟨hg, ?_⟩
    intro k p hk hp
    exact (hk.resolve_left (by simp)) p hp
  | idx :: rest, isFirst, st, r, hg, hs, h => by
    unfold tempsForAll at h
    obtain ⟨st', h1, h⟩ := bind_eq_ok.1 h
    obtain ⟨g1, g2, g3⟩ := tempsFor_range hr hd hu hg hs h1
    obtain ⟨k1, k2⟩ := tempsForAll_range hr hd hu rest false st' r g1 (sane_of_bases (bases_tempsFor h1) hs) h
    refine ⟨k1, ?_⟩
    intro k p hk hp
    refine k2 k p ?_ hp
    by_cases hkr : k ∈ rest
    · exact Or.inl hkr
    · right
      intro q hq
      by_cases hki : k = idx
      · subst hki; exact g2 q hq
      · obtain ⟨x, hx, e⟩ := g3 k q hki hq
        refine Ready.of_core e ?_
        rcases hk with hk | hk
        · rcases List.mem_cons.1 hk with hk | hk
          · exact absurd hk hki
          · exact absurd hk hkr
        · exact hk x hx

theorem inLayerFrom_range (e : Nat) (normal : ℚ) (hn : In lo hi e normal) : ∀ (paths : List PathT) (i : Nat) (a : ℚ)
    (p : EPlan), p.ext = e → (∀ x ∈ paths, -down ≤ x.delta ∧ x.delta ≤ up) → GoodPlan lo hi down up p →
    GoodPlan lo hi down up (inLayerFrom normal paths i a p)
  | [], _, _, _, _, _, h => h
  | x :: rest, i, a, p, he, hx, h => by
    have hrest : ∀ y ∈ rest, -down ≤ y.delta ∧ y.delta ≤ up := fun y hy => hx y (by simp [hy])
    unfold inLayerFrom
    by_cases h1 : x.travel = true
    · rw [if_pos h1]; exact inLayerFrom_range e normal hn rest _ _ _ he hrest h
    · rw [if_neg h1]
      by_cases h2 : |normal + x.delta - a| ≤ 1 / 10
      · rw [if_pos h2]; exact inLayerFrom_range e normal hn rest _ _ _ he hrest h
      · rw [if_neg h2]
        refine inLayerFrom_range e normal hn rest _ _ _ he hrest (h.insert ?_)
        obtain ⟨d1, d2⟩ := hx x (by simp)
        rw [he]
        exact ⟨by linarith [hn.1], by linarith [hn.2]⟩

theorem mem_regroup : ∀ (layers : List Layer) (ps : List EPlan) (l : Layer), l ∈ regroup layers ps →
    ∀ p ∈ l.plans, p ∈ ps
  | [], _, _, h, _, _ => by simp [regroup] at h
  | a :: ls, ps, l, h, p, hp => by
    unfold regroup at h
    rcases List.mem_cons.1 h with rfl | h
    · exact List.mem_of_mem_take hp
    · exact List.mem_of_mem_drop (mem_regroup ls _ l h p hp)

/-- All plans of some layers are good and sane. -/
def GoodLayers (lo hi : Nat → ℚ) (down up : ℚ) (ls : List Layer) : Prop :=
  ∀ l ∈ ls, ∀ p ∈ l.plans, GoodPlan lo hi down up p ∧ Sane down up p

theorem insertAll_range {job : Job} (hr : Ranges job.cfg lo hi) (hd : 0 ≤ down) (hu : 0 ≤ up) {b r : Buf}
    (hb : GoodLayers lo hi down up b.layers) (h : insertAll job b = .ok r) : GoodLayers lo hi down up r.layers := by
  unfold insertAll at h
  cases hl : b.layers.getLast? with
  | none => rw [hl] at h; cases h
  | some l =>
    rw [hl] at h
    dsimp only at h
    by_cases h1 : l.empty = true
    · rw [if_pos h1] at h; cases h; exact hb
    · rw [if_neg h1] at h
      obtain ⟨st, hst, h⟩ := bind_eq_ok.1 h
      cases h
      have hall : ∀ p ∈ allPlans b.layers, GoodPlan lo hi down up p ∧ Sane down up p := by
        intro p hp
        obtain ⟨l', hl', hp'⟩ := List.mem_flatMap.1 hp
        exact hb l' hl' p hp'
      obtain ⟨g1, g2⟩ := tempsForAll_range hr hd hu _ _ _ _ (fun p hp => (hall p hp).1)
        (fun p hp => (hall p hp).2) hst
      have hbases := bases_tempsForAll _ _ _ _ hst
      have hsane := sane_of_bases (down := down) (up := up) hbases (fun p hp => (hall p hp).2)
      have hlen := bases_length hbases
      dsimp only at hlen g2
      intro l' hl' p hp
      have hp' := mem_regroup _ _ l' hl' p hp
      rcases List.mem_append.1 hp' with hp' | hp'
      · have := List.mem_of_mem_take hp'
        exact ⟨g1 p this, hsane p this⟩
      · obtain ⟨q, hq, rfl⟩ := List.mem_map.1 hp'
        have hqm := List.mem_of_mem_drop hq
        refine ⟨?_, Sane.of_base (base_inLayer q) (hsane q hqm)⟩
        obtain ⟨j, hj, hjq⟩ := List.mem_iff_getElem.1 hq
        rw [List.getElem_drop] at hjq
        rw [List.length_drop] at hj
        have hready : Ready job.cfg hi q := by
          refine g2 ((allPlans b.layers).length - l.plans.length + j) q (Or.inl ?_) ?_
          · refine List.mem_map.2 ⟨j, List.mem_range.2 ?_, rfl⟩
            have : l.plans.length ≤ (allPlans b.layers).length := by
              obtain ⟨ls, hls⟩ : ∃ ls, b.layers = ls ++ [l] := by
                obtain ⟨ls, hls⟩ := List.getLast?_eq_some_iff.1 hl
                exact ⟨ls, hls⟩
              rw [hls]; simp [allPlans]
            omega
          · rw [← hjq]
            exact List.getElem?_eq_getElem (by omega)
        unfold EPlan.inLayer
        refine inLayerFrom_range q.ext _ ?_ _ _ _ _ rfl (hsane q hqm).2.2.2 (g1 q hqm)
        cases hx : q.extrusionTemp with
        | none => exact ⟨le_trans (hr.standby _) hready.1, hready.2⟩
        | some t => exact (g1 q hqm).2.1 t (by simp [hx])

/-- What is assumed about the layers handed over, and about the two steps that are not modelled: plans come
without commands and temperatures, and the steps keep the commands and produce sane plans. -/
structure Fresh (job : Job) (down up : ℚ) (layers : List Layer) : Prop where
  fresh : ∀ l ∈ layers, ∀ p ∈ l.plans, p.inserts = [] ∧ p.extrusionTemp = none ∧ Sane down up p
  estimate : ∀ q l, ∀ p' ∈ (job.estimate q l).plans, ∃ p ∈ l.plans, p'.inserts = p.inserts ∧
    p'.extrusionTemp = p.extrusionTemp ∧ p'.ext = p.ext ∧ (Sane down up p → Sane down up p')
  connect : ∀ q l, ∀ p' ∈ (job.connect l q).plans, ∃ p ∈ l.plans, p'.inserts = p.inserts ∧
    p'.extrusionTemp = p.extrusionTemp ∧ p'.ext = p.ext ∧ (Sane down up p → Sane down up p')

theorem good_of_hook {ls : List EPlan} {p' : EPlan} (hex : ∃ p ∈ ls, p'.inserts = p.inserts ∧
    p'.extrusionTemp = p.extrusionTemp ∧ p'.ext = p.ext ∧ (Sane down up p → Sane down up p'))
    (h : ∀ p ∈ ls, GoodPlan lo hi down up p ∧ Sane down up p) : GoodPlan lo hi down up p' ∧ Sane down up p' := by
  obtain ⟨p, hp, e1, e2, e3, e4⟩ := hex
  obtain ⟨g, s⟩ := h p hp
  have s' := e4 s
  refine ⟨⟨?_, ?_, s'.2.2.1⟩, s'⟩
  · rw [e1]; exact g.1
  · rw [e2, e3]; exact g.2.1

theorem prepare_range {job : Job} {all : List Layer} (hf : Fresh job down up all) {ls : List Layer}
    (h : GoodLayers lo hi down up ls) : GoodLayers lo hi down up (prepare job ls) := by
  unfold prepare
  have hrev : ∀ l ∈ ls.reverse, ∀ p ∈ l.plans, GoodPlan lo hi down up p ∧ Sane down up p :=
    fun l hl => h l (List.mem_reverse.1 hl)
  generalize ls.reverse = r at *
  match r, hrev with
  | [], _ => intro l hl; simp at hl
  | [n], hrev =>
    intro l hl p hp
    simp only [List.mem_singleton] at hl
    subst hl
    exact good_of_hook (hf.estimate _ _ p hp) (hrev n (by simp))
  | n :: q :: earlier, hrev =>
    intro l hl p hp
    simp only [List.mem_reverse, List.mem_cons] at hl
    rcases hl with rfl | rfl | hl
    · exact good_of_hook (hf.estimate _ _ p hp) (hrev n (by simp))
    · exact good_of_hook (hf.connect _ _ p hp) (hrev q (by simp))
    · exact hrev l (by simp [hl]) p hp

theorem GoodLayers.append {a b : List Layer} (ha : GoodLayers lo hi down up a) (hb : GoodLayers lo hi down up b) :
    GoodLayers lo hi down up (a ++ b) := by
  intro l hl
  rcases List.mem_append.1 hl with hl | hl
  · exact ha l hl
  · exact hb l hl

theorem handleAll_range {job : Job} (hr : Ranges job.cfg lo hi) (hd : 0 ≤ down) (hu : 0 ≤ up) {all : List Layer}
    (hf : Fresh job down up all) : ∀ (ls : List Layer) (b r : Buf), (∀ l ∈ ls, l ∈ all) →
      GoodLayers lo hi down up b.layers → GoodLayers lo hi down up b.written → handleAll job ls b = .ok r →
      GoodLayers lo hi down up r.layers ∧ GoodLayers lo hi down up r.written
  | [], b, r, _, h1, h2, h => by
    unfold handleAll at h
    cases h
    exact ⟨h1, h2⟩
  | l :: ls, b, r, hls, h1, h2, h => by
    unfold handleAll at h
    obtain ⟨b1, hb1, h⟩ := bind_eq_ok.1 h
    unfold handle processBuffer at hb1
    obtain ⟨b2, hb2, hb1⟩ := bind_eq_ok.1 hb1
    have hl : GoodLayers lo hi down up [l] := by
      intro l' hl' p hp
      rw [List.mem_singleton.1 hl'] at hp
      obtain ⟨f1, f2, f3⟩ := hf.fresh l (hls l (by simp)) p hp
      refine ⟨⟨?_, ?_, f3.2.2.1⟩, f3⟩
      · rw [f1]; simp
      · rw [f2]; simp
    have g2 := insertAll_range hr hd hu (prepare_range hf (h1.append hl)) hb2
    have hw := (insertAll_base hb2).2
    dsimp only at hw
    have hls' : ∀ l' ∈ ls, l' ∈ all := fun l' h => hls l' (by simp [h])
    by_cases hc : b2.layers.length > bufferSize
    · rw [if_pos hc] at hb1
      cases hb1
      refine handleAll_range hr hd hu hf ls _ r hls' ?_ ?_ h
      · intro l' hl'
        exact g2 l' (List.mem_of_mem_tail hl')
      · refine GoodLayers.append (by rw [hw]; exact h2) ?_
        intro l' hl'
        exact g2 l' (List.mem_of_mem_take hl')
    · rw [if_neg hc] at hb1
      cases hb1
      exact handleAll_range hr hd hu hf ls _ r hls' g2 (by rw [hw]; exact h2) h

/-- **C55.** If the temperatures configured for each extruder are in a range, every temperature command in the
layers that are written is in the range of its extruder, widened by the temperature differences of the paths. -/
theorem C55_range {job : Job} (hr : Ranges job.cfg lo hi) (hd : 0 ≤ down) (hu : 0 ≤ up) (layers : List Layer)
    (hf : Fresh job down up layers) (b : Buf) (h : printGroup job layers = .ok b) :
    ∀ l ∈ b.written, ∀ p ∈ l.plans, ∀ i ∈ p.inserts, lo i.ext - down ≤ i.temp ∧ i.temp ≤ hi i.ext + up := by
  unfold printGroup at h
  obtain ⟨b1, h1, h⟩ := bind_eq_ok.1 h
  obtain ⟨g1, g2⟩ := handleAll_range hr hd hu hf layers {} b1 (fun _ h => h) (fun l h => by simp at h)
    (fun l h => by simp at h) h1
  unfold flush at h
  by_cases hc : b1.layers = []
  · rw [if_pos hc] at h
    cases h
    intro l hl p hp
    exact (g2 l hl p hp).1.1
  · rw [if_neg hc] at h
    obtain ⟨b2, h2, h⟩ := bind_eq_ok.1 h
    cases h
    have g3 := insertAll_range hr hd hu g1 h2
    have hw := (insertAll_base h2).2
    intro l hl p hp
    refine ((GoodLayers.append (by rw [hw]; exact g2) g3) l hl p hp).1.1

/-- The conditions are met by the job of the examples: the range is from 100 to 210 degrees. -/
example : Ranges demoCfg (fun _ => 100) (fun _ => 210) ∧
    Fresh demoJob 5 5 [⟨0, [demoPlan 0]⟩, ⟨1, [demoPlan 0, demoPlan 1]⟩] := by
  have hsane : ∀ e, Sane 5 5 (demoPlan e) := by
    intro e
    refine ⟨le_rfl, by norm_num [demoPlan], by norm_num [demoPlan], ?_⟩
    intro x hx
    simp only [demoPlan, List.mem_cons, List.not_mem_nil, or_false] at hx
    rcases hx with rfl | rfl <;> norm_num
  refine ⟨?_, ?_, ?_, ?_⟩
  · constructor <;> intro e <;> norm_num [demoCfg]
  · intro l hl p hp
    simp only [List.mem_cons, List.not_mem_nil, or_false] at hl
    rcases hl with rfl | rfl <;> simp only [List.mem_cons, List.not_mem_nil, or_false] at hp
    · subst hp; exact ⟨rfl, rfl, hsane 0⟩
    · rcases hp with rfl | rfl
      · exact ⟨rfl, rfl, hsane 0⟩
      · exact ⟨rfl, rfl, hsane 1⟩
  · intro q l p' hp'
    exact ⟨p', hp', rfl, rfl, rfl, fun h => h⟩
  · intro q l p' hp'
    exact ⟨p', hp', rfl, rfl, rfl, fun h => h⟩

/-- **C55** needs the standby temperature to be the lowest: if it is 200 degrees and the initial temperature 195, a
nozzle that heats with 10 degrees per second and was idle for 4 seconds is told to go to 155 degrees. -/
theorem C55_standby_counterexample :
    ∃ (s : ExtSettings) (idle : ℚ), s.standby = 200 ∧ s.initialTemp = 195 ∧ s.printTemp = 200 ∧
      (standbyPlan s 0 195 [] idle).turn = 155 :=
  ⟨{ final := 0, standby := 200, speeds := ⟨10, 1, 0⟩, initialTemp := 195, printTemp := 200, printTemp0 := 0,
     coolMin := 190 }, 4, by decide +kernel⟩

end Verif.Heat
