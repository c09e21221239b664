import Verif.Heat.BufferLemmas

/-! # C25: the layers are written once each, in order -/

namespace Verif.Heat

/-- Something about a layer that neither the temperature commands nor the two unmodelled steps change. -/
structure Stable {α : Type} (job : Job) (obs : Layer → α) : Prop where
  base : ∀ l, obs l.base = obs l
  estimate : ∀ p l, obs (job.estimate p l) = obs l
  connect : ∀ p n, obs (job.connect p n) = obs p

theorem map_obs_of_base {α : Type} {obs : Layer → α} (hb : ∀ l, obs l.base = obs l) {a b : List Layer}
    (h : a.map Layer.base = b.map Layer.base) : a.map obs = b.map obs := by
  have := congrArg (List.map obs) h
  simpa [List.map_map, Function.comp_def, hb] using this

theorem prepare_obs {α : Type} {job : Job} {obs : Layer → α} (hs : Stable job obs) (l : List Layer) :
    (prepare job l).map obs = l.map obs := by
  unfold prepare
  rw [← List.reverse_reverse l]
  generalize l.reverse = r
  rw [List.reverse_reverse]
  match r with
  | [] => rfl
  | [n] => simp [hs.estimate]
  | n :: p :: earlier => simp [hs.estimate, hs.connect]

theorem handle_spec {α : Type} {job : Job} {obs : Layer → α} (hs : Stable job obs) {b b' : Buf} {l : Layer}
    (h : handle job b l = .ok b') :
    (b'.written ++ b'.layers).map obs = (b.written ++ b.layers).map obs ++ [obs l] ∧
    b'.layers.length = min (b.layers.length + 1) (if b.layers.length + 1 > 5 then b.layers.length else 5) ∧
    (b'.written = b.written ∨ ∃ w, b'.written = b.written ++ [w]) := by
  unfold handle processBuffer at h
  obtain ⟨b1, h1, h⟩ := bind_eq_ok.1 h
  obtain ⟨e1, e2⟩ := insertAll_base h1
  dsimp only at e1 e2
  have e3 := map_obs_of_base hs.base e1
  rw [prepare_obs hs] at e3
  have hlen : b1.layers.length = b.layers.length + 1 := by
    have := congrArg List.length e3
    simpa using this
  by_cases hc : b1.layers.length > bufferSize
  · rw [if_pos hc] at h
    cases h
    dsimp only
    have hne : b1.layers ≠ [] := by
      intro hh; rw [hh] at hlen; simp at hlen
    obtain ⟨x, xs, hx⟩ := List.exists_cons_of_ne_nil hne
    refine ⟨?_, ?_, Or.inr ⟨x, by rw [hx, e2]; rfl⟩⟩
    · rw [e2, List.append_assoc, show b1.layers.take 1 ++ b1.layers.tail = b1.layers by rw [hx]; rfl,
        List.map_append, e3]
      simp
    · rw [List.length_tail, hlen]
      unfold bufferSize at hc
      rw [if_pos (by omega)]
      omega
  · rw [if_neg hc] at h
    cases h
    refine ⟨?_, ?_, Or.inl e2⟩
    · rw [e2, List.map_append, e3]; simp
    · rw [hlen]
      unfold bufferSize at hc
      rw [if_neg (by omega)]
      omega

theorem handleAll_spec {α : Type} {job : Job} {obs : Layer → α} (hs : Stable job obs) :
    ∀ (ls : List Layer) (b b' : Buf), b.layers.length ≤ 5 → handleAll job ls b = .ok b' →
      (b'.written ++ b'.layers).map obs = (b.written ++ b.layers).map obs ++ ls.map obs ∧
      b'.layers.length = min 5 (b.layers.length + ls.length)
  | [], b, b', hb, h => by
    unfold handleAll at h
    cases h
    simp
    omega
  | l :: ls, b, b', hb, h => by
    unfold handleAll at h
    obtain ⟨b1, h1, h⟩ := bind_eq_ok.1 h
    obtain ⟨e1, e2, _⟩ := handle_spec hs h1
    have hb1 : b1.layers.length = min 5 (b.layers.length + 1) := by
      rw [e2]; split_ifs <;> omega
    obtain ⟨e3, e4⟩ := handleAll_spec hs ls b1 b' (by omega) h
    refine ⟨by rw [e3, e1]; simp, ?_⟩
    rw [e4, hb1]
    simp only [List.length_cons]
    omega

/-- **C25.** Handing over layers: the layers written so far followed by the layers still held are the layers handed
over, each once and in their order; at most five layers are held back. -/
theorem C25_handle {α : Type} {job : Job} {obs : Layer → α} (hs : Stable job obs) (layers : List Layer) (b : Buf)
    (h : handleAll job layers {} = .ok b) :
    (b.written ++ b.layers).map obs = layers.map obs ∧ b.layers.length = min 5 layers.length := by
  obtain ⟨h1, h2⟩ := handleAll_spec hs layers {} b (by simp) h
  exact ⟨by simpa using h1, by simpa using h2⟩

/-- **C25.** Each time a layer is handed over at most one layer is written, and what has been written stays. -/
theorem C25_written {job : Job} {b b' : Buf} {l : Layer} (h : handle job b l = .ok b') :
    b'.written = b.written ∨ ∃ w, b'.written = b.written ++ [w] :=
  (handle_spec (obs := fun _ => ()) ⟨fun _ => rfl, fun _ _ => rfl, fun _ _ => rfl⟩ h).2.2

/-- **C25.** After flushing, exactly the layers handed over have been written, each once and in their order. -/
theorem C25_flush {α : Type} {job : Job} {obs : Layer → α} (hs : Stable job obs) (layers : List Layer) (b : Buf)
    (h : printGroup job layers = .ok b) : b.written.map obs = layers.map obs ∧ b.layers = [] := by
  unfold printGroup at h
  obtain ⟨b1, h1, h⟩ := bind_eq_ok.1 h
  obtain ⟨e1, _⟩ := C25_handle hs layers b1 h1
  unfold flush at h
  by_cases hc : b1.layers = []
  · rw [if_pos hc] at h
    cases h
    refine ⟨?_, hc⟩
    rw [hc] at e1
    simpa using e1
  · rw [if_neg hc] at h
    obtain ⟨b2, h2, h⟩ := bind_eq_ok.1 h
    cases h
    obtain ⟨e2, e3⟩ := insertAll_base h2
    refine ⟨?_, rfl⟩
    dsimp only
    rw [← e1, List.map_append, List.map_append, map_obs_of_base hs.base e2, e3]

/-! ## Absence of undefined behaviour -/

/-- No two of the plans use different extruders, unless the first one has no final print temperature or they
share a heater. -/
def NoPrecool (cfg : Nat → ExtSettings) (plans : List EPlan) : Prop :=
  ∀ p ∈ plans, ∀ q ∈ plans, p.ext ≠ q.ext → (cfg p.ext).final = 0 ∨ (cfg q.ext).shareHeater = true

theorem NoPrecool.of_bases {cfg : Nat → ExtSettings} {a b : List EPlan} (h : bases b = bases a)
    (ha : NoPrecool cfg a) : NoPrecool cfg b := by
  have key : ∀ p ∈ b, ∃ p' ∈ a, p'.ext = p.ext := by
    intro p hp
    have : p.base ∈ bases a := by rw [← h]; exact List.mem_map_of_mem hp
    obtain ⟨p', hp', e⟩ := List.mem_map.1 this
    exact ⟨p', hp', by have := congrArg EPlan.ext e; exact this⟩
  intro p hp q hq hne
  obtain ⟨p', hp', ep⟩ := key p hp
  obtain ⟨q', hq', eq⟩ := key q hq
  rw [← ep, ← eq] at hne ⊢
  exact ha p' hp' q' hq' hne

theorem index_of_lt {α : Type} {l : List α} {k : Nat} (h : k < l.length) : Outcome.index l k = .ok l[k] := by
  rw [Outcome.index_eq_ok]; exact List.getElem?_eq_getElem h

theorem insertTemp_ok {cfg : Nat → ExtSettings} (hen : ∀ e, (cfg e).enabled = true) {plans : List EPlan}
    (hp : NoPrecool cfg plans) {idx : Nat} (hi : idx < plans.length) (h0 : idx ≠ 0) :
    ∃ r, insertTemp cfg plans idx = .ok r := by
  unfold insertTemp
  rw [index_of_lt hi]
  rw [Outcome.bind_ok, if_neg h0, index_of_lt (by omega : idx - 1 < plans.length), Outcome.bind_ok]
  by_cases h1 : plans[idx - 1].ext = plans[idx].ext
  · rw [if_pos h1]
    have : ∃ q, (plans[idx - 1].single (cfg plans[idx].ext) plans[idx].ext plans[idx].required).rememberLast
        = .ok q := by
      unfold EPlan.single EPlan.rememberLast
      rw [if_pos (hen _)]
      unfold EPlan.insertPreheat EPlan.insert
      simp
    obtain ⟨q, hq⟩ := this
    rw [hq]
    exact ⟨_, rfl⟩
  · rw [if_neg h1]
    dsimp only
    by_cases h2 : (cfg plans[idx].ext).shareHeater = true
    · rw [if_pos h2]; exact ⟨_, rfl⟩
    · rw [if_neg h2]
      have hf : (cfg plans[idx - 1].ext).final = 0 :=
        (hp _ (List.getElem_mem _) _ (List.getElem_mem _) h1).resolve_right h2
      generalize hm : multi (cfg plans[idx].ext) (setPlan plans idx fun p =>
        { p with standby := some (cfg plans[idx - 1].ext).standby }) idx plans[idx] = m
      have hlen : m.length = plans.length := by
        apply bases_length
        rw [← hm, bases_multi, bases_setPlan _ (fun p => base_standby p _)]
      have : finalPrint (cfg plans[idx - 1].ext) m (idx - 1) = .ok m := by
        unfold finalPrint
        rw [index_of_lt (by omega : idx - 1 < m.length), Outcome.bind_ok]
        rw [if_neg (by rw [hen]; simp), if_pos hf]
        rfl
      rw [this]
      exact ⟨_, rfl⟩

theorem tempsFor_ok {job : Job} (hen : ∀ e, (job.cfg e).enabled = true) {first : Bool}
    {st : List EPlan × (Nat → Bool) × List (Nat × ℚ)} (hp : NoPrecool job.cfg st.1) {idx : Nat}
    (hi : idx < st.1.length) (h0 : first = true ∨ idx ≠ 0) : ∃ r, tempsFor job first st idx = .ok r := by
  unfold tempsFor
  rw [index_of_lt hi, Outcome.bind_ok]
  dsimp only
  generalize (if idx = 0 then none else st.1[idx - 1]?) = prev
  by_cases h1 : first = true
  · rw [if_pos h1]
    by_cases h2 : job.firstGroup = true
    · rw [if_pos h2]; exact ⟨_, rfl⟩
    · rw [if_neg h2]; exact ⟨_, rfl⟩
  · rw [if_neg h1]
    have hb : bases (st.1.set idx (setTemps (job.cfg st.1[idx].ext) (st.2.1 st.1[idx].ext) st.1[idx] prev)) =
        bases st.1 := bases_set (List.getElem?_eq_getElem hi) (base_setTemps _ _ _ _)
    obtain ⟨r, hr⟩ := insertTemp_ok (cfg := job.cfg) hen (NoPrecool.of_bases hb hp) (idx := idx) (by simpa using hi)
      (h0.resolve_left h1)
    rw [hr]
    exact ⟨_, rfl⟩

theorem tempsForAll_ok {job : Job} (hen : ∀ e, (job.cfg e).enabled = true) {only : Bool} :
    ∀ (l : List Nat) (isFirst : Bool) (st : List EPlan × (Nat → Bool) × List (Nat × ℚ)), NoPrecool job.cfg st.1 →
      (∀ i ∈ l, i < st.1.length) → l.Pairwise (· < ·) → (0 ∈ l → only = true ∧ isFirst = true) →
      ∃ r, tempsForAll job only isFirst l st = .ok r
  | [], _, st, _, _, _, _ => ⟨st, rfl⟩
  | i :: rest, isFirst, st, hp, hl, hpw, h0 => by
    unfold tempsForAll
    obtain ⟨r, hr⟩ := tempsFor_ok (job := job) hen (first := only && isFirst) hp (hl i (by simp)) (by
      by_cases hi : i = 0
      · left
        obtain ⟨h1, h2⟩ := h0 (by simp [hi])
        simp [h1, h2]
      · exact Or.inr hi)
    rw [hr, Outcome.bind_ok]
    have hb := bases_tempsFor hr
    refine tempsForAll_ok hen rest false r (NoPrecool.of_bases hb hp) ?_ (List.Pairwise.of_cons hpw) ?_
    · intro j hj
      rw [bases_length hb]
      exact hl j (by simp [hj])
    · intro h
      have := List.rel_of_pairwise_cons hpw h
      omega

theorem insertAll_ok {job : Job} (hen : ∀ e, (job.cfg e).enabled = true) {b : Buf} (hne : b.layers ≠ [])
    (hpl : ∀ l ∈ b.layers, l.plans ≠ []) (hp : NoPrecool job.cfg (allPlans b.layers)) :
    ∃ r, insertAll job b = .ok r := by
  unfold insertAll
  obtain ⟨ls, l, hl⟩ := List.eq_nil_or_concat b.layers |>.resolve_left hne
  rw [List.concat_eq_append] at hl
  have hlast : b.layers.getLast? = some l := by rw [hl]; simp
  rw [hlast]
  dsimp only
  by_cases h1 : l.empty = true
  · rw [if_pos h1]; exact ⟨_, rfl⟩
  · rw [if_neg h1]
    have hlen : (allPlans b.layers).length = (allPlans ls).length + l.plans.length := by
      rw [hl]; simp [allPlans]
    have hlpos : 0 < l.plans.length := List.length_pos_iff.2 (hpl l (by rw [hl]; simp))
    suffices h : ∃ r, tempsForAll job (b.layers.length == 1) true
        ((List.range l.plans.length).map fun i => (allPlans b.layers).length - l.plans.length + i)
        (allPlans b.layers, b.used, b.initialTemps) = .ok r by
      obtain ⟨r, hr⟩ := h
      rw [hr]; exact ⟨_, rfl⟩
    refine tempsForAll_ok hen _ _ _ hp ?_ ?_ ?_
    · intro i hi
      obtain ⟨j, hj, rfl⟩ := List.mem_map.1 hi
      have := List.mem_range.1 hj
      show (allPlans b.layers).length - l.plans.length + j < (allPlans b.layers).length
      omega
    · rw [List.pairwise_map]
      refine List.Pairwise.imp ?_ List.pairwise_lt_range
      intro a b h; omega
    · intro h
      obtain ⟨j, _, e⟩ := List.mem_map.1 h
      refine ⟨?_, rfl⟩
      have hz : (allPlans ls).length = 0 := by omega
      cases ls with
      | nil => rw [hl]; rfl
      | cons a rest =>
        exfalso
        have : 0 < a.plans.length := List.length_pos_iff.2 (hpl a (by rw [hl]; simp))
        simp [allPlans] at hz
        rw [hz.1] at this
        simp at this

theorem noPrecool_of_ext {cfg : Nat → ExtSettings} {a b : List EPlan} (h : ∀ e ∈ b.map EPlan.ext, e ∈ a.map EPlan.ext)
    (ha : NoPrecool cfg a) : NoPrecool cfg b := by
  intro p hp q hq hne
  obtain ⟨p', hp', ep⟩ := List.mem_map.1 (h _ (List.mem_map_of_mem hp))
  obtain ⟨q', hq', eq⟩ := List.mem_map.1 (h _ (List.mem_map_of_mem hq))
  rw [← ep, ← eq] at hne ⊢
  exact ha p' hp' q' hq' hne

theorem map_ext_allPlans (ls : List Layer) :
    (allPlans ls).map EPlan.ext = (ls.map fun l => l.plans.map EPlan.ext).flatten := by
  unfold allPlans
  rw [List.map_flatMap]
  rfl

theorem held_noPrecool {cfg : Nat → ExtSettings} {all ls : List Layer}
    (hsub : ∀ x ∈ ls.map (fun l => l.plans.map EPlan.ext), x ∈ all.map fun l => l.plans.map EPlan.ext)
    (hp : NoPrecool cfg (allPlans all)) : NoPrecool cfg (allPlans ls) := by
  refine noPrecool_of_ext ?_ hp
  intro e he
  rw [map_ext_allPlans] at he ⊢
  obtain ⟨x, hx, hex⟩ := List.mem_flatten.1 he
  exact List.mem_flatten.2 ⟨x, hsub x hx, hex⟩

theorem held_nonempty {all ls : List Layer}
    (hsub : ∀ x ∈ ls.map (fun l => l.plans.map EPlan.ext), x ∈ all.map fun l => l.plans.map EPlan.ext)
    (hp : ∀ l ∈ all, l.plans ≠ []) : ∀ l ∈ ls, l.plans ≠ [] := by
  intro l hl hc
  obtain ⟨l', hl', e⟩ := List.mem_map.1
    (hsub _ (List.mem_map_of_mem (f := fun l : Layer => l.plans.map EPlan.ext) hl))
  rw [hc] at e
  exact hp l' hl' (by simpa using e)

theorem handleAll_ok {job : Job} (hs : Stable job fun l => l.plans.map EPlan.ext)
    (hen : ∀ e, (job.cfg e).enabled = true) (all : List Layer) (hpl : ∀ l ∈ all, l.plans ≠ [])
    (hp : NoPrecool job.cfg (allPlans all)) : ∀ (ls : List Layer) (b : Buf), (∀ l ∈ ls, l ∈ all) →
      (∀ x ∈ b.layers.map (fun l => l.plans.map EPlan.ext), x ∈ all.map fun l => l.plans.map EPlan.ext) →
      ∃ b', handleAll job ls b = .ok b' ∧
        ∀ x ∈ b'.layers.map (fun l => l.plans.map EPlan.ext), x ∈ all.map fun l => l.plans.map EPlan.ext
  | [], b, _, hb => ⟨b, rfl, hb⟩
  | l :: ls, b, hls, hb => by
    have hprep := prepare_obs hs (b.layers ++ [l])
    have hsub : ∀ x ∈ (prepare job (b.layers ++ [l])).map (fun l => l.plans.map EPlan.ext),
        x ∈ all.map fun l => l.plans.map EPlan.ext := by
      intro x hx
      rw [hprep, List.map_append] at hx
      rcases List.mem_append.1 hx with hx | hx
      · exact hb x hx
      · simp only [List.map_cons, List.map_nil, List.mem_singleton] at hx
        rw [hx]
        exact List.mem_map_of_mem (f := fun l : Layer => l.plans.map EPlan.ext) (hls l (by simp))
    have hne : prepare job (b.layers ++ [l]) ≠ [] := by
      intro h
      have := congrArg List.length hprep
      rw [h] at this
      simp at this
    obtain ⟨r, hr⟩ := insertAll_ok (job := job) hen (b := { b with layers := prepare job (b.layers ++ [l]) }) hne
      (held_nonempty hsub hpl) (held_noPrecool hsub hp)
    obtain ⟨e1, _⟩ := insertAll_base hr
    have e2 := map_obs_of_base (obs := fun l => l.plans.map EPlan.ext) hs.base e1
    dsimp only at e2
    unfold handleAll handle processBuffer
    dsimp only
    rw [hr, Outcome.bind_ok]
    by_cases hc : r.layers.length > bufferSize
    · rw [if_pos hc]
      refine handleAll_ok hs hen all hpl hp ls _ (fun l' h => hls l' (by simp [h])) ?_
      intro x hx
      refine hsub x ?_
      rw [← e2]
      dsimp only at hx
      rw [List.map_tail] at hx
      exact List.mem_of_mem_tail hx
    · rw [if_neg hc]
      refine handleAll_ok hs hen all hpl hp ls _ (fun l' h => hls l' (by simp [h])) ?_
      intro x hx
      refine hsub x ?_
      rw [← e2]
      exact hx

/-- **C25.** If every layer has an extruder plan, nozzle temperatures are enabled, and there is no
final print temperature (or one extruder, or a shared heater), a mesh group is printed without undefined
behaviour; so the layers are all written. What is missing: the case of final print temperatures, for which this is false
(`C25_double_erase`). -/
theorem C25_no_ub_partial {job : Job} (hs : Stable job fun l => l.plans.map EPlan.ext)
    (hen : ∀ e, (job.cfg e).enabled = true) (layers : List Layer) (hpl : ∀ l ∈ layers, l.plans ≠ [])
    (hp : NoPrecool job.cfg (allPlans layers)) : ∃ b, printGroup job layers = .ok b := by
  obtain ⟨b, hb, hsub⟩ := handleAll_ok hs hen layers hpl hp layers {} (fun _ h => h) (by simp)
  unfold printGroup
  rw [hb, Outcome.bind_ok]
  unfold flush
  by_cases hc : b.layers = []
  · rw [if_pos hc]; exact ⟨_, rfl⟩
  · rw [if_neg hc]
    obtain ⟨r, hr⟩ := insertAll_ok (job := job) hen hc (held_nonempty hsub hpl) (held_noPrecool hsub hp)
    rw [hr]
    exact ⟨_, rfl⟩

/-! ## Examples -/

/-- Two extruders that print at 210 degrees and end at 170 degrees. -/
def demoCfg : Nat → ExtSettings := fun _ =>
  { final := 170, standby := 100, speeds := ⟨2, 1, 1/2⟩, initialTemp := 200, printTemp := 210, printTemp0 := 210,
    coolMin := 190 }

/-- A job in which the times have been estimated already and no travel moves are needed between layers. -/
def demoJob : Job := ⟨demoCfg, 2, true, fun _ l => l, fun p _ => p⟩

/-- The same without a final temperature. -/
def plainJob : Job := { demoJob with cfg := fun e => { demoCfg e with final := 0 } }

/-- A plan of ten seconds: one second of travel and nine seconds of printing. -/
def demoPlan (e : Nat) : EPlan :=
  { ext := e, paths := [⟨1, true, 0⟩, ⟨9, false, 0⟩], time := 10, unretracted := 9 }

/-- The conditions of the theorems are met, with two extruders on each of seven layers. -/
example : Stable plainJob (fun l => (l.nr, l.plans.map EPlan.ext)) ∧
    ∃ b, printGroup plainJob ((List.range 7).map fun i : Nat => ⟨(i : Int), [demoPlan 0, demoPlan 1]⟩) = .ok b := by
  refine ⟨⟨fun l => ?_, fun _ _ => rfl, fun _ _ => rfl⟩, ?_⟩
  · simp [Layer.base, bases, Function.comp_def, EPlan.base]
  · refine C25_no_ub_partial ⟨fun l => ?_, fun _ _ => rfl, fun _ _ => rfl⟩ (fun _ => rfl) _ ?_ ?_
    · simp [Layer.base, bases, Function.comp_def, EPlan.base]
    · intro l hl
      obtain ⟨i, _, rfl⟩ := List.mem_map.1 hl
      simp
    · intro p _ q _ _
      exact Or.inl rfl

/-- With a final print temperature printing also works when cooling down takes less than a layer. -/
example : (match printGroup { demoJob with cfg := fun e => { demoCfg e with final := 205 } }
    [⟨0, [demoPlan 0]⟩, ⟨1, [demoPlan 0]⟩, ⟨2, [demoPlan 0, demoPlan 1]⟩] with
    | .ok b => decide (b.written.map Layer.nr = [0, 1, 2])
    | _ => false) = true := by decide +kernel

/-- **C25** does not hold with final print temperatures: `flush` inserts the temperature commands of the last
layer a second time. If that layer switches extruders and cooling down takes longer than two layers, a command that
has been removed already is removed again, which is undefined behaviour. -/
theorem C25_double_erase :
    printGroup demoJob [⟨0, [demoPlan 0]⟩, ⟨1, [demoPlan 0]⟩, ⟨2, [demoPlan 0, demoPlan 1]⟩] = .ub ∧
    (match handleAll demoJob [⟨0, [demoPlan 0]⟩, ⟨1, [demoPlan 0]⟩, ⟨2, [demoPlan 0, demoPlan 1]⟩] {} with
      | .ok b => decide (b.layers.map Layer.nr = [0, 1, 2])
      | _ => false) = true := by
  constructor
  · have : (match printGroup demoJob [⟨0, [demoPlan 0]⟩, ⟨1, [demoPlan 0]⟩, ⟨2, [demoPlan 0, demoPlan 1]⟩] with
      | .ub => true | _ => false) = true := by decide +kernel
    revert this
    cases printGroup demoJob [⟨0, [demoPlan 0]⟩, ⟨1, [demoPlan 0]⟩, ⟨2, [demoPlan 0, demoPlan 1]⟩] <;> simp
  · decide +kernel

/-- With nozzle temperatures disabled, the second layer already takes an iterator before the end of an empty list. -/
theorem C25_disabled_counterexample :
    (match printGroup { plainJob with cfg := fun e => { demoCfg e with enabled := false } }
      [⟨0, [demoPlan 0]⟩, ⟨1, [demoPlan 0]⟩] with
      | .ub => true | _ => false) = true := by decide +kernel

end Verif.Heat
