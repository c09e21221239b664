import Verif.Travel.Lemmas

/-! # What a travel adds -/

namespace Verif.Travel

variable {C M : Type} [DecidableEq C] [DecidableEq M]

/-- What is left of a state when paths are replaced and a travel ends at `p`. -/
def landed (st : State C M) (path : Path C M) (rest : List (Path C M)) (p : P2) : State C M :=
  { st with
    cur := { st.cur with paths := path :: rest }
    last := some p.up
    wasInside := st.inside
    firstDest := if st.last.isNone then some (p, st.inside) else st.firstDest }

omit [DecidableEq C] [DecidableEq M] in
theorem combed_spec (env : Env C M) (s : Sets) (r : CombRes) (q p : P2) (path : Path C M) :
    ∃ (detour : List P2) (ret unret : Bool), combed env s r q p path = { path with points := path.points ++ detour.map P2.up, retract := ret, unretract := unret } ∧
      List.Sublist detour (r.paths.flatMap (·.1)) ∧
      (∀ c ∈ r.paths.flatMap (·.1), ∃ b ∈ path.points ++ detour.map P2.up, (b.x - c.x) ^ 2 + (b.y - c.y) ^ 2 + b.z ^ 2 ≤ s.resolution ^ 2) ∧
      (ret = true ↔ path.retract = true ∨ s.enable = true ∧ r.Leads ∧
        (r.Leaves ∨ 0 < s.maxComb ∧ s.maxComb < routeLen env.len q detour p)) := by
  unfold combed
  generalize hr1 : (path.retract || (decide (1 < r.paths.length) || r.retracted) && s.enable) = r1
  dsimp only
  generalize hr2 : (if r1 = true then true else if r.air = true then s.enable else if (r.paths.any (·.2)) = true then s.enable else false) = r2
  have hr : r2 = true ↔ path.retract = true ∨ s.enable = true ∧ r.Leaves := by
    rw [← hr2, ← hr1]
    unfold CombRes.Leaves
    have hany : (r.paths.any (·.2)) = true ↔ ∃ c ∈ r.paths, c.2 = true := by simp
    rw [← hany]
    cases path.retract <;> cases s.enable <;> cases r.retracted <;> cases r.air <;> cases (r.paths.any (·.2)) <;> by_cases h : 1 < r.paths.length <;> simp [h]
  obtain ⟨d, ret, h1, h2, h3, h4, h5, h6, h7⟩ := addComb_spec env s r2 p r.paths path 0 q
  refine ⟨d, ret, ret && r.unretract, by rw [h1], h2, h3, ?_⟩
  by_cases hl : r.Leads
  · have hL : (∃ c ∈ r.paths, c.1 ≠ []) := hl
    by_cases hr2' : r2 = true
    · rw [h5 hL hr2']
      rcases hr.1 hr2' with h | ⟨h, h'⟩
      · simp [h]
      · simp [h, hl, h']
    · have hn : ¬ (path.retract = true ∨ s.enable = true ∧ r.Leaves) := fun h => hr2' (hr.2 h)
      rw [not_or] at hn
      by_cases he : s.enable = true
      · have hnl : ¬ r.Leaves := fun h => hn.2 ⟨he, h⟩
        obtain ⟨c, hc⟩ : ∃ c, r.paths = [c] := by
          obtain ⟨c, hc, _⟩ := hL
          have hlen : r.paths.length ≤ 1 := by
            by_contra hh
            exact hnl (Or.inl (by omega))
          rcases hp : r.paths with _ | ⟨a, _ | ⟨b, t⟩⟩
          · rw [hp] at hc; cases hc
          · exact ⟨a, rfl⟩
          · rw [hp] at hlen; simp at hlen
        have hc1 : c.1 ≠ [] := by
          obtain ⟨x, hx, hx'⟩ := hL
          rw [hc] at hx
          rw [← List.mem_singleton.1 hx]
          exact hx'
        rw [h7 c hc hc1]
        simp [hn.1, hnl, he, hl, hr2']
      · have he' : s.enable = false := by simpa using he
        rw [h6 hL he']
        simp [hn.1, he', hr2']
  · have : ∀ c ∈ r.paths, c.1 = [] := fun c hc => by
      by_contra hh
      exact hl ⟨c, hc, hh⟩
    rw [h4 this]
    simp [hl]

/-- A travel that is not the first of the layer. -/
theorem addTravel_some (env : Env C M) (p : P2) (force : Force) (z : Int) (st : State C M) (base : Path C M) (rest : List (Path C M)) (q : P3)
    (hb : latest st.cur.paths (travelKind env st z) 0 false true = (base, rest)) (hq : st.last = some q) (h0 : base.retract = false ∧ base.hop = false) :
    ∃ (path : Path C M) (detour : List P2), addTravel env p force z st = landed st path rest p ∧ path.kind = base.kind ∧ path.done = true ∧
      path.points = base.points ++ detour.map P2.up ++ [p.up] ∧
      (Short q.flat p (env.sets st.mesh st.cur.extruder).minTravel → path.retract = false ∧ path.hop = false) ∧
      (¬ Short q.flat p (env.sets st.mesh st.cur.extruder).minTravel → ¬ Combed env st rest.isEmpty q.flat p →
        path.retract = (env.sets st.mesh st.cur.extruder).enable ∧
        path.hop = ((env.sets st.mesh st.cur.extruder).enable && (env.sets st.mesh st.cur.extruder).hop)) ∧
      (¬ Short q.flat p (env.sets st.mesh st.cur.extruder).minTravel → Combed env st rest.isEmpty q.flat p →
        path.hop = false ∧
        (path.retract = true ↔ force ≠ .notRetracted ∧ (force = .retracted ∨
          (env.sets st.mesh st.cur.extruder).enable = true ∧ (env.combCalc st.wasInside st.inside q.flat p st.mesh st.cur.extruder).Leads ∧
            ((env.combCalc st.wasInside st.inside q.flat p st.mesh st.cur.extruder).Leaves ∨
              0 < (env.sets st.mesh st.cur.extruder).maxComb ∧
                (env.sets st.mesh st.cur.extruder).maxComb < routeLen env.len q.flat detour p)))) ∧
      (Combed env st rest.isEmpty q.flat p →
        List.Sublist detour ((env.combCalc st.wasInside st.inside q.flat p st.mesh st.cur.extruder).paths.flatMap (·.1)) ∧
        ∀ c ∈ (env.combCalc st.wasInside st.inside q.flat p st.mesh st.cur.extruder).paths.flatMap (·.1),
          ∃ b ∈ base.points ++ detour.map P2.up, (b.x - c.x) ^ 2 + (b.y - c.y) ^ 2 + b.z ^ 2 ≤ (env.sets st.mesh st.cur.extruder).resolution ^ 2) ∧
      (¬ Combed env st rest.isEmpty q.flat p → detour = [] ∨
        st.wasInside = true ∧ ¬ Short q.flat p (env.sets st.mesh st.cur.extruder).minTravel ∧
          ∃ i, env.moveIn st.mesh st.cur.extruder q.flat = some i ∧ detour = [i]) := by
  unfold addTravel
  rw [hb]
  dsimp only
  rw [hq]
  dsimp only
  generalize hs : env.sets st.mesh st.cur.extruder = s
  generalize hr : env.combCalc st.wasInside st.inside q.flat p st.mesh st.cur.extruder = r
  generalize hsh : shorter (q.flat.sub p) s.minTravel = sh
  have hsi : sh = true ↔ Short q.flat p s.minTravel := by rw [← hsh]; exact shorter_iff _ _ _
  generalize hok : (env.comb && !(rest.isEmpty && (!st.earlier.isEmpty || decide (env.prevExtruder ≠ st.cur.extruder)) && s.hopAfterSwitch) && r.ok) = ok
  have hoki : ok = true ↔ Combed env st rest.isEmpty q.flat p := by
    rw [← hok]
    unfold Combed
    rw [hs, hr]
    have he : st.earlier ≠ [] ↔ (!st.earlier.isEmpty) = true := by cases st.earlier <;> simp
    rw [he]
    cases env.comb <;> cases r.ok <;> cases rest.isEmpty <;> cases st.earlier.isEmpty <;> cases s.hopAfterSwitch <;> simp
  rw [← hsi, ← hoki]
  have hland : ∀ path : Path C M,
      { addTo st { path with done := true } rest p with wasInside := st.inside } =
        landed st { path with points := path.points ++ [p.up], done := true } rest p := fun path => by
    simp [addTo, landed]
  rw [hland]
  rcases hsv : sh with _ | _
  · rcases hov : ok with _ | _
    · -- neither short nor combed
      rcases hi : (if st.wasInside = true then env.moveIn st.mesh st.cur.extruder q.flat else none) with _ | i
      · refine ⟨_, [], rfl, ?_, rfl, ?_, by simp, ?_, by simp, by simp, fun _ => Or.inl rfl⟩ <;>
          simp only [unforced, forced, uncombed, Bool.false_eq_true, if_false, Bool.or_self] <;> (repeat' split) <;> simp
      · refine ⟨_, [i], rfl, ?_, rfl, ?_, by simp, ?_, by simp, by simp, fun _ => Or.inr ?_⟩
        · simp only [unforced, forced, uncombed, Bool.false_eq_true, if_false, Bool.or_self]
          (repeat' split) <;> rfl
        · simp only [unforced, forced, uncombed, Bool.false_eq_true, if_false, Bool.or_self]
          (repeat' split) <;> simp
        · simp only [unforced, forced, uncombed, Bool.false_eq_true, if_false, Bool.or_self]
          simp
        · split at hi
          · rename_i hw
            exact ⟨hw, by simp, i, hi, rfl⟩
          · cases hi
    · -- combed
      obtain ⟨d, ret, unret, h1, h2, h3, h4⟩ := combed_spec env s r q.flat p (forced env.comb s force false base)
      simp only [Bool.true_or, if_true, h1]
      have hc : env.comb = true := by
        rw [hov] at hok
        cases hh : env.comb
        · rw [hh] at hok; simp at hok
        · rfl
      have hfr : (forced env.comb s force false base).retract = true ↔ force = .retracted := by
        unfold forced
        split
        · rename_i h; simp [h.1]
        · rename_i h
          rw [h0.1]
          simp only [and_true] at h
          simp [h]
      have hfh : (forced env.comb s force false base).hop = false := by
        unfold forced
        split
        · simp [hc, h0.2]
        · exact h0.2
      have hfp : (forced env.comb s force false base).points = base.points ∧ (forced env.comb s force false base).kind = base.kind := by
        unfold forced
        split <;> exact ⟨rfl, rfl⟩
      rw [hfp.1] at h3
      rw [hfr] at h4
      refine ⟨_, d, rfl, ?_, rfl, ?_, by simp, by simp, fun _ _ => ⟨?_, ?_⟩, fun _ => ⟨h2, h3⟩, by simp⟩
      · simp only [unforced, Bool.false_eq_true, if_false]
        split <;> exact hfp.2
      · simp only [unforced, Bool.false_eq_true, if_false]
        split <;> simp [hfp.1]
      · simp only [unforced, Bool.false_eq_true, if_false]
        split <;> exact hfh
      · simp only [unforced, Bool.false_eq_true, if_false]
        split
        · rename_i hf; simp [hf]
        · rename_i hf
          rw [← h4]
          simp [hf]
  · rcases hov : ok with _ | _
    · refine ⟨_, [], rfl, ?_, rfl, ?_, fun _ => ⟨?_, ?_⟩, by simp, by simp, by simp, fun _ => Or.inl rfl⟩ <;>
        simp only [unforced, forced, Bool.true_eq_false, and_false, if_false, Bool.false_eq_true, if_true, Bool.false_or] <;> split <;> simp
    · obtain ⟨d, ret, unret, h1, h2, h3, h4⟩ := combed_spec env s r q.flat p (forced env.comb s force true base)
      have hf : forced env.comb s force true base = base := by simp [forced]
      rw [hf] at h1 h3
      refine ⟨_, d, rfl, ?_, rfl, ?_, fun _ => ⟨?_, ?_⟩, by simp, by simp, fun _ => ⟨h2, h3⟩, by simp⟩ <;>
        simp only [unforced, hf, h1, if_true, Bool.true_or] <;> split <;> simp

/-- The first travel of a layer. -/
theorem addTravel_none (env : Env C M) (p : P2) (force : Force) (z : Int) (st : State C M) (base : Path C M) (rest : List (Path C M))
    (hb : latest st.cur.paths (travelKind env st z) 0 false true = (base, rest)) (hq : st.last = none) (h0 : base.retract = false ∧ base.hop = false) :
    ∃ path : Path C M, addTravel env p force z st = landed st path rest p ∧ path.kind = base.kind ∧ path.done = true ∧
      path.points = base.points ++ [p.up] ∧
      (path.hop = true ↔ env.layer = 0 ∧ (env.sets st.mesh st.cur.extruder).enable = true ∧ (env.sets st.mesh st.cur.extruder).hop = true) ∧
      (path.retract = true ↔ path.hop = true ∧ force ≠ .notRetracted) := by
  unfold addTravel
  rw [hb]
  dsimp only
  rw [hq]
  dsimp only
  have hland : ∀ path : Path C M,
      { addTo st { path with done := true } rest p with wasInside := st.inside } =
        landed st { path with points := path.points ++ [p.up], done := true } rest p := fun path => by
    simp [addTo, landed]
  rw [hland]
  refine ⟨_, rfl, ?_, rfl, ?_, ?_, ?_⟩
  · simp only [unforced, Bool.false_eq_true, if_false]
    (repeat' split) <;> rfl
  · simp only [unforced, Bool.false_eq_true, if_false]
    (repeat' split) <;> rfl
  · simp only [unforced, Bool.false_eq_true, if_false]
    (repeat' split) <;> simp_all
  · simp only [unforced, Bool.false_eq_true, if_false]
    (repeat' split) <;> simp_all

end Verif.Travel
