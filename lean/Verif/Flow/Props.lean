import Mathlib.Algebra.Order.Archimedean.Basic
import Verif.Flow.StepLemmas

/-! # C60, C61: gradual flow -/

namespace Verif.Flow

variable {len : Pt → Pt → ℚ}

/-! ## Converting the paths -/

theorem target_speed (d : Data) (v : ℚ) : target d v / 1000 = v * d.factor := by unfold target; ring

theorem posAfter_cons (b : Pt) (l : List Pt) : posAfter (some b) l = (b :: l).getLast? := by
  unfold posAfter
  rw [List.getLast?_cons]
  cases l.getLast? <;> rfl

theorem fresh_good {p : GPath} (h : p.Sane) (l : List Pt) :
    Good (FPath.mk' p.data p.speed l (target p.data p.speed)) where
  flow := rfl
  vol := h.2
  pos := by
    show 0 < p.speed * p.data.factor * 1000
    have := h.1
    linarith
  le := le_refl _
  travel := fun _ => rfl

/-- What `convert` makes of a path. -/
structure Conv (g : GPath) (f : FPath) : Prop where
  data : f.data = g.data
  orig : f.orig = g.speed
  speed : f.speed = target g.data g.speed
  flow : f.flow = g.flow

theorem conv_mk (g : GPath) (l : List Pt) : Conv g (FPath.mk' g.data g.speed l (target g.data g.speed)) :=
  ⟨rfl, rfl, rfl, rfl⟩

theorem convert_spec : ∀ (rest : List GPath) (before : List Pt) (b : Pt), before.getLast? = some b →
    (∀ p ∈ rest, p.Sane) →
    ∃ ps, convert before rest = .ok ps ∧ moves (some b) rest = ps.flatMap FPath.moves ∧ (∃ c, Joins b c ps) ∧
      List.Forall₂ Conv rest ps ∧ (∀ f ∈ ps, Good f) ∧ ps.map (FPath.classic false) = rest := by
  intro rest
  induction rest with
  | nil => intro before b _ _; exact ⟨[], rfl, rfl, ⟨b, .nil b⟩, .nil, by simp, rfl⟩
  | cons g rest ih =>
    intro before b hb hs
    obtain ⟨c, hc⟩ : ∃ c, (b :: g.points).getLast? = some c := by
      cases h : (b :: g.points).getLast? with
      | none => simp at h
      | some c => exact ⟨c, rfl⟩
    obtain ⟨ps, h1, h2, ⟨d, h3⟩, h4, h5, h6⟩ := ih (b :: g.points) c hc fun p hp => hs p (by simp [hp])
    have hg := fresh_good (hs g (by simp)) (b :: g.points)
    refine ⟨FPath.mk' g.data g.speed (b :: g.points) (target g.data g.speed) :: ps, ?_, ?_, ⟨d, .cons rfl hc h3⟩,
      .cons (conv_mk g _) h4, ?_, ?_⟩
    · simp only [convert, hb, h1, Outcome.bind_ok, Outcome.pure_eq]
    · rw [List.flatMap_cons, moves, posAfter_cons, hc, h2]
      show _ = movesTo g.data (target g.data g.speed / 1000) (some b) g.points ++ _
      rw [target_speed]
    · intro f hf
      rcases List.mem_cons.1 hf with rfl | hf
      · exact hg
      · exact h5 f hf
    · rw [List.map_cons, h6]
      congr 1
      have hpos := (hs g (by simp)).1
      have hfac : g.data.factor ≠ 0 := fun h => by rw [h] at hpos; simp at hpos
      unfold FPath.classic FPath.mk'
      simp only [Bool.false_eq_true, if_false, List.drop_succ_cons, List.drop_zero]
      rw [target_speed, mul_div_assoc, div_self hfac, mul_one]

theorem convertAll_spec {g : GPath} {rest : List GPath} (hne : g.points ≠ []) (hs : ∀ p ∈ g :: rest, p.Sane) :
    ∃ f ps a c, convertAll (g :: rest) = .ok (f :: ps) ∧
      moves none (g :: rest) = ⟨none, a, g.data, g.speed * g.data.factor⟩ :: (f :: ps).flatMap FPath.moves ∧
      Joins a c (f :: ps) ∧ List.Forall₂ Conv (g :: rest) (f :: ps) ∧ (∀ x ∈ f :: ps, Good x) ∧
      f.classic true :: ps.map (FPath.classic false) = g :: rest := by
  obtain ⟨a, l, hl⟩ : ∃ a l, g.points = a :: l := List.exists_cons_of_ne_nil hne
  obtain ⟨b, hb⟩ : ∃ b, g.points.getLast? = some b := by
    cases h : g.points.getLast? with
    | none => simp at h; exact absurd h hne
    | some c => exact ⟨c, rfl⟩
  obtain ⟨ps, h1, h2, ⟨c, h3⟩, h4, h5, h6⟩ := convert_spec rest g.points b hb fun p hp => hs p (by simp [hp])
  have hg := fresh_good (hs g (by simp)) g.points
  refine ⟨FPath.mk' g.data g.speed g.points (target g.data g.speed), ps, a, c, ?_, ?_, ?_, .cons (conv_mk g _) h4,
    ?_, ?_⟩
  · simp only [convertAll, h1, Outcome.bind_ok, Outcome.pure_eq]
  · have e : posAfter none g.points = some b := by unfold posAfter; rw [hb]
    rw [moves, e, h2, List.flatMap_cons]
    show movesTo g.data _ none g.points ++ _ = _ :: (fm g.data (target g.data g.speed / 1000) g.points ++ _)
    rw [target_speed, hl]
    simp only [movesTo, fm, List.cons_append]
  · exact .cons (by rw [show (FPath.mk' g.data g.speed g.points (target g.data g.speed)).points = g.points from rfl, hl]; rfl) hb h3
  · intro f hf
    rcases List.mem_cons.1 hf with rfl | hf
    · exact hg
    · exact h5 f hf
  · rw [h6]
    congr 1
    have hpos := (hs g (by simp)).1
    have hfac : g.data.factor ≠ 0 := fun h => by rw [h] at hpos; simp at hpos
    unfold FPath.classic FPath.mk'
    simp only [if_true, List.drop_zero]
    rw [target_speed, mul_div_assoc, div_self hfac, mul_one]

/-! ## Converting back -/

theorem Good.factor {p : FPath} (h : Good p) : p.data.factor ≠ 0 := by
  have := h.pos.trans_le h.le
  unfold target at this
  intro h0
  rw [h0] at this
  simp at this

theorem classic_speed {p : FPath} (h : Good p) (b : Bool) :
    (p.classic b).speed * (p.classic b).data.factor = p.speed / 1000 := by
  show p.speed / 1000 / p.data.factor * p.data.factor = _
  rw [div_mul_cancel₀ _ h.factor]

theorem classic_flow {p : FPath} (h : Good p) (b : Bool) : (p.classic b).flow = p.flow := by
  unfold GPath.flow
  rw [classic_speed h, h.flow]
  show volume p.data * _ = _
  rw [div_mul_cancel₀ _ (by norm_num : (1000 : ℚ) ≠ 0)]

theorem moves_classic : ∀ (ps : List FPath) (b c : Pt), Joins b c ps → (∀ p ∈ ps, Good p) →
    moves (some b) (ps.map (FPath.classic false)) = ps.flatMap FPath.moves ∧
    starts (some b) (ps.map (FPath.classic false)) = ps.map fun p => (p.points.head?, p.classic false) := by
  intro ps
  induction ps with
  | nil => intro b c _ _; exact ⟨rfl, rfl⟩
  | cons p ps ih =>
    intro b c hj hg
    cases hj with
    | @cons _ _ d _ _ h1 h2 hj =>
      obtain ⟨i1, i2⟩ := ih d c hj fun q hq => hg q (by simp [hq])
      obtain ⟨l, hl⟩ : ∃ l, p.points = b :: l := by
        cases hp : p.points with
        | nil => rw [hp] at h1; simp at h1
        | cons x l => rw [hp] at h1; simp at h1; exact ⟨l, by rw [h1]⟩
      have hpts : (p.classic false).points = l := by unfold FPath.classic; simp [hl]
      have hpos : posAfter (some b) (p.classic false).points = some d := by
        rw [hpts, posAfter_cons, ← hl]; exact h2
      constructor
      · rw [List.map_cons, moves, hpos, i1, List.flatMap_cons, classic_speed (hg p (by simp)), hpts]
        unfold FPath.moves
        rw [hl]
        rfl
      · rw [List.map_cons, starts, hpos, i2, List.map_cons, hl]
        rfl

/-- How a path of the result is seen from outside. -/
structure Seen (len : Pt → Pt → ℚ) (reset : ℚ) (x : Option Pt × GPath) (p : FPath) : Prop where
  data : x.2.data = p.data
  flow : x.2.flow = p.flow
  stops : Interrupts len reset x ↔ p.Stops len reset

theorem seen_of {reset : ℚ} {p : FPath} (h : Good p) (b : Bool) (o : Option Pt)
    (hl : o.toList ++ (p.classic b).points = p.points) : Seen len reset (o, p.classic b) p where
  data := rfl
  flow := classic_flow h b
  stops := by
    unfold Interrupts FPath.Stops FPath.duration
    dsimp only
    rw [hl, classic_speed h, total_eq, div_mul_cancel₀ _ (by norm_num : (1000 : ℚ) ≠ 0)]
    rfl

theorem seen_all {reset : ℚ} {p : FPath} {ps : List FPath} {a c : Pt} (hj : Joins a c (p :: ps))
    (hg : ∀ x ∈ p :: ps, Good x) :
    List.Forall₂ (Seen len reset) (starts none (p.classic true :: ps.map (FPath.classic false))) (p :: ps) ∧
    moves none (p.classic true :: ps.map (FPath.classic false)) =
      ⟨none, a, p.data, p.speed / 1000⟩ :: (p :: ps).flatMap FPath.moves := by
  cases hj with
  | @cons _ _ d _ _ h1 h2 hj =>
    obtain ⟨i1, i2⟩ := moves_classic ps d c hj fun q hq => hg q (by simp [hq])
    have hp := hg p (by simp)
    obtain ⟨l, hl⟩ : ∃ l, p.points = a :: l := by
      cases hp : p.points with
      | nil => rw [hp] at h1; simp at h1
      | cons x l => rw [hp] at h1; simp at h1; exact ⟨l, by rw [h1]⟩
    have hpts : (p.classic true).points = p.points := by unfold FPath.classic; simp
    have hpos : posAfter none (p.classic true).points = some d := by
      unfold posAfter; rw [hpts, h2]
    constructor
    · rw [starts, hpos, i2]
      refine .cons (seen_of hp true none (by simpa using hpts)) ?_
      rw [List.forall₂_map_left_iff]
      have : ∀ q ∈ ps, Seen len reset (q.points.head?, q.classic false) q := by
        intro q hq
        refine seen_of (hg q (by simp [hq])) false _ ?_
        unfold FPath.classic
        simp only [Bool.false_eq_true, if_false]
        cases q.points <;> rfl
      clear hj i1 i2 hg
      induction ps with
      | nil => exact .nil
      | cons q ps ih => exact .cons (this q (by simp)) (ih fun x hx => this x (by simp [hx]))
    · rw [moves, hpos, i1, classic_speed hp, hpts, List.flatMap_cons]
      unfold FPath.moves
      rw [hl]
      rfl

/-! ## Runs -/

/-- A run of the code on a plan: distances are symmetric and not negative, the step takes time, the flow may rise,
every path has a positive speed and no negative volume, and the first path has a point. -/
structure Run (len : Pt → Pt → ℚ) (limit step reset : ℚ) (fuel : Nat) (paths out : List GPath) : Prop where
  dist : IsDist len
  step_pos : 0 < step
  limit_nonneg : 0 ≤ limit
  sane : ∀ p ∈ paths, p.Sane
  first : ∀ p ∈ paths.head?, p.points ≠ []
  run : process len limit step reset fuel paths = .ok out

variable {limit step reset : ℚ} {fuel : Nat} {paths out : List GPath}

/-- The configuration of a run. -/
def cfg (limit step reset : ℚ) : Config := ⟨limit * 1000000000, limit * 1000000000, step, reset⟩

theorem cfg_sane (h1 : 0 < step) (h2 : 0 ≤ limit) : (cfg limit step reset).Sane :=
  ⟨h1, mul_nonneg h2 (by norm_num), mul_nonneg h2 (by norm_num)⟩

theorem cfg_delta (forward : Bool) : (cfg limit step reset).delta forward = limit * 1000000000 * step := by
  unfold cfg Config.delta; dsimp only; split <;> rfl

theorem good_flow {p : FPath} (h : Good p) : (volume p.data ≤ 0 → p.flow = 0) ∧ (0 < volume p.data → 0 < p.flow) := by
  rw [h.flow]
  refine ⟨fun h0 => ?_, fun h0 => mul_pos h0 h.pos⟩
  rw [le_antisymm h0 h.vol, zero_mul]

theorem firstFlow_spec {fs : List FPath} (h : ∀ p ∈ fs, Good p) :
    (∀ p ∈ fs, volume p.data ≤ 0) ∧ firstFlow fs = 0 ∨
    ∃ pre p post, fs = pre ++ p :: post ∧ (∀ q ∈ pre, volume q.data ≤ 0) ∧ 0 < volume p.data ∧ firstFlow fs = p.flow := by
  induction fs with
  | nil => left; exact ⟨by simp, rfl⟩
  | cons p fs ih =>
    have hp := good_flow (h p (by simp))
    by_cases hv : volume p.data ≤ 0
    · have e : firstFlow (p :: fs) = firstFlow fs := by
        unfold firstFlow
        rw [List.map_cons, List.dropWhile_cons_of_pos (by simp [hp.1 hv])]
      rcases ih fun q hq => h q (by simp [hq]) with ⟨h1, h2⟩ | ⟨pre, q, post, h1, h2, h3, h4⟩
      · left
        refine ⟨?_, e.trans h2⟩
        intro q hq
        rcases List.mem_cons.1 hq with rfl | hq
        · exact hv
        · exact h1 q hq
      · right
        refine ⟨p :: pre, q, post, by rw [h1]; rfl, ?_, h3, e.trans h4⟩
        intro x hx
        rcases List.mem_cons.1 hx with rfl | hx
        · exact hv
        · exact h2 x hx
    · right
      push Not at hv
      refine ⟨[], p, fs, rfl, by simp, hv, ?_⟩
      unfold firstFlow
      rw [List.map_cons, List.dropWhile_cons_of_neg (by simpa using (hp.2 hv).ne')]

theorem pass_const (c : Config) (forward : Bool) (n : Nat) {F : ℚ} :
    ∀ (ps : List FPath) (s : State), s.flow = F →
      (∀ p ∈ ps, Good p ∧ p.speed = target p.data p.orig ∧ (volume p.data ≤ 0 ∨ p.flow = F)) →
      ∃ s', pass len c forward n ps s = .ok (ps.map ([·]), s') ∧ s'.flow = F := by
  intro ps
  induction ps with
  | nil => intro s hs _; exact ⟨s, rfl, hs⟩
  | cons p ps ih =>
    intro s hs hp
    obtain ⟨hg, hsp, hF⟩ := hp p (by simp)
    have : ∃ s1, processPath len c forward n p s = .ok ([p], s1) ∧ s1.flow = F := by
      unfold processPath
      by_cases ht : volume p.data ≤ 0
      · rw [if_pos (hg.travel_iff.2 ht)]
        refine ⟨_, rfl, ?_⟩
        split <;> exact hs
      · rw [if_neg (fun hh => ht (hg.travel_iff.1 hh))]
        have hpF : p.flow = F := hF.resolve_left ht
        have ht : p.targetFlow = p.flow := by rw [hg.flow, hsp]; rfl
        dsimp only
        rw [if_pos]
        · exact ⟨_, rfl, hpF⟩
        · split
          · exact ht.ge
          · rw [hpF, hs]
    obtain ⟨s1, h1, h2⟩ := this
    obtain ⟨s2, h3, h4⟩ := ih s1 h2 fun q hq => hp q (by simp [hq])
    refine ⟨s2, ?_, h4⟩
    simp only [pass, h1, h3, Outcome.bind_ok, Outcome.pure_eq, List.map_cons]

/-- **C60**: a plan in which all extrusions have the same flow is left as it is. -/
theorem C60_constant (fuel : Nat) (F : ℚ) (hs : ∀ p ∈ paths, p.Sane) (hne : ∀ p ∈ paths.head?, p.points ≠ [])
    (hF : ∀ p ∈ paths, p.flow = 0 ∨ p.flow = F) : process len limit step reset fuel paths = .ok paths := by
  cases paths with
  | nil => simp [process, convertAll, processPaths, pass, firstFlow]
  | cons g rest =>
    obtain ⟨f, ps, a, c, h1, h2, h3, h4, h5, h6⟩ := convertAll_spec (hne g (by simp)) hs
    have hall : ∀ p ∈ f :: ps, Good p ∧ p.speed = target p.data p.orig ∧
        (volume p.data ≤ 0 ∨ p.flow = firstFlow (f :: ps)) := by
      have hfl : ∀ p ∈ f :: ps, p.flow = 0 ∨ p.flow = F := by
        intro p hp
        obtain ⟨x, hx, hc⟩ := forall₂_mem_right h4 p hp
        rw [hc.flow]; exact hF x hx
      intro p hp
      obtain ⟨x, hx, hc⟩ := forall₂_mem_right h4 p hp
      refine ⟨h5 p hp, by rw [hc.speed, hc.data, hc.orig], ?_⟩
      by_cases hv : volume p.data ≤ 0
      · exact Or.inl hv
      · right
        have hp0 := (good_flow (h5 p hp)).2 (not_le.1 hv)
        have hpF : p.flow = F := (hfl p hp).resolve_left hp0.ne'
        rcases firstFlow_spec h5 with ⟨k1, -⟩ | ⟨pre, q, post, k1, -, k3, k4⟩
        · exact absurd (k1 p hp) hv
        · have hq : q ∈ f :: ps := by rw [k1]; simp
          have hq0 := (good_flow (h5 q hq)).2 k3
          rw [k4, hpF, (hfl q hq).resolve_left hq0.ne']
    have hflat : ∀ l : List FPath, (l.map ([·])).flatten = l := fun l => by
      induction l with
      | nil => rfl
      | cons x l ih => simp [ih]
    have hpp : ∀ s : State, s.flow = firstFlow (f :: ps) →
        processPaths len (cfg limit step reset) fuel (firstFlow (f :: ps)) (f :: ps) s = .ok (f :: ps) := by
      intro s hs
      unfold processPaths
      obtain ⟨s1, e1, e2⟩ := pass_const (len := len) (cfg limit step reset) true fuel (f :: ps) { s with left := 0 } hs hall
      obtain ⟨s2, e3, e4⟩ := pass_const (len := len) (cfg limit step reset) false fuel (f :: ps).reverse
        { s1 with flow := min s1.flow (firstFlow (f :: ps)), left := 0 } (by dsimp only; rw [e2, min_self])
        (fun p hp => hall p (List.mem_reverse.1 hp))
      rw [e1]
      simp only [Outcome.bind_ok, hflat]
      rw [e3]
      simp only [Outcome.bind_ok, hflat, Outcome.pure_eq, List.reverse_reverse]
    unfold process
    rw [h1]
    simp only [Outcome.bind_ok]
    have := hpp ⟨firstFlow (f :: ps), 0, .undefined⟩ rfl
    unfold cfg at this
    rw [this]
    simp only [Outcome.bind_ok, Outcome.pure_eq, h6]

/-- What the code does with the paths of a run. -/
theorem Run.cases (h : Run len limit step reset fuel paths out) :
    (out = paths ∧ ∀ p ∈ paths, p.flow = 0) ∨
    ∃ f ps q qs a c gs g0, 0 < firstFlow (f :: ps) ∧ List.Forall₂ Conv paths (f :: ps) ∧ (∀ x ∈ f :: ps, Good x) ∧
      moves none paths = ⟨none, a, f.data, f.speed / 1000⟩ :: (f :: ps).flatMap FPath.moves ∧
      List.Forall₂ (Emits true) (f :: ps) ((q :: g0) :: gs) ∧ qs = g0 ++ gs.flatten ∧ (∀ x ∈ q :: qs, Good x) ∧
      Joins a c (q :: qs) ∧ out = q.classic true :: qs.map (FPath.classic false) ∧
      Rises len reset (limit * 1000000000 * step) none (q :: qs) ∧
      Falls (limit * 1000000000 * step) (some (firstFlow (f :: ps))) (q :: qs).reverse := by
  have hrun := h.run
  cases paths with
  | nil =>
    left
    refine ⟨?_, by simp⟩
    simp [process, convertAll, processPaths, pass, firstFlow] at hrun
    exact hrun
  | cons g rest =>
    obtain ⟨f, ps, a, c, h1, h2, h3, h4, h5, h6⟩ := convertAll_spec (h.first g (by simp)) h.sane
    by_cases hall : ∀ p ∈ g :: rest, p.flow = 0
    · left
      have := C60_constant (len := len) (limit := limit) (step := step) (reset := reset) fuel 0 h.sane h.first
        fun p hp => Or.inl (hall p hp)
      rw [hrun] at this
      exact ⟨Outcome.ok.inj this, hall⟩
    · right
      have hff : 0 < firstFlow (f :: ps) := by
        rcases firstFlow_spec h5 with ⟨k1, -⟩ | ⟨pre, q, post, k1, -, k3, k4⟩
        · exfalso
          apply hall
          intro p hp
          obtain ⟨x, hx, hc⟩ := forall₂_mem_right h4.flip p hp
          rw [← hc.flow]
          exact (good_flow (h5 x hx)).1 (k1 x hx)
        · rw [k4]
          exact (good_flow (h5 q (by rw [k1]; simp))).2 k3
      unfold process at hrun
      rw [h1] at hrun
      simp only [Outcome.bind_ok] at hrun
      cases hp : processPaths len ⟨limit * 1000000000, limit * 1000000000, step, reset⟩ fuel (firstFlow (f :: ps))
          (f :: ps) ⟨firstFlow (f :: ps), 0, .undefined⟩ with
      | ub => rw [hp] at hrun; simp at hrun
      | diverge => rw [hp] at hrun; simp at hrun
      | ok o =>
        rw [hp] at hrun
        have hsane := cfg_sane (reset := reset) h.step_pos h.limit_nonneg
        obtain ⟨gs, rfl, f1⟩ := processPaths_emits (c := cfg limit step reset) h.dist hsane h5 hff hff hp
        obtain ⟨r1, r2⟩ := processPaths_steps (c := cfg limit step reset) h.dist hsane h5 hff hff rfl hp
        rw [cfg_delta] at r1 r2
        cases f1 with
        | @cons _ g1 _ gs e1 e2 =>
          cases g1 with
          | nil => exact absurd rfl e1.ne
          | cons q g0 =>
            have hgood : ∀ x ∈ q :: (g0 ++ gs.flatten), Good x := by
              intro x hx
              have hx : x ∈ ((q :: g0) :: gs).flatten := by simpa using hx
              obtain ⟨l, hl, hxl⟩ := List.mem_flatten.1 hx
              obtain ⟨y, _, hy⟩ := forall₂_mem_right (List.Forall₂.cons e1 e2) l hl
              exact (hy.good x hxl).1
            have hj : Joins a c (q :: (g0 ++ gs.flatten)) := by
              have := Joins.flatten (List.Forall₂.cons e1 e2) a c h3
              simpa using this
            refine ⟨f, ps, q, g0 ++ gs.flatten, a, c, gs, g0, hff, h4, h5, ?_, .cons e1 e2, rfl, hgood, hj, ?_, ?_, ?_⟩
            · rw [h2]
              cases h4 with
              | cons k _ => rw [k.data, k.speed, target_speed]
            · simp only [Outcome.bind_ok, List.flatten_cons, List.cons_append, Outcome.pure_eq] at hrun
              exact (Outcome.ok.inj hrun).symm
            · simpa [cfg] using r1
            · simpa [cfg] using r2

/-- **C60**: gradual flow replaces every move of the plan with moves of the same kind that lead from its start to its
end on the same line (up to one unit of rounding for every split), not faster than before; travels stay as they
are. -/
theorem C60_route (h : Run len limit step reset fuel paths out) :
    ∃ groups : List (List Move), moves none out = groups.flatten ∧ List.Forall₂ Pieces (moves none paths) groups := by
  show Replaced _ _
  rcases h.cases with ⟨rfl, -⟩ | ⟨f, ps, q, qs, a, c, gs, g0, -, h4, h5, h2, hem, rfl, hgood, hj, rfl, -, -⟩
  · refine Replaced.refl ?_
    intro m hm
    have aux : ∀ (l : List GPath) (pos : Option Pt), (∀ p ∈ l, p.Sane) → ∀ m ∈ moves pos l, 0 < m.speed := by
      intro l
      induction l with
      | nil => intro pos _ m hm; simp [moves] at hm
      | cons p l ih =>
        intro pos hs m hm
        rw [moves, List.mem_append] at hm
        rcases hm with hm | hm
        · have aux2 : ∀ (l : List Pt) (pos : Option Pt), ∀ m ∈ movesTo p.data (p.speed * p.data.factor) pos l,
              0 < m.speed := by
            intro l
            induction l with
            | nil => intro pos m hm; simp [movesTo] at hm
            | cons b l ih =>
              intro pos m hm
              rcases List.mem_cons.1 hm with rfl | hm
              · exact (hs p (by simp)).1
              · exact ih _ m hm
          exact aux2 _ _ m hm
        · exact ih _ (fun x hx => hs x (by simp [hx])) m hm
    exact aux _ _ h.sane m hm
  · obtain ⟨-, hm⟩ := seen_all (len := len) (reset := reset) hj hgood
    rw [hm, h2]
    have hq : q.data = f.data ∧ q.speed ≤ f.speed ∧ (volume f.data ≤ 0 → q = f) := by
      cases hem with
      | cons e1 _ =>
        obtain ⟨g1, g2, g3, g4⟩ := e1.good q (by simp)
        refine ⟨g2, ?_, fun ht => ?_⟩
        · by_cases hv : volume f.data ≤ 0
          · have := e1.travel hv
            simp only [List.cons.injEq] at this
            rw [this.1]
          · push Not at hv
            rw [g1.flow, (h5 f (by simp)).flow, g2] at g4
            exact le_of_mul_le_mul_left g4 hv
        · have := e1.travel ht
          simp only [List.cons.injEq] at this
          exact this.1
    have hrest := Replaced.flatMap hem
    rw [List.flatten_cons, List.cons_append] at hrest
    refine Replaced.append (a := [_]) (a' := [_]) ?_ hrest
    have hqpos : 0 < q.speed / 1000 := div_pos (hgood q (by simp)).pos (by norm_num)
    refine ⟨[[_]], rfl, .cons ?_ .nil⟩
    by_cases hv : volume f.data ≤ 0
    · rw [hq.2.2 hv] at hqpos ⊢
      exact .refl _ hqpos
    · exact .slow (not_le.1 hv) rfl rfl hq.1 hqpos (div_le_div_of_nonneg_right hq.2.1 (by norm_num))

theorem Rises.split {reset δ : ℚ} {last : Option ℚ} {pre mid post : List FPath} {a b : FPath}
    (h : Rises len reset δ last (pre ++ a :: (mid ++ b :: post))) (ha : 0 < volume a.data) (hb : 0 < volume b.data)
    (hm : ∀ x ∈ mid, volume x.data ≤ 0 ∧ ¬ x.Stops len reset) : b.flow ≤ a.flow + δ := by
  induction pre generalizing last with
  | nil =>
    rw [List.nil_append] at h
    unfold Rises at h
    rw [if_neg (not_le.2 ha)] at h
    obtain ⟨-, h⟩ := h
    induction mid with
    | nil =>
      rw [List.nil_append] at h
      unfold Rises at h
      rw [if_neg (not_le.2 hb)] at h
      exact h.1 _ rfl
    | cons x mid ih =>
      rw [List.cons_append] at h
      unfold Rises at h
      rw [if_pos (hm x (by simp)).1, if_neg (hm x (by simp)).2] at h
      exact ih (fun y hy => hm y (by simp [hy])) h
  | cons p pre ih =>
    rw [List.cons_append] at h
    unfold Rises at h
    split at h
    · exact ih h
    · exact ih h.2

theorem Falls.split {δ : ℚ} {last : Option ℚ} {pre mid post : List FPath} {a b : FPath}
    (h : Falls δ last (pre ++ a :: (mid ++ b :: post))) (ha : 0 < volume a.data) (hb : 0 < volume b.data)
    (hm : ∀ x ∈ mid, volume x.data ≤ 0) : b.flow ≤ a.flow + δ := by
  induction pre generalizing last with
  | nil =>
    rw [List.nil_append] at h
    unfold Falls at h
    rw [if_neg (not_le.2 ha)] at h
    obtain ⟨-, h⟩ := h
    induction mid with
    | nil =>
      rw [List.nil_append] at h
      unfold Falls at h
      rw [if_neg (not_le.2 hb)] at h
      exact h.1 _ rfl
    | cons x mid ih =>
      rw [List.cons_append] at h
      unfold Falls at h
      rw [if_pos (hm x (by simp))] at h
      exact ih (fun y hy => hm y (by simp [hy])) h
  | cons p pre ih =>
    rw [List.cons_append] at h
    unfold Falls at h
    split at h
    · exact ih h
    · exact ih h.2

/-- Splitting the list of paths with their starts. -/
theorem seen_split {l : List (Option Pt × GPath)} {ps : List FPath} (h : List.Forall₂ (Seen len reset) l ps)
    {pre mid post : List (Option Pt × GPath)} {a b : Option Pt × GPath} (hl : l = pre ++ a :: (mid ++ b :: post)) :
    ∃ pre' a' mid' b' post', ps = pre' ++ a' :: (mid' ++ b' :: post') ∧ Seen len reset a a' ∧
      List.Forall₂ (Seen len reset) mid mid' ∧ Seen len reset b b' := by
  subst hl
  obtain ⟨pre', r1, rfl, -, f1⟩ := forall₂_split h
  cases f1 with
  | cons s1 f1 =>
    obtain ⟨mid', r2, rfl, f2, f3⟩ := forall₂_split f1
    cases f3 with
    | cons s2 f3 => exact ⟨pre', _, mid', _, _, rfl, s1, f2, s2⟩

theorem seen_volume {x : Option Pt × GPath} {p : FPath} (h : Seen len reset x p) (hg : Good p) :
    (x.2.flow ≤ 0 → volume p.data ≤ 0) ∧ (0 < x.2.flow → 0 < volume p.data) := by
  rw [h.flow]
  obtain ⟨h1, h2⟩ := good_flow hg
  constructor
  · intro h0
    by_contra hc
    exact absurd (h2 (not_le.1 hc)) (not_lt.2 h0)
  · intro h0
    by_contra hc
    rw [h1 (not_lt.1 hc)] at h0
    exact lt_irrefl _ h0

/-- **C61**: from one extrusion to the next the flow rises at most by the maximum flow acceleration times the duration
of a step, unless there is a travel between them after which the flow starts anew. -/
theorem C61_rise_partial (h : Run len limit step reset fuel paths out) (pre mid post : List (Option Pt × GPath))
    (a b : Option Pt × GPath) (hl : starts none out = pre ++ a :: (mid ++ b :: post)) (ha : 0 < a.2.flow)
    (hb : 0 < b.2.flow) (hm : ∀ t ∈ mid, t.2.flow ≤ 0 ∧ ¬ Interrupts len reset t) :
    b.2.flow ≤ a.2.flow + limit * 1000000000 * step := by
  rcases h.cases with ⟨rfl, h0⟩ | ⟨f, ps, q, qs, x, c, gs, g0, -, -, -, -, -, rfl, hgood, hj, rfl, hri, -⟩
  · exfalso
    have aux : ∀ (l : List GPath) (pos : Option Pt), ∀ y ∈ starts pos l, y.2 ∈ l := by
      intro l
      induction l with
      | nil => intro pos y hy; simp [starts] at hy
      | cons p l ih =>
        intro pos y hy
        rcases List.mem_cons.1 hy with rfl | hy
        · simp
        · exact List.mem_cons_of_mem _ (ih _ y hy)
    have := h0 a.2 (aux _ _ a (by rw [hl]; simp))
    rw [this] at ha
    exact lt_irrefl _ ha
  · obtain ⟨hs, -⟩ := seen_all (len := len) (reset := reset) hj hgood
    obtain ⟨pre', a', mid', b', post', e, sa, sm, sb⟩ := seen_split hs hl
    rw [e] at hri hgood
    rw [sa.flow, sb.flow]
    refine hri.split ((seen_volume sa (hgood a' (by simp))).2 ha) ((seen_volume sb (hgood b' (by simp))).2 hb) ?_
    intro y hy
    obtain ⟨t, ht, st⟩ := forall₂_mem_right sm y hy
    obtain ⟨t1, t2⟩ := hm t ht
    exact ⟨(seen_volume st (hgood y (by simp [hy]))).1 t1, fun hh => t2 (st.stops.2 hh)⟩

/-- **C61**: from one extrusion to the next the flow falls at most by the same amount, whatever travels are between. -/
theorem C61_fall_partial (h : Run len limit step reset fuel paths out) (pre mid post : List (Option Pt × GPath))
    (a b : Option Pt × GPath) (hl : starts none out = pre ++ a :: (mid ++ b :: post)) (ha : 0 < a.2.flow)
    (hb : 0 < b.2.flow) (hm : ∀ t ∈ mid, t.2.flow ≤ 0) :
    a.2.flow ≤ b.2.flow + limit * 1000000000 * step := by
  rcases h.cases with ⟨rfl, h0⟩ | ⟨f, ps, q, qs, x, c, gs, g0, -, -, -, -, -, rfl, hgood, hj, rfl, -, hfa⟩
  · exfalso
    have aux : ∀ (l : List GPath) (pos : Option Pt), ∀ y ∈ starts pos l, y.2 ∈ l := by
      intro l
      induction l with
      | nil => intro pos y hy; simp [starts] at hy
      | cons p l ih =>
        intro pos y hy
        rcases List.mem_cons.1 hy with rfl | hy
        · simp
        · exact List.mem_cons_of_mem _ (ih _ y hy)
    have := h0 a.2 (aux _ _ a (by rw [hl]; simp))
    rw [this] at ha
    exact lt_irrefl _ ha
  · obtain ⟨hs, -⟩ := seen_all (len := len) (reset := reset) hj hgood
    obtain ⟨pre', a', mid', b', post', e, sa, sm, sb⟩ := seen_split hs hl
    rw [e] at hfa hgood
    rw [sa.flow, sb.flow]
    have hrev : (pre' ++ a' :: (mid' ++ b' :: post')).reverse =
        post'.reverse ++ b' :: (mid'.reverse ++ a' :: pre'.reverse) := by simp
    rw [hrev] at hfa
    refine hfa.split ((seen_volume sb (hgood b' (by simp))).2 hb) ((seen_volume sa (hgood a' (by simp))).2 ha) ?_
    intro y hy
    have hy := List.mem_reverse.1 hy
    obtain ⟨t, ht, st⟩ := forall₂_mem_right sm y hy
    exact (seen_volume st (hgood y (by simp [hy]))).1 (hm t ht)

/-- **C61**: the last extrusion of the plan has at most one step more flow than its first extrusion was meant to have
(with which the next layer is expected to start). -/
theorem C61_end_partial (h : Run len limit step reset fuel paths out) (pre post : List GPath) (a : GPath)
    (hl : out = pre ++ a :: post) (ha : 0 < a.flow) (hp : ∀ t ∈ post, t.flow ≤ 0) (before after : List GPath) (b : GPath)
    (hin : paths = before ++ b :: after) (hb : 0 < b.flow) (hbe : ∀ t ∈ before, t.flow ≤ 0) :
    a.flow ≤ b.flow + limit * 1000000000 * step := by
  rcases h.cases with ⟨rfl, h0⟩ | ⟨f, ps, q, qs, x, c, gs, g0, -, h4, h5, -, -, rfl, hgood, hj, hout, -, hfa⟩
  · exfalso
    have := h0 b (by rw [hin]; simp)
    rw [this] at hb
    exact lt_irrefl _ hb
  · have hff : firstFlow (f :: ps) = b.flow := by
      rw [hin] at h4
      obtain ⟨l1, l2, e, f1, f2⟩ := forall₂_split h4
      rw [e] at h5 ⊢
      cases f2 with
      | cons k1 k2 =>
        rcases firstFlow_spec h5 with ⟨k, -⟩ | ⟨pre2, q2, post2, k, k3, k4, k5⟩
        · exfalso
          rename_i b' _
          have := (good_flow (h5 b' (by simp))).1 (k b' (by simp))
          rw [k1.flow] at this
          rw [this] at hb
          exact lt_irrefl _ hb
        · rename_i b' l2
          rw [k5, ← k1.flow]
          have hb' : 0 < volume b'.data := by
            by_contra hc
            have := (good_flow (h5 b' (by simp))).1 (not_lt.1 hc)
            rw [← k1.flow, this] at hb
            exact lt_irrefl _ hb
          have hl1 : ∀ y ∈ l1, volume y.data ≤ 0 := by
            intro y hy
            obtain ⟨t, ht, st⟩ := forall₂_mem_right f1 y hy
            by_contra hc
            have h1 := (good_flow (h5 y (by simp [hy]))).2 (not_le.1 hc)
            rw [st.flow] at h1
            exact absurd h1 (not_lt.2 (hbe t ht))
          clear h5 f1 k5 e h4 hfa
          induction l1 generalizing pre2 with
          | nil =>
            cases pre2 with
            | nil => simp at k; rw [k.1]
            | cons y pre2 =>
              simp at k
              have := k3 b' (by rw [k.1]; simp)
              exact absurd hb' (not_lt.2 this)
          | cons z l1 ih =>
            cases pre2 with
            | nil =>
              simp at k
              have := hl1 z (by simp)
              rw [k.1] at this
              exact absurd k4 (not_lt.2 this)
            | cons y pre2 =>
              simp at k
              exact ih pre2 k.2 (fun w hw => k3 w (by simp [hw])) (fun w hw => hl1 w (by simp [hw]))
    have hfl : List.Forall₂ (fun (g : GPath) (p : FPath) => g.flow = p.flow) out (q :: (g0 ++ gs.flatten)) := by
      rw [hout]
      refine .cons (classic_flow (hgood q (by simp)) true) ?_
      rw [List.forall₂_map_left_iff]
      have : ∀ y ∈ g0 ++ gs.flatten, (y.classic false).flow = y.flow := fun y hy =>
        classic_flow (hgood y (List.mem_cons_of_mem _ hy)) false
      generalize g0 ++ gs.flatten = l at this
      induction l with
      | nil => exact .nil
      | cons y l ih => exact .cons (this y (by simp)) (ih fun w hw => this w (by simp [hw]))
    rw [hl] at hfl
    obtain ⟨l1, l2, e, f1, f2⟩ := forall₂_split hfl
    rw [e] at hfa hgood
    rw [hff] at hfa
    cases f2 with
    | @cons _ a' _ post' k1 k2 =>
      rw [k1]
      have hpost : ∀ y ∈ post', volume y.data ≤ 0 := by
        intro y hy
        obtain ⟨t, ht, st⟩ := forall₂_mem_right k2 y hy
        by_contra hc
        have h1 := (good_flow (hgood y (by simp [hy]))).2 (not_le.1 hc)
        rw [← st] at h1
        exact absurd h1 (not_lt.2 (hp t ht))
      have ha' : 0 < volume a'.data := by
        by_contra hc
        have := (good_flow (hgood a' (by simp))).1 (not_lt.1 hc)
        rw [k1, this] at ha
        exact lt_irrefl _ ha
      rw [List.reverse_append, List.reverse_cons, List.append_assoc] at hfa
      have hpr : ∀ y ∈ post'.reverse, volume y.data ≤ 0 := fun y hy => hpost y (List.mem_reverse.1 hy)
      generalize post'.reverse = pr at hfa hpr
      induction pr with
      | nil =>
        rw [List.nil_append, List.singleton_append] at hfa
        unfold Falls at hfa
        rw [if_neg (not_le.2 ha')] at hfa
        exact hfa.1 _ rfl
      | cons y pr ih =>
        rw [List.cons_append] at hfa
        unfold Falls at hfa
        rw [if_pos (hpr y (by simp))] at hfa
        exact ih hfa fun w hw => hpr w (by simp [hw])

/-- **C60**: the code ends without undefined behaviour for every plan whose first path has a point, if the flow may
rise at all and a step takes time. -/
theorem C60_defined (hd : IsDist len) (hl : 0 < limit) (hst : 0 < step) (hs : ∀ p ∈ paths, p.Sane)
    (hne : ∀ p ∈ paths.head?, p.points ≠ []) :
    ∃ n, ∀ fuel, n ≤ fuel → ∃ out, process len limit step reset fuel paths = .ok out := by
  cases paths with
  | nil => exact ⟨0, fun fuel _ => ⟨[], by simp [process, convertAll, processPaths, pass, firstFlow]⟩⟩
  | cons g rest =>
    by_cases hall : ∀ p ∈ g :: rest, p.flow = 0
    · exact ⟨0, fun fuel _ => ⟨_, C60_constant fuel 0 hs hne fun p hp => Or.inl (hall p hp)⟩⟩
    · obtain ⟨f, ps, a, c, h1, h2, h3, h4, h5, h6⟩ := convertAll_spec (hne g (by simp)) hs
      have hff : 0 < firstFlow (f :: ps) := by
        rcases firstFlow_spec h5 with ⟨k1, -⟩ | ⟨pre, q, post, k1, -, k3, k4⟩
        · exfalso
          apply hall
          intro p hp
          obtain ⟨x, hx, hc⟩ := forall₂_mem_right h4.flip p hp
          rw [← hc.flow]
          exact (good_flow (h5 x hx)).1 (k1 x hx)
        · rw [k4]
          exact (good_flow (h5 q (by rw [k1]; simp))).2 k3
      have hδ : 0 < limit * 1000000000 * step := by positivity
      have hmax : ∀ l : List FPath, ∃ n : Nat, ∀ m : Nat, n ≤ m → ∀ p ∈ l, p.flow ≤ m * (limit * 1000000000 * step) := by
        intro l
        induction l with
        | nil => exact ⟨0, by simp⟩
        | cons p l ih =>
          obtain ⟨n, hn⟩ := ih
          obtain ⟨k, hk⟩ := exists_nat_ge (p.flow / (limit * 1000000000 * step))
          refine ⟨max n k, ?_⟩
          intro m hm q hq
          rcases List.mem_cons.1 hq with rfl | hq
          · have h1 : (k : ℚ) ≤ m := by exact_mod_cast (le_max_right n k).trans hm
            rw [← div_le_iff₀ hδ]
            exact hk.trans h1
          · exact hn m ((le_max_left n k).trans hm) q hq
      obtain ⟨n, hn⟩ := hmax (f :: ps)
      refine ⟨n, fun fuel hfu => ?_⟩
      have hsane := cfg_sane (reset := reset) hst hl.le
      have hfl := hn fuel hfu
      obtain ⟨p1, p2⟩ := pass_emits hd hsane true fuel (f :: ps) ⟨firstFlow (f :: ps), 0, .undefined⟩ h5 hff
      obtain ⟨⟨news, s1⟩, hr⟩ := p2 fun p hp => by rw [cfg_delta]; exact hfl p hp
      obtain ⟨f1, f0⟩ := p1 news s1 hr
      have hg1 : ∀ p ∈ news.flatten.reverse, Good p ∧ p.flow ≤ fuel * (limit * 1000000000 * step) := by
        intro p hp
        obtain ⟨l, hl, hpl⟩ := List.mem_flatten.1 (List.mem_reverse.1 hp)
        obtain ⟨q, hqm, hq⟩ := forall₂_mem_right f1 l hl
        exact ⟨(hq.good p hpl).1, (hq.good p hpl).2.2.2.trans (hfl q hqm)⟩
      obtain ⟨-, b2⟩ := pass_emits hd hsane false fuel news.flatten.reverse
        { s1 with flow := min s1.flow (firstFlow (f :: ps)), left := 0 } (fun p hp => (hg1 p hp).1) (lt_min f0 hff)
      obtain ⟨⟨news2, s2⟩, hr2⟩ := b2 fun p hp => by rw [cfg_delta]; exact (hg1 p hp).2
      unfold process
      rw [h1]
      simp only [Outcome.bind_ok]
      unfold processPaths
      unfold cfg at hr hr2
      simp only [hr, Outcome.bind_ok, hr2, Outcome.pure_eq]
      split <;> exact ⟨_, rfl⟩

end Verif.Flow
