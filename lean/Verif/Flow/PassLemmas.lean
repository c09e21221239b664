import Verif.Flow.PathLemmas

/-! # Lemmas on the passes -/

namespace Verif.Flow

variable {len : Pt → Pt → ℚ}

theorem speed_le {p : FPath} (hp : Good p) (hv : 0 < volume p.data) {f : ℚ} (h : f ≤ p.flow) :
    f / p.data.vol ≤ p.speed ∧ p.data.vol * (f / p.data.vol) = f := by
  rw [vol_eq]
  refine ⟨?_, by field_simp⟩
  rw [div_le_iff₀ hv, mul_comm, ← hp.flow]
  exact h

theorem ramp_spec (h : IsDist len) (forward : Bool) {step delta goal : ℚ} (hstep : 0 < step) (hd : 0 ≤ delta) :
    ∀ (fuel : Nat) (p : FPath) (done : List FPath) (s : State), Good p → 0 < volume p.data → p.flow = goal →
      0 < s.flow → s.flow < goal →
      (∀ out s', ramp len forward step delta goal p.data.vol fuel p done s = .ok (out, s') →
        ∃ e, out = done ++ e ∧ Emits forward p e ∧ Climb delta s.flow e s'.flow ∧ s'.state ≠ .undefined ∧
          0 < s'.flow) ∧
      (goal ≤ s.flow + fuel * delta → ∃ r, ramp len forward step delta goal p.data.vol fuel p done s = .ok r) := by
  intro fuel
  induction fuel with
  | zero =>
    intro p done s hp hv hg h0 hlt
    refine ⟨fun out s' hr => by simp [ramp] at hr, fun hf => ?_⟩
    simp at hf
    exact absurd hlt (not_lt.2 hf)
  | succ fuel ih =>
    intro p done s hp hv hg h0 hlt
    simp only [ramp, if_pos hlt]
    by_cases hm : min goal (s.flow + delta) = goal
    · rw [hm, if_pos rfl]
      have hgle : goal ≤ s.flow + delta := by
        have := min_le_right goal (s.flow + delta)
        rwa [hm] at this
      have hsp : goal / p.data.vol = p.speed := by
        rw [← hg, hp.flow, vol_eq]; field_simp
      have hpp : ({ p with speed := goal / p.data.vol } : FPath) = p := by rw [hsp]
      rw [hpp]
      refine ⟨?_, fun _ => ⟨_, rfl⟩⟩
      intro out s' hr
      obtain ⟨rfl, rfl⟩ := Prod.mk.inj (Outcome.ok.inj hr)
      refine ⟨[p], rfl, Emits.refl forward hp, ?_, ?_, by simpa [State.settle] using h0.trans hlt⟩
      · have := Climb.last (δ := delta) (f := s.flow) p (by rw [hg]; exact hlt.le) (by rw [hg]; exact hgle)
        rw [hg] at this
        exact this
      · unfold State.settle; dsimp only; split <;> simp
    · rw [if_neg hm]
      have hlt' : s.flow + delta < goal := by
        by_contra hc
        exact hm (min_eq_left (not_lt.1 hc))
      have hmin : min goal (s.flow + delta) = s.flow + delta := min_eq_right hlt'.le
      rw [hmin]
      have hfpos : 0 < s.flow + delta := by linarith
      obtain ⟨hle, heq⟩ := speed_le hp hv (hg ▸ hlt'.le)
      have hvpos : 0 < (s.flow + delta) / p.data.vol := div_pos hfpos hv
      obtain ⟨⟨⟨part, rest, left⟩, hr⟩, hsome, hnone⟩ := partition_spec h hvpos hstep forward p
      rw [hr]
      cases rest with
      | none =>
        dsimp only
        obtain ⟨rfl, -, -⟩ := hnone part left hr
        refine ⟨?_, fun _ => ⟨_, rfl⟩⟩
        intro out s' hr'
        obtain ⟨rfl, rfl⟩ := Prod.mk.inj (Outcome.ok.inj hr')
        refine ⟨_, rfl, Emits.slow forward hp hv hvpos hle, ?_, by simp, hfpos⟩
        have := Climb.last (δ := delta) (f := s.flow) (FPath.mk' p.data p.orig p.points ((s.flow + delta) / p.data.vol))
          (by show s.flow ≤ p.data.vol * _; rw [heq]; linarith) (by show p.data.vol * _ ≤ _; rw [heq])
        have e : (FPath.mk' p.data p.orig p.points ((s.flow + delta) / p.data.vol)).flow = s.flow + delta := heq
        rw [e] at this
        exact this
      | some rest =>
        dsimp only
        obtain ⟨l1, l2, rfl, rfl, hsplit, rfl⟩ := hsome part rest left hr
        have hgood : Good (FPath.mk' p.data p.orig l2 p.speed) := .mk' hv hp.pos hp.le
        obtain ⟨i1, i2⟩ := ih (FPath.mk' p.data p.orig l2 p.speed)
          (done ++ [FPath.mk' p.data p.orig l1 ((s.flow + delta) / p.data.vol)]) { s with flow := s.flow + delta }
          hgood hv (by rw [← hg, hp.flow]; rfl) hfpos hlt'
        refine ⟨?_, ?_⟩
        · intro out s' hr'
          obtain ⟨e, rfl, he, hc, hst, hpos⟩ := i1 out s' hr'
          refine ⟨FPath.mk' p.data p.orig l1 ((s.flow + delta) / p.data.vol) :: e, by simp,
            Emits.split forward hp hv hvpos hle hsplit he, ?_, hst, hpos⟩
          have e1 : (FPath.mk' p.data p.orig l1 ((s.flow + delta) / p.data.vol)).flow = s.flow + delta := heq
          refine Climb.cons _ (by rw [e1]; linarith) (by rw [e1]) ?_
          rw [e1]; exact hc
        · intro hf
          refine i2 ?_
          push_cast at hf
          show goal ≤ s.flow + delta + fuel * delta
          linarith

theorem raise_spec (h : IsDist len) (c : Config) (forward : Bool) {δ : ℚ}
    (hδ : (if forward then c.acc else c.dec) * c.step = δ) (hstep : 0 < c.step) (hd : 0 ≤ δ) (fuel : Nat) (p : FPath)
    (s : State) (hp : Good p) (hv : 0 < volume p.data) (h0 : 0 < s.flow) (hlt : s.flow < p.flow) :
    (∀ out s', raise len c forward fuel p s = .ok (out, s') →
      Emits forward p out ∧ Climb δ s.flow out s'.flow ∧ s'.state ≠ .undefined ∧ 0 < s'.flow) ∧
    (p.flow ≤ s.flow + fuel * δ → ∃ r, raise len c forward fuel p s = .ok r) := by
  unfold raise
  dsimp only
  rw [hδ]
  by_cases hl : s.left > 0
  · rw [if_pos hl]
    obtain ⟨hle, heq⟩ := speed_le hp hv hlt.le
    have hvpos : 0 < s.flow / p.data.vol := div_pos h0 hv
    obtain ⟨⟨⟨part, rest, left⟩, hr⟩, hsome, hnone⟩ := partition_spec h hvpos hl forward p
    rw [hr]
    cases rest with
    | none =>
      dsimp only
      obtain ⟨rfl, -, -⟩ := hnone part left hr
      refine ⟨?_, fun _ => ⟨_, rfl⟩⟩
      intro out s' hr'
      obtain ⟨rfl, rfl⟩ := Prod.mk.inj (Outcome.ok.inj hr')
      refine ⟨Emits.slow forward hp hv hvpos hle, ?_, by simp, h0⟩
      have e : (FPath.mk' p.data p.orig p.points (s.flow / p.data.vol)).flow = s.flow := heq
      have := Climb.last (δ := δ) (f := s.flow) (FPath.mk' p.data p.orig p.points (s.flow / p.data.vol))
        (by rw [e]) (by rw [e]; linarith)
      rw [e] at this
      exact this
    | some rest =>
      dsimp only
      obtain ⟨l1, l2, rfl, rfl, hsplit, rfl⟩ := hsome part rest left hr
      have hgood : Good (FPath.mk' p.data p.orig l2 p.speed) := .mk' hv hp.pos hp.le
      obtain ⟨i1, i2⟩ := ramp_spec h forward (goal := p.flow) hstep hd fuel (FPath.mk' p.data p.orig l2 p.speed)
        [FPath.mk' p.data p.orig l1 (s.flow / p.data.vol)] { s with left := max 0 (s.left - 0) }
        hgood hv (by rw [hp.flow]; rfl) h0 hlt
      refine ⟨?_, i2⟩
      intro out s' hr'
      obtain ⟨e, rfl, he, hc, hst, hpos⟩ := i1 out s' hr'
      refine ⟨Emits.split forward hp hv hvpos hle hsplit he, ?_, hst, hpos⟩
      have e1 : (FPath.mk' p.data p.orig l1 (s.flow / p.data.vol)).flow = s.flow := heq
      refine Climb.cons _ (by rw [e1]) (by rw [e1]; linarith) ?_
      rw [e1]; exact hc
  · rw [if_neg hl]
    obtain ⟨i1, i2⟩ := ramp_spec h forward (goal := p.flow) hstep hd fuel p [] s hp hv rfl h0 hlt
    refine ⟨?_, i2⟩
    intro out s' hr'
    obtain ⟨e, rfl, he, hc, hst, hpos⟩ := i1 out s' hr'
    exact ⟨he, hc, hst, hpos⟩

/-- After which travels the flow starts anew. -/
def FPath.Stops (len : Pt → Pt → ℚ) (reset : ℚ) (p : FPath) : Prop := p.data.retract = true ∨ reset < p.duration len

/-- The settings the lemmas need. -/
structure Config.Sane (c : Config) : Prop where
  step : 0 < c.step
  acc : 0 ≤ c.acc
  dec : 0 ≤ c.dec

/-- The largest change in a step. -/
def Config.delta (c : Config) (forward : Bool) : ℚ := (if forward then c.acc else c.dec) * c.step

theorem Config.Sane.delta {c : Config} (h : c.Sane) (forward : Bool) : 0 ≤ c.delta forward := by
  unfold Config.delta
  have := h.acc; have := h.dec
  exact mul_nonneg (by split <;> assumption) h.step.le

theorem processPath_spec (h : IsDist len) {c : Config} (hc : c.Sane) (forward : Bool) (fuel : Nat) (p : FPath)
    (s : State) (hp : Good p) (h0 : 0 < s.flow) :
    (∀ e s', processPath len c forward fuel p s = .ok (e, s') →
      Emits forward p e ∧ 0 < s'.flow ∧
      (volume p.data ≤ 0 → e = [p] ∧ s'.flow = s.flow ∧ (p.Stops len c.reset → s'.state = .undefined) ∧
        (¬ p.Stops len c.reset → s'.state = s.state)) ∧
      (0 < volume p.data → s'.state ≠ .undefined ∧
        (((s.state = .undefined ∧ forward = true ∨ p.flow ≤ s.flow) ∧ e = [p] ∧ s'.flow = p.flow) ∨
          (¬ (s.state = .undefined ∧ forward = true) ∧ s.flow < p.flow ∧ Climb (c.delta forward) s.flow e s'.flow)))) ∧
    (p.flow ≤ fuel * c.delta forward → ∃ r, processPath len c forward fuel p s = .ok r) := by
  unfold processPath
  by_cases ht : volume p.data ≤ 0
  · rw [if_pos (hp.travel_iff.2 ht)]
    refine ⟨?_, fun _ => ⟨_, rfl⟩⟩
    intro e s' hr
    obtain ⟨rfl, hs⟩ := Prod.mk.inj (Outcome.ok.inj hr)
    refine ⟨Emits.refl forward hp, ?_, fun _ => ⟨rfl, ?_, ?_, ?_⟩, fun h => absurd ht (not_le.2 h)⟩
    · rw [← hs]; split <;> exact h0
    · rw [← hs]; split <;> rfl
    · intro hst; rw [← hs, if_pos (show p.data.retract = true ∨ p.duration len > c.reset from hst)]
    · intro hst; rw [← hs, if_neg (show ¬ (p.data.retract = true ∨ p.duration len > c.reset) from hst)]
  · rw [if_neg (fun hh => ht (hp.travel_iff.1 hh))]
    have hv : 0 < volume p.data := not_le.1 ht
    have htf : p.flow ≤ p.targetFlow := by
      rw [hp.flow]; exact mul_le_mul_of_nonneg_left hp.le hv.le
    have hpf : 0 < p.flow := by rw [hp.flow]; exact mul_pos hv hp.pos
    dsimp only
    by_cases hu : s.state = .undefined ∧ forward = true
    · rw [if_pos hu, if_pos htf]
      refine ⟨?_, fun _ => ⟨_, rfl⟩⟩
      intro e s' hr
      obtain ⟨rfl, rfl⟩ := Prod.mk.inj (Outcome.ok.inj hr)
      exact ⟨Emits.refl forward hp, hpf, fun h => absurd h ht, fun _ => ⟨by simp, Or.inl ⟨Or.inl hu, rfl, rfl⟩⟩⟩
    · rw [if_neg hu]
      by_cases hle : p.flow ≤ s.flow
      · rw [if_pos hle]
        refine ⟨?_, fun _ => ⟨_, rfl⟩⟩
        intro e s' hr
        obtain ⟨rfl, rfl⟩ := Prod.mk.inj (Outcome.ok.inj hr)
        exact ⟨Emits.refl forward hp, hpf, fun h => absurd h ht,
          fun _ => ⟨by simp, Or.inl ⟨Or.inr hle, rfl, rfl⟩⟩⟩
      · rw [if_neg hle]
        obtain ⟨r1, r2⟩ := raise_spec h c forward (δ := c.delta forward) rfl hc.step (hc.delta forward) fuel p s hp hv h0
          (not_le.1 hle)
        refine ⟨?_, fun hf => r2 (by linarith)⟩
        intro e s' hr
        obtain ⟨e1, e2, e3, e4⟩ := r1 e s' hr
        exact ⟨e1, e4, fun h => absurd h ht, fun _ => ⟨e3, Or.inr ⟨hu, not_le.1 hle, e2⟩⟩⟩

/-! ## A pass -/

theorem pass_emits (h : IsDist len) {c : Config} (hc : c.Sane) (forward : Bool) (fuel : Nat) :
    ∀ (ps : List FPath) (s : State), (∀ p ∈ ps, Good p) → 0 < s.flow →
      (∀ news s', pass len c forward fuel ps s = .ok (news, s') →
        List.Forall₂ (Emits forward) ps news ∧ 0 < s'.flow) ∧
      ((∀ p ∈ ps, p.flow ≤ fuel * c.delta forward) → ∃ r, pass len c forward fuel ps s = .ok r) := by
  intro ps
  induction ps with
  | nil =>
    intro s _ h0
    refine ⟨fun news s' hr => ?_, fun _ => ⟨_, rfl⟩⟩
    obtain ⟨rfl, rfl⟩ := Prod.mk.inj (Outcome.ok.inj hr)
    exact ⟨.nil, h0⟩
  | cons p ps ih =>
    intro s hg h0
    obtain ⟨p1, p2⟩ := processPath_spec h hc forward fuel p s (hg p (by simp)) h0
    simp only [pass]
    refine ⟨?_, ?_⟩
    · intro news s' hr
      cases hpp : processPath len c forward fuel p s with
      | ub => rw [hpp] at hr; simp at hr
      | diverge => rw [hpp] at hr; simp at hr
      | ok r =>
        obtain ⟨e, s1⟩ := r
        rw [hpp] at hr
        simp only [Outcome.bind_ok] at hr
        obtain ⟨e1, e2, -⟩ := p1 e s1 hpp
        obtain ⟨i1, -⟩ := ih s1 (fun q hq => hg q (by simp [hq])) e2
        cases hps : pass len c forward fuel ps s1 with
        | ub => rw [hps] at hr; simp at hr
        | diverge => rw [hps] at hr; simp at hr
        | ok r =>
          obtain ⟨ns, s2⟩ := r
          rw [hps] at hr
          simp only [Outcome.bind_ok, Outcome.pure_eq] at hr
          obtain ⟨rfl, rfl⟩ := Prod.mk.inj (Outcome.ok.inj hr)
          obtain ⟨f1, f2⟩ := i1 ns s2 hps
          exact ⟨.cons e1 f1, f2⟩
    · intro hf
      obtain ⟨⟨e, s1⟩, hr⟩ := p2 (hf p (by simp))
      obtain ⟨e1, e2, -⟩ := p1 e s1 hr
      obtain ⟨-, i2⟩ := ih s1 (fun q hq => hg q (by simp [hq])) e2
      obtain ⟨⟨ns, s2⟩, hr2⟩ := i2 fun q hq => hf q (by simp [hq])
      rw [hr]
      simp only [Outcome.bind_ok, hr2, Outcome.pure_eq]
      exact ⟨_, rfl⟩

/-- One step of a pass. -/
theorem pass_cons {c : Config} {forward : Bool} {fuel : Nat} {p : FPath} {ps : List FPath} {s s' : State}
    {news : List (List FPath)} (hr : pass len c forward fuel (p :: ps) s = .ok (news, s')) :
    ∃ e s1 ns, processPath len c forward fuel p s = .ok (e, s1) ∧ pass len c forward fuel ps s1 = .ok (ns, s') ∧
      news = e :: ns := by
  simp only [pass] at hr
  cases hpp : processPath len c forward fuel p s with
  | ub => rw [hpp] at hr; simp at hr
  | diverge => rw [hpp] at hr; simp at hr
  | ok r =>
    obtain ⟨e, s1⟩ := r
    rw [hpp] at hr
    simp only [Outcome.bind_ok] at hr
    cases hps : pass len c forward fuel ps s1 with
    | ub => rw [hps] at hr; simp at hr
    | diverge => rw [hps] at hr; simp at hr
    | ok r =>
      obtain ⟨ns, s2⟩ := r
      rw [hps] at hr
      simp only [Outcome.bind_ok, Outcome.pure_eq] at hr
      obtain ⟨rfl, rfl⟩ := Prod.mk.inj (Outcome.ok.inj hr)
      exact ⟨e, s1, ns, rfl, hps, rfl⟩

/-! ## Emissions in the order of printing -/

theorem Emits.toTrue {forward : Bool} {p : FPath} {e : List FPath} (h : Emits forward p e) :
    Emits true p (order forward e) where
  replaced := by simpa [order] using h.replaced
  joins := by simpa [order] using h.joins
  good := by
    intro x hx
    refine h.good x ?_
    unfold order at hx
    split at hx
    · exact hx
    · exact List.mem_reverse.1 hx
  ne := by
    unfold order
    split
    · exact h.ne
    · simpa using h.ne
  travel := by
    intro ht
    rw [h.travel ht]
    unfold order; split <;> rfl

theorem Replaced.flatMap {l : List FPath} {gs : List (List FPath)} (h : List.Forall₂ (Emits true) l gs) :
    Replaced (l.flatMap FPath.moves) (gs.flatten.flatMap FPath.moves) := by
  induction h with
  | nil => exact .nil
  | cons h1 _ ih =>
    rw [List.flatMap_cons, List.flatten_cons, List.flatMap_append]
    exact Replaced.append (by simpa [order] using h1.replaced) ih

theorem Joins.flatten {l : List FPath} {gs : List (List FPath)} (h : List.Forall₂ (Emits true) l gs) :
    ∀ a b, Joins a b l → Joins a b gs.flatten := by
  induction h with
  | nil => exact fun a b hj => hj
  | @cons p g l gs h1 _ ih =>
    intro a b hj
    obtain ⟨c, c1, c2⟩ := Joins.split (l := [p]) (l' := l) hj
    rw [List.flatten_cons]
    exact (h1.joins _ _ c1 : Joins a c (order true g)).append (ih _ _ c2)

theorem Emits.comp {p : FPath} {g : List FPath} {gs : List (List FPath)} (h : Emits true p g)
    (hgs : List.Forall₂ (Emits true) g gs) : Emits true p gs.flatten where
  replaced := by
    have := h.replaced
    simp only [order, if_true] at this ⊢
    exact this.trans (Replaced.flatMap hgs)
  joins := by
    intro a b hj
    have := h.joins a b hj
    simp only [order, if_true] at this ⊢
    exact Joins.flatten hgs a b this
  good := by
    intro x hx
    obtain ⟨l, hl, hxl⟩ := List.mem_flatten.1 hx
    obtain ⟨y, hy, he⟩ := forall₂_mem_right hgs l hl
    obtain ⟨y1, y2, y3, y4⟩ := h.good y hy
    obtain ⟨x1, x2, x3, x4⟩ := he.good x hxl
    exact ⟨x1, x2.trans y2, x3.trans y3, x4.trans y4⟩
  ne := by
    intro h0
    rw [List.flatten_eq_nil_iff] at h0
    cases hgs with
    | nil => exact h.ne rfl
    | cons h1 h2 => exact h1.ne (h0 _ (by simp))
  travel := by
    intro ht
    have := h.travel ht
    subst this
    cases hgs with
    | cons h1 h2 => cases h2; simpa using h1.travel ht

theorem forall₂_split {α β : Type} {R : α → β → Prop} {a b : List α} {l : List β} (h : List.Forall₂ R (a ++ b) l) :
    ∃ l1 l2, l = l1 ++ l2 ∧ List.Forall₂ R a l1 ∧ List.Forall₂ R b l2 := by
  induction a generalizing l with
  | nil => exact ⟨[], l, rfl, .nil, h⟩
  | cons x a ih =>
    cases h with
    | cons h1 h2 =>
      obtain ⟨l1, l2, rfl, f1, f2⟩ := ih h2
      exact ⟨_ :: l1, l2, rfl, .cons h1 f1, f2⟩

theorem emits_comp {l : List FPath} {gs : List (List FPath)} (h : List.Forall₂ (Emits true) l gs) :
    ∀ hs : List (List FPath), List.Forall₂ (Emits true) gs.flatten hs →
      ∃ ks, hs.flatten = ks.flatten ∧ List.Forall₂ (Emits true) l ks := by
  induction h with
  | nil =>
    intro hs hh
    cases hh
    exact ⟨[], rfl, .nil⟩
  | cons h1 _ ih =>
    intro hs hh
    rw [List.flatten_cons] at hh
    obtain ⟨l1, l2, rfl, f1, f2⟩ := forall₂_split hh
    obtain ⟨ks, e, f⟩ := ih l2 f2
    exact ⟨l1.flatten :: ks, by simp [e], .cons (h1.comp f1) f⟩

theorem order_false_flatten {α : Type} (l : List (List α)) : l.flatten.reverse = (l.map (order false)).reverse.flatten := by
  induction l with
  | nil => rfl
  | cons a l ih => simp [ih, order]

/-- Both passes together. -/
theorem processPaths_emits (h : IsDist len) {c : Config} (hc : c.Sane) {fuel : Nat} {endFlow : ℚ} {fs out : List FPath}
    {s : State} (hg : ∀ p ∈ fs, Good p) (h0 : 0 < s.flow) (he : 0 < endFlow)
    (hr : processPaths len c fuel endFlow fs s = .ok out) :
    ∃ gs, out = gs.flatten ∧ List.Forall₂ (Emits true) fs gs := by
  unfold processPaths at hr
  cases hp : pass len c true fuel fs { s with left := 0 } with
  | ub => rw [hp] at hr; simp at hr
  | diverge => rw [hp] at hr; simp at hr
  | ok r =>
    obtain ⟨news, s1⟩ := r
    rw [hp] at hr
    simp only [Outcome.bind_ok] at hr
    obtain ⟨f1, f0⟩ := (pass_emits h hc true fuel fs { s with left := 0 } hg h0).1 news s1 hp
    have hg1 : ∀ p ∈ news.flatten.reverse, Good p := by
      intro p hp
      obtain ⟨l, hl, hpl⟩ := List.mem_flatten.1 (List.mem_reverse.1 hp)
      obtain ⟨q, _, hq⟩ := forall₂_mem_right f1 l hl
      exact (hq.good p hpl).1
    cases hb : pass len c false fuel news.flatten.reverse { s1 with flow := min s1.flow endFlow, left := 0 } with
    | ub => rw [hb] at hr; simp at hr
    | diverge => rw [hb] at hr; simp at hr
    | ok r =>
      obtain ⟨news2, s2⟩ := r
      rw [hb] at hr
      simp only [Outcome.bind_ok, Outcome.pure_eq] at hr
      obtain rfl := Outcome.ok.inj hr
      obtain ⟨f2, -⟩ := (pass_emits h hc false fuel news.flatten.reverse
        { s1 with flow := min s1.flow endFlow, left := 0 } hg1 (lt_min f0 he)).1 news2 s2 hb
      have f3 : List.Forall₂ (Emits true) news.flatten (news2.map (order false)).reverse := by
        have : List.Forall₂ (Emits true) news.flatten.reverse (news2.map (order false)) := by
          rw [List.forall₂_map_right_iff]
          exact f2.imp fun _ _ hx => hx.toTrue
        have := List.forall₂_reverse_iff.2 this
        simpa using this
      rw [order_false_flatten]
      obtain ⟨ks, e, f⟩ := emits_comp f1 _ f3
      exact ⟨ks, e, f⟩

end Verif.Flow
