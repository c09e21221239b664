import Verif.Slicer.StitchStep

/-! # Stitching: joining two polylines, and the whole queue -/

namespace Verif.Slicer

def turn (r : Bool) (c : List Piece) : List Piece := if r then back c else c

theorem turn_nil {r : Bool} {c : List Piece} (h : c ≠ []) : turn r c ≠ [] := by
  unfold turn; cases r
  · exact h
  · intro h'; exact h ((back_nil c).1 h')

theorem turn_chain {lines : List (List P2)} {D : Int} {r : Bool} {c : List Piece} (h : c.IsChain (Joint lines D)) :
    (turn r c).IsChain (Joint lines D) := by
  unfold turn; cases r
  · exact h
  · exact back_chain h

theorem turn_fst (r : Bool) (c : List Piece) : ((turn r c).map (·.1)).Perm (c.map (·.1)) := by
  unfold turn; cases r
  · exact List.Perm.refl _
  · exact back_fst c

theorem turn_points (lines : List (List P2)) (r : Bool) (c : List Piece) :
    piecePoints lines (turn r c) = if r then (piecePoints lines c).reverse else piecePoints lines c := by
  unfold turn; cases r
  · rfl
  · exact piecePoints_back lines c

theorem turn_chainT (r : Bool) (c : List Piece) (e : Bool) : chainT (turn r c) e = chainT c (if r then !e else e) := by
  unfold turn; cases r
  · rfl
  · exact chainT_back c e

theorem turn_chainT_true (r : Bool) (c : List Piece) : chainT (turn r c) true = chainT c (!r) := by
  rw [turn_chainT]; cases r <;> rfl

theorem turn_chainT_false (r : Bool) (c : List Piece) : chainT (turn r c) false = chainT c r := by
  rw [turn_chainT]; cases r <;> rfl

theorem plan_spec (ls : Nat → List P2) (t0 t1 : Nat) {u0 u1 : Nat} {r0 r1 : Bool} (h : plan ls t0 t1 = (u0, u1, r0, r1)) :
    ((u0 = t0 ∧ u1 = t1) ∨ (u0 = t1 ∧ u1 = t0)) ∧ isEnd u0 = !r0 ∧ isEnd u1 = r1 ∧
      (isEnd t0 = true → isEnd t1 = false → r0 = false ∧ r1 = false) := by
  unfold plan at h
  cases h0 : isEnd t0 <;> cases h1 : isEnd t1 <;> simp only [h0, h1, if_true, if_false, Bool.false_eq_true] at h
  · split at h <;> (simp only [Prod.mk.injEq] at h; obtain ⟨rfl, rfl, rfl, rfl⟩ := h; simp [h0, h1])
  · simp only [Prod.mk.injEq] at h; obtain ⟨rfl, rfl, rfl, rfl⟩ := h; simp [h0, h1]
  · simp only [Prod.mk.injEq] at h; obtain ⟨rfl, rfl, rfl, rfl⟩ := h; simp [h0, h1]
  · split at h <;> (simp only [Prod.mk.injEq] at h; obtain ⟨rfl, rfl, rfl, rfl⟩ := h; simp [h0, h1])

/-- The tables after two polylines have been joined. -/
theorem join_ok {lines polygons : List (List P2)} {D : Int} {s : St} {chain : Nat → List Piece} {closed : List (List Piece)}
    (h : SInv lines polygons D s chain closed) {i j : Nat} (hi : i < lines.length) (hj : j < lines.length) (hij : i ≠ j)
    {r0 r1 : Bool} {t u : Nat} (ht : chainT (chain i) (!r0) = some t) (hu : chainT (chain j) r1 = some u) (hc : Close lines D t u)
    {x : Stitch} (hx : x.t0 = t ∨ x.t0 = u) :
    ∃ s', updateMap { s with lines := upd (upd s.lines i (join (s.lines i) (s.lines j) r0 r1)) j [] }
        (term i false) (term i true) (term j false) (term j true)
        (if r0 then none else some (term i false)) (if r0 then some (term i false) else none)
        (if r1 then some (term i true) else none) (if r1 then none else some (term i true)) = .ok s' ∧
      StepOk lines polygons D s chain closed x s' (upd (upd chain i (turn r0 (chain i) ++ turn r1 (chain j))) j []) closed := by
  have hni := (chainT_mem ht).2
  have hnj := (chainT_mem hu).2
  obtain ⟨t', ht'⟩ := chainT_some hni r0
  obtain ⟨u', hu'⟩ := chainT_some hnj (!r1)
  have d1 : t' ≠ t := h.distinct hi hi ht' ht (by cases r0 <;> simp)
  have d2 : u' ≠ u := h.distinct hj hj hu' hu (by cases r1 <;> simp)
  have d3 : t ≠ u := h.distinct hi hj ht hu (by tauto)
  have d4 : t' ≠ u := h.distinct hi hj ht' hu (by tauto)
  have d5 : t ≠ u' := h.distinct hi hj ht hu' (by tauto)
  have d6 : t' ≠ u' := h.distinct hi hj ht' hu' (by tauto)
  have l1 := h.live i hi _ _ ht
  have l2 := h.live i hi _ _ ht'
  have l3 := h.live j hj _ _ hu
  have l4 := h.live j hj _ _ hu'
  have heads : chainT (turn r0 (chain i) ++ turn r1 (chain j)) false = some t' := by
    rw [(chainT_append (turn_nil hni) (turn_nil hnj)).1, turn_chainT_false]; exact ht'
  have tails : chainT (turn r0 (chain i) ++ turn r1 (chain j)) true = some u' := by
    rw [(chainT_append (turn_nil hni) (turn_nil hnj)).2, turn_chainT_true]; exact hu'
  have htt : ∀ k l, k ≠ l → ∀ e f, term k e ≠ term l f := fun k l hkl e f he => hkl (term_inj.1 he).1
  have htf : ∀ k, term k true ≠ term k false := by intro k; rw [Ne, term_inj]; simp
  obtain ⟨o2c, c2o, hup, hot, hot', hou, hou', horest, hc0, hc1, hcrest⟩ : ∃ o2c c2o,
      updateMap { s with lines := upd (upd s.lines i (join (s.lines i) (s.lines j) r0 r1)) j [] }
        (term i false) (term i true) (term j false) (term j true)
        (if r0 then none else some (term i false)) (if r0 then some (term i false) else none)
        (if r1 then some (term i true) else none) (if r1 then none else some (term i true)) =
        .ok { s with lines := upd (upd s.lines i (join (s.lines i) (s.lines j) r0 r1)) j [], old2cur := o2c, cur2old := c2o } ∧
      o2c t = none ∧ o2c t' = some (term i false) ∧ o2c u = none ∧ o2c u' = some (term i true) ∧
      (∀ v, v ≠ t → v ≠ t' → v ≠ u → v ≠ u' → o2c v = s.old2cur v) ∧
      c2o (term i false) = some t' ∧ c2o (term i true) = some u' ∧
      (∀ k e, k ≠ i → k ≠ j → c2o (term k e) = s.cur2old (term k e)) := by
    have hji : j ≠ i := hij.symm
    cases r0 <;> cases r1 <;>
      (simp only [Bool.not_false, Bool.not_true] at l1 l2 l3 l4
       unfold updateMap
       dsimp only
       simp only [l1.2, l2.2, l3.2, l4.2, moveTerm, Outcome.bind, if_true, if_false, Bool.false_eq_true]
       refine ⟨_, _, rfl, ?_⟩
       simp only [upd, term_inj, hij, hji, d1, d2, d3, d4, d5, d6, d1.symm, d2.symm, d3.symm, d4.symm, d5.symm, d6.symm, if_true, if_false,
         false_and, true_and, and_true, and_false, Bool.false_eq_true, Bool.true_eq_false]
       refine ⟨?_, ?_⟩
       · intro v h1 h2 h3 h4
         simp [h1, h2, h3, h4]
       · intro k e h1 h2
         simp [h1, h2])
  refine ⟨_, hup, ⟨?_, ?_, ?_, ?_, ?_, ?_, ?_⟩, ?_, ?_⟩
  · intro k hk
    dsimp only
    by_cases hkj : k = j
    · subst hkj; rw [upd_same, upd_same]; rfl
    · rw [upd_ne _ _ hkj, upd_ne _ _ hkj]
      by_cases hki : k = i
      · subst hki
        rw [upd_same, upd_same, h.pts k hi, h.pts j hj]
        unfold join
        rw [← turn_points, ← turn_points]
        unfold piecePoints
        rw [List.flatMap_append]
      · rw [upd_ne _ _ hki, upd_ne _ _ hki]; exact h.pts k hk
  · exact h.polys
  · refine List.Perm.trans ?_ h.perm
    rw [List.flatten_append, List.map_append, List.flatten_append, List.map_append]
    refine List.Perm.append_right _ (perm_two hi hj hij _ ?_)
    rw [List.map_append]
    exact (turn_fst _ _).append (turn_fst _ _)
  · intro k hk
    by_cases hkj : k = j
    · subst hkj; rw [upd_same]; exact List.IsChain.nil
    · rw [upd_ne _ _ hkj]
      by_cases hki : k = i
      · subst hki
        rw [upd_same, List.isChain_append]
        refine ⟨turn_chain (h.chains k hi), turn_chain (h.chains j hj), ?_⟩
        intro y hy z hz
        obtain ⟨y', hy', z', hz', hJ⟩ := close_chainT (c := turn r0 (chain k)) (d := turn r1 (chain j))
          (by rw [turn_chainT_true]; exact ht) (by rw [turn_chainT_false]; exact hu) hc
        have e1 : y = y' := by rw [Option.mem_def] at hy hy'; rw [hy] at hy'; injection hy'
        have e2 : z = z' := by rw [Option.mem_def] at hz hz'; rw [hz] at hz'; injection hz'
        rw [e1, e2]; exact hJ
      · rw [upd_ne _ _ hki]; exact h.chains k hk
  · exact h.closes
  · intro k hk e v hv
    dsimp only
    by_cases hkj : k = j
    · subst hkj; rw [upd_same] at hv; unfold chainT at hv; simp at hv
    · rw [upd_ne _ _ hkj] at hv
      by_cases hki : k = i
      · subst hki
        rw [upd_same] at hv
        cases e with
        | false => rw [heads] at hv; injection hv with hv; subst hv; exact ⟨hot', hc0⟩
        | true => rw [tails] at hv; injection hv with hv; subst hv; exact ⟨hou', hc1⟩
      · rw [upd_ne _ _ hki] at hv
        rw [horest v (h.distinct hk hi hv ht (by tauto)) (h.distinct hk hi hv ht' (by tauto)) (h.distinct hk hj hv hu (by tauto))
          (h.distinct hk hj hv hu' (by tauto)), hcrest k e hki hkj]
        exact h.live k hk e v hv
  · intro v c hv
    dsimp only at hv
    by_cases v1 : v = t
    · rw [v1, hot] at hv; simp at hv
    by_cases v2 : v = u
    · rw [v2, hou] at hv; simp at hv
    by_cases v3 : v = t'
    · rw [v3, hot'] at hv; injection hv with hv; subst hv
      rw [term_lineOf, term_isEnd, upd_ne _ _ hij, upd_same, v3]
      exact ⟨hi, heads⟩
    by_cases v4 : v = u'
    · rw [v4, hou'] at hv; injection hv with hv; subst hv
      rw [term_lineOf, term_isEnd, upd_ne _ _ hij, upd_same, v4]
      exact ⟨hi, tails⟩
    rw [horest v v1 v3 v2 v4] at hv
    obtain ⟨hl, hd⟩ := h.dead v c hv
    refine ⟨hl, ?_⟩
    by_cases hkj : lineOf c = j
    · exfalso
      rw [hkj] at hd
      by_cases he : isEnd c = r1
      · rw [he, hu] at hd; injection hd with hd; exact v2 hd.symm
      · have he : isEnd c = !r1 := by cases r1 <;> simpa using he
        rw [he, hu'] at hd; injection hd with hd; exact v4 hd.symm
    · rw [upd_ne _ _ hkj]
      by_cases hki : lineOf c = i
      · exfalso
        rw [hki] at hd
        by_cases he : isEnd c = r0
        · rw [he, ht'] at hd; injection hd with hd; exact v3 hd.symm
        · have he : isEnd c = !r0 := by cases r0 <;> simpa using he
          rw [he, ht] at hd; injection hd with hd; exact v1 hd.symm
      · rw [upd_ne _ _ hki]; exact hd
  · intro v hv
    dsimp only
    by_cases v1 : v = t
    · rw [v1]; exact hot
    by_cases v2 : v = u
    · rw [v2]; exact hou
    by_cases v3 : v = t'
    · rw [v3, l2.1] at hv; simp at hv
    by_cases v4 : v = u'
    · rw [v4, l4.1] at hv; simp at hv
    rw [horest v v1 v3 v2 v4]; exact hv
  · left
    dsimp only
    rcases hx with hx | hx
    · rw [hx]; exact hot
    · rw [hx]; exact hou

/-- No piece is reversed. -/
def Forward (n : Nat) (chain : Nat → List Piece) (closed : List (List Piece)) : Prop :=
  (∀ i < n, ∀ x ∈ chain i, x.2 = false) ∧ ∀ c ∈ closed, ∀ x ∈ c, x.2 = false

theorem chainT_forward {c : List Piece} (h : ∀ x ∈ c, x.2 = false) {e : Bool} {t : Nat} (ht : chainT c e = some t) : isEnd t = e := by
  unfold chainT at ht
  cases e
  · simp only [Bool.false_eq_true, if_false, Option.map_eq_some_iff] at ht
    obtain ⟨x, hx, rfl⟩ := ht
    unfold startT; rw [term_isEnd]; exact h x (List.mem_of_head? hx)
  · simp only [if_true, Option.map_eq_some_iff] at ht
    obtain ⟨x, hx, rfl⟩ := ht
    unfold endT; rw [term_isEnd, h x (List.mem_of_getLast? hx)]; rfl

/-- One step. -/
theorem stitchStep_ok {lines polygons : List (List P2)} {D : Int} {ar : Bool} {s : St} {chain : Nat → List Piece}
    {closed : List (List Piece)} (h : SInv lines polygons D s chain closed) (hf : ar = false → Forward lines.length chain closed)
    {x : Stitch} (hv : Valid lines D ar x) :
    ∃ s' chain' closed', stitchStep s x = .ok s' ∧ StepOk lines polygons D s chain closed x s' chain' closed' ∧
      (ar = false → Forward lines.length chain' closed') := by
  unfold stitchStep
  cases h0 : s.old2cur x.t0 with
  | none => exact ⟨s, chain, closed, rfl, ⟨h, fun _ ht => ht, Or.inl h0⟩, hf⟩
  | some c0 =>
    cases h1 : s.old2cur x.t1 with
    | none => exact ⟨s, chain, closed, rfl, ⟨h, fun _ ht => ht, Or.inr h1⟩, hf⟩
    | some c1 =>
      dsimp only
      obtain ⟨hl0, hd0⟩ := h.dead _ _ h0
      obtain ⟨hl1, hd1⟩ := h.dead _ _ h1
      by_cases hll : lineOf c0 = lineOf c1
      · rw [if_pos hll]
        have hne : isEnd c0 ≠ isEnd c1 := by
          intro he
          rw [hll, he, hd1] at hd0
          injection hd0 with hd0
          exact hv.ne hd0.symm
        obtain ⟨s', hs', hok⟩ : ∃ s', closePolygon s (lineOf c0) = .ok s' ∧
            StepOk lines polygons D s chain closed x s' (upd chain (lineOf c0) []) (closed ++ [chain (lineOf c0)]) := by
          cases he : isEnd c0 with
          | true =>
            have he1 : isEnd c1 = false := by rw [he] at hne; simpa using hne.symm
            rw [he] at hd0; rw [he1, ← hll] at hd1
            exact closePolygon_ok h hl0 hd1 hd0 hv.close (Or.inr rfl)
          | false =>
            have he1 : isEnd c1 = true := by rw [he] at hne; simpa using hne.symm
            rw [he] at hd0; rw [he1, ← hll] at hd1
            exact closePolygon_ok h hl0 hd0 hd1 hv.close.symm (Or.inl rfl)
        refine ⟨s', _, _, hs', hok, ?_⟩
        intro har
        obtain ⟨f1, f2⟩ := hf har
        refine ⟨?_, ?_⟩
        · intro k hk y hy
          by_cases hki : k = lineOf c0
          · rw [hki, upd_same] at hy; simp at hy
          · rw [upd_ne _ _ hki] at hy; exact f1 k hk y hy
        · intro c hc
          rw [List.mem_append, List.mem_singleton] at hc
          rcases hc with hc | rfl
          · exact f2 c hc
          · exact f1 _ hl0
      · rw [if_neg hll]
        unfold joinLines
        rcases hp : plan s.lines c0 c1 with ⟨u0, u1, r0, r1⟩
        obtain ⟨hu, hr0, hr1, hrr⟩ := plan_spec _ _ _ hp
        dsimp only
        obtain ⟨s', hs', hok⟩ : ∃ s', updateMap { s with lines := upd (upd s.lines (lineOf u0) (join (s.lines (lineOf u0)) (s.lines (lineOf u1)) r0 r1)) (lineOf u1) [] }
            (term (lineOf u0) false) (term (lineOf u0) true) (term (lineOf u1) false) (term (lineOf u1) true)
            (if r0 then none else some (term (lineOf u0) false)) (if r0 then some (term (lineOf u0) false) else none)
            (if r1 then some (term (lineOf u0) true) else none) (if r1 then none else some (term (lineOf u0) true)) = .ok s' ∧
            StepOk lines polygons D s chain closed x s'
              (upd (upd chain (lineOf u0) (turn r0 (chain (lineOf u0)) ++ turn r1 (chain (lineOf u1)))) (lineOf u1) []) closed := by
          rcases hu with ⟨rfl, rfl⟩ | ⟨rfl, rfl⟩
          · rw [hr0] at hd0; rw [hr1] at hd1
            exact join_ok h hl0 hl1 hll hd0 hd1 hv.close (Or.inl rfl)
          · rw [hr0] at hd1; rw [hr1] at hd0
            exact join_ok h hl1 hl0 (fun he => hll he.symm) hd1 hd0 hv.close.symm (Or.inr rfl)
        refine ⟨s', _, _, hs', hok, ?_⟩
        intro har
        obtain ⟨f1, f2⟩ := hf har
        obtain ⟨o0, o1⟩ := hv.order har
        have g0 := chainT_forward (f1 _ hl0) hd0
        have g1 := chainT_forward (f1 _ hl1) hd1
        obtain ⟨rfl, rfl⟩ := hrr (by rw [← g0]; exact o0) (by rw [← g1]; exact o1)
        have hlu0 : lineOf u0 < lines.length := by rcases hu with ⟨rfl, rfl⟩ | ⟨rfl, rfl⟩ <;> assumption
        have hlu1 : lineOf u1 < lines.length := by rcases hu with ⟨rfl, rfl⟩ | ⟨rfl, rfl⟩ <;> assumption
        refine ⟨?_, f2⟩
        intro k hk y hy
        by_cases hk1 : k = lineOf u1
        · rw [hk1, upd_same] at hy; simp at hy
        · rw [upd_ne _ _ hk1] at hy
          by_cases hk0 : k = lineOf u0
          · rw [hk0, upd_same, List.mem_append] at hy
            rcases hy with hy | hy
            · exact f1 _ hlu0 y hy
            · exact f1 _ hlu1 y hy
          · rw [upd_ne _ _ hk0] at hy; exact f1 k hk y hy

theorem stitchAll_ok {lines polygons : List (List P2)} {D : Int} {ar : Bool} (queue : List Stitch) :
    ∀ {s : St} {chain : Nat → List Piece} {closed : List (List Piece)}, SInv lines polygons D s chain closed →
    (ar = false → Forward lines.length chain closed) → (∀ x ∈ queue, Valid lines D ar x) →
    ∃ s' chain' closed', stitchAll s queue = .ok s' ∧ SInv lines polygons D s' chain' closed' ∧
      (ar = false → Forward lines.length chain' closed') ∧ (∀ t, s.old2cur t = none → s'.old2cur t = none) ∧
      ∀ x ∈ queue, s'.old2cur x.t0 = none ∨ s'.old2cur x.t1 = none := by
  induction queue with
  | nil =>
    intro s chain closed h hf _
    exact ⟨s, chain, closed, rfl, h, hf, fun _ ht => ht, by simp⟩
  | cons x queue ih =>
    intro s chain closed h hf hv
    obtain ⟨s1, chain1, closed1, hs1, ok1, hf1⟩ := stitchStep_ok h hf (hv x (by simp))
    obtain ⟨s2, chain2, closed2, hs2, inv2, hf2, mono2, used2⟩ := ih ok1.inv hf1 (fun y hy => hv y (by simp [hy]))
    refine ⟨s2, chain2, closed2, ?_, inv2, hf2, fun t ht => mono2 t (ok1.mono t ht), ?_⟩
    · unfold stitchAll; rw [hs1]; exact hs2
    · intro y hy
      rcases List.mem_cons.1 hy with rfl | hy
      · exact ok1.used.imp (mono2 _) (mono2 _)
      · exact used2 y hy

theorem init_ok (lines polygons : List (List P2)) (D : Int) :
    SInv lines polygons D (St.init lines polygons) (fun i => [(i, false)]) [] ∧ Forward lines.length (fun i => [(i, false)]) [] := by
  refine ⟨⟨?_, ?_, ?_, ?_, ?_, ?_, ?_⟩, ?_, ?_⟩
  · intro i _
    show lines.getD i [] = _
    simp [piecePoints, oriented]
  · simp [St.init]
  · rw [List.append_nil]
    have : ((List.range lines.length).map fun i => [((i, false) : Piece)]).flatten.map (·.1) = List.range lines.length := by
      generalize List.range lines.length = l
      induction l with
      | nil => rfl
      | cons a l ih => simpa using ih
    rw [this]
  · intro i _; exact List.IsChain.singleton _
  · simp
  · intro i hi e t ht
    have : t = term i e := by
      unfold chainT at ht
      cases e
      · simpa [startT, eq_comm] using ht
      · simpa [endT, eq_comm] using ht
    subst this
    have hlt : term i e < 2 * lines.length := by unfold term; split <;> omega
    unfold St.init; simp [hlt]
  · intro t c ht
    unfold St.init at ht
    dsimp only at ht
    split at ht
    · injection ht with ht
      subst ht
      rename_i hlt
      refine ⟨by unfold lineOf; omega, ?_⟩
      unfold chainT
      cases he : isEnd t
      · have := term_eta t; rw [he] at this; simpa [startT] using this
      · have := term_eta t; rw [he] at this; simpa [endT] using this
    · simp at ht
  · intro i _ x hx; simp at hx; rw [hx]
  · simp

/-! ## The points at the ends of chains -/

theorem piecePoints_last {lines : List (List P2)} {D : Int} {c : List Piece} (h : c.IsChain (Joint lines D)) {p : P2}
    (hp : (piecePoints lines c).getLast? = some p) : ∃ t, chainT c true = some t ∧ pointT lines t = some p := by
  rcases List.eq_nil_or_concat c with rfl | ⟨c', x, hcx⟩
  · simp [piecePoints] at hp
  · rw [List.concat_eq_append] at hcx
    subst hcx
    refine ⟨endT x, by simp [chainT], ?_⟩
    rw [← oriented_last]
    unfold piecePoints at hp
    rw [List.flatMap_append, List.flatMap_singleton, List.getLast?_append] at hp
    cases hx : (oriented lines x).getLast? with
    | some y => rw [hx] at hp; exact hp
    | none =>
      exfalso
      rw [List.isChain_append] at h
      rcases List.eq_nil_or_concat c' with rfl | ⟨c'', y, hcy⟩
      · rw [hx] at hp; simp at hp
      · rw [List.concat_eq_append] at hcy
        subst hcy
        obtain ⟨_, _, q, hq, _⟩ := h.2.2 y (by simp) x (by simp)
        rw [List.getLast?_eq_none_iff] at hx
        rw [hx] at hq; simp at hq

theorem piecePoints_head {lines : List (List P2)} {D : Int} {c : List Piece} (h : c.IsChain (Joint lines D)) {p : P2}
    (hp : (piecePoints lines c).head? = some p) : ∃ t, chainT c false = some t ∧ pointT lines t = some p := by
  have := piecePoints_last (back_chain h) (p := p) (by rw [piecePoints_back, List.getLast?_reverse]; exact hp)
  rw [chainT_back] at this
  exact this

end Verif.Slicer
