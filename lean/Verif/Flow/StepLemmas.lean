import Verif.Flow.PassLemmas

/-! # Lemmas on the changes of the flow -/

namespace Verif.Flow

variable {len : Pt → Pt → ℚ}

open Classical in
/-- No extrusion has more than `δ` more flow than the one before (`last`), unless the flow starts anew between. -/
noncomputable def Rises (len : Pt → Pt → ℚ) (reset δ : ℚ) : Option ℚ → List FPath → Prop
  | _, [] => True
  | last, p :: ps =>
    if volume p.data ≤ 0 then Rises len reset δ (if p.Stops len reset then none else last) ps
    else (∀ f, last = some f → p.flow ≤ f + δ) ∧ Rises len reset δ (some p.flow) ps

/-- In the order of the backward pass: no extrusion has more than `δ` more flow than the one before. -/
def Falls (δ : ℚ) : Option ℚ → List FPath → Prop
  | _, [] => True
  | last, p :: ps =>
    if volume p.data ≤ 0 then Falls δ last ps
    else (∀ f, last = some f → p.flow ≤ f + δ) ∧ Falls δ (some p.flow) ps

/-- The flow of the first extrusion. -/
def firstEx : List FPath → Option ℚ
  | [] => none
  | p :: ps => if volume p.data ≤ 0 then firstEx ps else some p.flow

theorem Rises.none {reset δ : ℚ} {last : Option ℚ} {l : List FPath} (h : Rises len reset δ last l) :
    Rises len reset δ none l := by
  induction l generalizing last with
  | nil => trivial
  | cons p l ih =>
    unfold Rises at h ⊢
    split at h
    · rename_i hv
      rw [if_pos hv]
      split at h
      · rename_i hs; rw [if_pos hs]; exact h
      · rename_i hs; rw [if_neg hs]; exact ih h
    · rename_i hv
      rw [if_neg hv]
      exact ⟨by simp, h.2⟩

theorem Rises.change {reset δ : ℚ} {last : Option ℚ} {y : ℚ} {l : List FPath} (h : Rises len reset δ last l)
    (hf : ∀ x, firstEx l = some x → x ≤ y + δ) : Rises len reset δ (some y) l := by
  induction l generalizing last with
  | nil => trivial
  | cons p l ih =>
    unfold Rises at h ⊢
    unfold firstEx at hf
    split at h
    · rename_i hv
      rw [if_pos hv] at hf ⊢
      split at h
      · rename_i hs; rw [if_pos hs]; exact h
      · rename_i hs; rw [if_neg hs]; exact ih h hf
    · rename_i hv
      rw [if_neg hv] at hf ⊢
      refine ⟨?_, h.2⟩
      intro f hfe
      cases hfe
      exact hf _ rfl

theorem Climb.le {δ f f' : ℚ} {l : List FPath} (h : Climb δ f l f') : f ≤ f' := by
  induction h with
  | last x h1 _ => exact h1
  | cons x h1 _ _ ih => exact h1.trans ih

theorem Climb.rises {reset δ f f' : ℚ} {e rest : List FPath} (h : Climb δ f e f')
    (hv : ∀ x ∈ e, 0 < volume x.data) (hr : Rises len reset δ (some f') rest) :
    Rises len reset δ (some f) (e ++ rest) := by
  induction h with
  | last x h1 h2 =>
    show Rises len reset δ _ (x :: rest)
    unfold Rises
    rw [if_neg (not_le.2 (hv x (by simp)))]
    exact ⟨fun g hg => by cases hg; exact h2, hr⟩
  | cons x h1 h2 h ih =>
    rw [List.cons_append]
    unfold Rises
    rw [if_neg (not_le.2 (hv x (by simp)))]
    exact ⟨fun g hg => by cases hg; exact h2, ih (fun y hy => hv y (by simp [hy])) hr⟩

theorem Climb.falls {δ f f' : ℚ} {e rest : List FPath} (h : Climb δ f e f')
    (hv : ∀ x ∈ e, 0 < volume x.data) (hr : Falls δ (some f') rest) : Falls δ (some f) (e ++ rest) := by
  induction h with
  | last x h1 h2 =>
    show Falls δ _ (x :: rest)
    unfold Falls
    rw [if_neg (not_le.2 (hv x (by simp)))]
    exact ⟨fun g hg => by cases hg; exact h2, hr⟩
  | cons x h1 h2 h ih =>
    rw [List.cons_append]
    unfold Falls
    rw [if_neg (not_le.2 (hv x (by simp)))]
    exact ⟨fun g hg => by cases hg; exact h2, ih (fun y hy => hv y (by simp [hy])) hr⟩

/-- Printed in the reverse order the flow only falls, and ends at least as high as it started. -/
theorem Climb.reversed {reset δ δ' f f' : ℚ} (hδ : 0 ≤ δ) {e : List FPath} (h : Climb δ' f e f')
    (hv : ∀ x ∈ e, 0 < volume x.data) :
    ∀ {rest : List FPath} {last : Option ℚ}, (∀ y, f ≤ y → Rises len reset δ (some y) rest) →
      (∀ g, last = some g → f' ≤ g + δ) → Rises len reset δ last (e.reverse ++ rest) := by
  induction h with
  | last x h1 h2 =>
    intro rest last hr hl
    show Rises len reset δ _ (x :: rest)
    unfold Rises
    rw [if_neg (not_le.2 (hv x (by simp)))]
    exact ⟨hl, hr _ h1⟩
  | @cons f f' x l h1 h2 h ih =>
    intro rest last hr hl
    rw [List.reverse_cons, List.append_assoc]
    refine ih (fun y hy => hv y (by simp [hy])) (fun y hy => ?_) hl
    show Rises len reset δ _ (x :: rest)
    unfold Rises
    rw [if_neg (not_le.2 (hv x (by simp)))]
    refine ⟨fun g hg => by cases hg; linarith, hr _ h1⟩

theorem Climb.firstEx {δ f f' : ℚ} {e : List FPath} (h : Climb δ f e f') (hv : ∀ x ∈ e, 0 < volume x.data)
    (rest : List FPath) : firstEx (e.reverse ++ rest) = some f' := by
  induction h generalizing rest with
  | last x h1 h2 =>
    show Verif.Flow.firstEx (x :: rest) = _
    unfold Verif.Flow.firstEx
    rw [if_neg (not_le.2 (hv x (by simp)))]
  | cons x h1 h2 h ih =>
    rw [List.reverse_cons, List.append_assoc]
    exact ih (fun y hy => hv y (by simp [hy])) _

theorem pass_rises (h : IsDist len) {c : Config} (hc : c.Sane) (fuel : Nat) :
    ∀ (ps : List FPath) (s s' : State) (news : List (List FPath)), (∀ p ∈ ps, Good p) → 0 < s.flow →
      pass len c true fuel ps s = .ok (news, s') →
      Rises len c.reset (c.delta true) (if s.state = .undefined then none else some s.flow) news.flatten := by
  intro ps
  induction ps with
  | nil =>
    intro s s' news _ _ hr
    obtain ⟨rfl, -⟩ := Prod.mk.inj (Outcome.ok.inj hr)
    trivial
  | cons p ps ih =>
    intro s s' news hg h0 hr
    obtain ⟨e, s1, ns, hpp, hps, rfl⟩ := pass_cons hr
    obtain ⟨e1, e2, e3, e4⟩ := (processPath_spec h hc true fuel p s (hg p (by simp)) h0).1 e s1 hpp
    have hi := ih s1 s' ns (fun q hq => hg q (by simp [hq])) e2 hps
    rw [List.flatten_cons]
    by_cases hv : volume p.data ≤ 0
    · obtain ⟨rfl, hfl, hst, hns⟩ := e3 hv
      show Rises len _ _ _ (p :: ns.flatten)
      unfold Rises
      rw [if_pos hv]
      by_cases hstop : p.Stops len c.reset
      · rw [if_pos hstop]
        rw [if_pos (hst hstop)] at hi
        exact hi
      · rw [if_neg hstop]
        rw [hns hstop, hfl] at hi
        exact hi
    · obtain ⟨hst, hcase⟩ := e4 (not_le.1 hv)
      rw [if_neg hst] at hi
      rcases hcase with ⟨hc1, rfl, hfl⟩ | ⟨hu, hlt, hcl⟩
      · show Rises len _ _ _ (p :: ns.flatten)
        unfold Rises
        rw [if_neg hv]
        rw [hfl] at hi
        refine ⟨?_, hi⟩
        intro f hf
        by_cases hund : s.state = .undefined
        · rw [if_pos hund] at hf; cases hf
        · rw [if_neg hund] at hf
          cases hf
          rcases hc1 with ⟨hc1, -⟩ | hc1
          · exact absurd hc1 hund
          · have := hc.delta true
            linarith
      · have hund : ¬ s.state = .undefined := fun hh => hu ⟨hh, rfl⟩
        rw [if_neg hund]
        refine hcl.rises ?_ hi
        intro x hx
        rw [(e1.good x hx).2.1]
        exact not_le.1 hv

theorem pass_falls (h : IsDist len) {c : Config} (hc : c.Sane) (fuel : Nat) :
    ∀ (ps : List FPath) (s s' : State) (news : List (List FPath)), (∀ p ∈ ps, Good p) → 0 < s.flow →
      pass len c false fuel ps s = .ok (news, s') → Falls (c.delta false) (some s.flow) news.flatten := by
  intro ps
  induction ps with
  | nil =>
    intro s s' news _ _ hr
    obtain ⟨rfl, -⟩ := Prod.mk.inj (Outcome.ok.inj hr)
    trivial
  | cons p ps ih =>
    intro s s' news hg h0 hr
    obtain ⟨e, s1, ns, hpp, hps, rfl⟩ := pass_cons hr
    obtain ⟨e1, e2, e3, e4⟩ := (processPath_spec h hc false fuel p s (hg p (by simp)) h0).1 e s1 hpp
    have hi := ih s1 s' ns (fun q hq => hg q (by simp [hq])) e2 hps
    rw [List.flatten_cons]
    by_cases hv : volume p.data ≤ 0
    · obtain ⟨rfl, hfl, -⟩ := e3 hv
      show Falls _ _ (p :: ns.flatten)
      unfold Falls
      rw [if_pos hv, ← hfl]
      exact hi
    · obtain ⟨-, hcase⟩ := e4 (not_le.1 hv)
      rcases hcase with ⟨hc1, rfl, hfl⟩ | ⟨hu, hlt, hcl⟩
      · show Falls _ _ (p :: ns.flatten)
        unfold Falls
        rw [if_neg hv]
        rw [hfl] at hi
        refine ⟨?_, hi⟩
        intro f hf
        cases hf
        rcases hc1 with ⟨-, hc1⟩ | hc1
        · cases hc1
        · have := hc.delta false
          linarith
      · refine hcl.falls ?_ hi
        intro x hx
        rw [(e1.good x hx).2.1]
        exact not_le.1 hv

/-- The backward pass keeps the limit of the forward pass. -/
theorem pass_keeps (h : IsDist len) {c : Config} (hc : c.Sane) (fuel : Nat) {δ : ℚ} (hδ : 0 ≤ δ) (reset : ℚ) :
    ∀ (ps : List FPath) (s s' : State) (news : List (List FPath)) (S R : List FPath), (∀ p ∈ ps, Good p) → 0 < s.flow →
      pass len c false fuel ps s = .ok (news, s') →
      (∀ last, Rises len reset δ last S → Rises len reset δ last R) → (∀ x, firstEx R = some x → x = s.flow) →
      ∀ last, Rises len reset δ last (ps.reverse ++ S) → Rises len reset δ last (news.flatten.reverse ++ R) := by
  intro ps
  induction ps with
  | nil =>
    intro s s' news S R _ _ hr hSR _ last hS
    obtain ⟨rfl, -⟩ := Prod.mk.inj (Outcome.ok.inj hr)
    exact hSR last hS
  | cons p ps ih =>
    intro s s' news S R hg h0 hr hSR hfirst last hS
    obtain ⟨e, s1, ns, hpp, hps, rfl⟩ := pass_cons hr
    obtain ⟨e1, e2, e3, e4⟩ := (processPath_spec h hc false fuel p s (hg p (by simp)) h0).1 e s1 hpp
    rw [List.flatten_cons, List.reverse_append, List.append_assoc]
    rw [List.reverse_cons, List.append_assoc] at hS
    refine ih s1 s' ns (p :: S) (e.reverse ++ R) (fun q hq => hg q (by simp [hq])) e2 hps ?_ ?_ last hS
    · intro last hl
      by_cases hv : volume p.data ≤ 0
      · obtain ⟨rfl, -⟩ := e3 hv
        show Rises len reset δ last (p :: R)
        unfold Rises at hl ⊢
        rw [if_pos hv] at hl ⊢
        exact hSR _ hl
      · obtain ⟨-, hcase⟩ := e4 (not_le.1 hv)
        unfold Rises at hl
        rw [if_neg hv] at hl
        obtain ⟨l1, l2⟩ := hl
        rcases hcase with ⟨hc1, rfl, hfl⟩ | ⟨hu, hlt, hcl⟩
        · show Rises len reset δ last (p :: R)
          unfold Rises
          rw [if_neg hv]
          exact ⟨l1, hSR _ l2⟩
        · have hvs : ∀ x ∈ e, 0 < volume x.data := fun x hx => by
            rw [(e1.good x hx).2.1]; exact not_le.1 hv
          refine hcl.reversed hδ hvs ?_ ?_
          · intro y hy
            refine (hSR _ l2).change ?_
            intro x hx
            rw [hfirst x hx]
            linarith
          · intro g hgl
            have h1 := l1 g hgl
            have h2 : s1.flow ≤ p.flow := by
              have : ∀ {f f' : ℚ} {e : List FPath}, Climb (c.delta false) f e f' → (∀ x ∈ e, x.flow ≤ p.flow) →
                  f' ≤ p.flow := by
                intro f f' e hcl
                induction hcl with
                | last x _ _ => intro hx; exact hx x (by simp)
                | cons x _ _ _ ih => intro hx; exact ih fun y hy => hx y (by simp [hy])
              exact this hcl fun x hx => (e1.good x hx).2.2.2
            linarith
    · intro x hx
      by_cases hv : volume p.data ≤ 0
      · obtain ⟨rfl, hfl, -⟩ := e3 hv
        rw [hfl]
        refine hfirst x ?_
        have : firstEx (p :: R) = some x := hx
        unfold firstEx at this
        rwa [if_pos hv] at this
      · obtain ⟨-, hcase⟩ := e4 (not_le.1 hv)
        rcases hcase with ⟨hc1, rfl, hfl⟩ | ⟨hu, hlt, hcl⟩
        · have : firstEx (p :: R) = some x := hx
          unfold firstEx at this
          rw [if_neg hv] at this
          rw [hfl]; exact (Option.some.inj this).symm
        · have hvs : ∀ x ∈ e, 0 < volume x.data := fun x hx => by
            rw [(e1.good x hx).2.1]; exact not_le.1 hv
          rw [hcl.firstEx hvs] at hx
          exact (Option.some.inj hx).symm

/-- Both passes together: the limits in both directions, and at the end. -/
theorem processPaths_steps (h : IsDist len) {c : Config} (hc : c.Sane) {fuel : Nat} {endFlow : ℚ} {fs out : List FPath}
    {s : State} (hg : ∀ p ∈ fs, Good p) (h0 : 0 < s.flow) (he : 0 < endFlow) (hst : s.state = .undefined)
    (hr : processPaths len c fuel endFlow fs s = .ok out) :
    Rises len c.reset (c.delta true) none out ∧ Falls (c.delta false) (some endFlow) out.reverse := by
  unfold processPaths at hr
  cases hp : pass len c true fuel fs { s with left := 0 } with
  | ub => rw [hp] at hr; simp at hr
  | diverge => rw [hp] at hr; simp at hr
  | ok r =>
    obtain ⟨news, s1⟩ := r
    rw [hp] at hr
    simp only [Outcome.bind_ok] at hr
    obtain ⟨f1, f0⟩ := (pass_emits h hc true fuel fs { s with left := 0 } hg h0).1 news s1 hp
    have hri := pass_rises h hc fuel fs { s with left := 0 } s1 news hg h0 hp
    rw [if_pos (show (({ s with left := 0 } : State)).state = .undefined from hst)] at hri
    have hg1 : ∀ p ∈ news.flatten.reverse, Good p := by
      intro p hp
      obtain ⟨l, hl, hpl⟩ := List.mem_flatten.1 (List.mem_reverse.1 hp)
      obtain ⟨q, _, hq⟩ := forall₂_mem_right f1 l hl
      exact (hq.good p hpl).1
    cases hb : pass len c false fuel news.flatten.reverse { s1 with flow := min s1.flow endFlow, left := 0 } with
    | ub => rw [hb] at hr; simp at hr
    | diverge => rw [hb] at hr; simp at hr
    | ok r =>
      obtain ⟨news2, s2⟩ := r
      rw [hb] at hr
      simp only [Outcome.bind_ok, Outcome.pure_eq] at hr
      obtain rfl := Outcome.ok.inj hr
      have hfa := pass_falls h hc fuel _ _ s2 news2 hg1 (lt_min f0 he) hb
      have hke := pass_keeps h hc fuel (hc.delta true) c.reset _ _ s2 news2 [] [] hg1 (lt_min f0 he) hb
        (fun _ h => h) (by simp [firstEx]) none (by simpa using hri)
      refine ⟨by simpa using hke, ?_⟩
      rw [List.reverse_reverse]
      generalize news2.flatten = l at hfa
      clear hke hb
      induction l with
      | nil => trivial
      | cons p l ih =>
        unfold Falls at hfa ⊢
        split at hfa
        · rename_i hv; rw [if_pos hv]; exact ih hfa
        · rename_i hv
          rw [if_neg hv]
          refine ⟨fun f hf => ?_, hfa.2⟩
          cases hf
          have := hfa.1 _ rfl
          have := min_le_right s1.flow endFlow
          dsimp only at *
          linarith

end Verif.Flow
