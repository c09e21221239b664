import Verif.Template.Lemmas

/-! # Lemmas on resolving a template -/

namespace Verif.Template

/-- The loop on tokens. -/
def run (ctx : Ctx) (context : Option Nat) : List Token → CState → List Char → Res (Option (List Char))
  | [], _, out => .ok (some out)
  | .text s :: r, st, out => run ctx context r st (processStatement out st s)
  | .marker m :: r, st, out =>
    match processExpression ctx context out st m with
    | .ok (out2, st2) => run ctx context r st2 out2
    | .fail => .ok none
    | .throws => .throws
    | .ub => .ub

theorem processStatement_append (out : List Char) (st : CState) (s t : List Char) :
    processStatement (processStatement out st s) st t = processStatement out st (s ++ t) := by
  unfold processStatement; split <;> simp

theorem processStatement_nil (out : List Char) (st : CState) : processStatement out st [] = out := by
  unfold processStatement; split <;> simp

theorem Marker.text_ne_nil (m : Marker) : m.text ≠ [] := by unfold Marker.text; simp

theorem loop_eq_run (ctx : Ctx) (context : Option Nat) (ts : List Token) : ∀ (s : List Char) (st : CState)
    (out : List Char) (fuel : Nat), (∀ c ∈ s, c ≠ '{' ∧ c ≠ '}') → PlainTokens ts →
    (s ++ tokensText ts).length < fuel →
    loop ctx context fuel (s ++ tokensText ts) st out = run ctx context ts st (processStatement out st s) := by
  induction ts with
  | nil =>
    intro s st out fuel hs _ hf
    obtain ⟨f, rfl⟩ : ∃ f, fuel = f + 1 := ⟨fuel - 1, by omega⟩
    simp only [tokensText, List.flatMap_nil, List.append_nil, loop, run]
    by_cases h : s = []
    · subst h; simp [processStatement_nil]
    · simp [h, search_none s hs]
  | cons t ts ih =>
    intro s st out fuel hs ht hf
    cases t with
    | text s' =>
      have e : s ++ tokensText (.text s' :: ts) = (s ++ s') ++ tokensText ts := by
        simp [tokensText, Token.chars]
      rw [e] at hf ⊢
      rw [ih (s ++ s') st out fuel (by
        intro c hc; rcases List.mem_append.1 hc with h | h
        · exact hs c h
        · exact ht.1 c h) ht.2 hf]
      simp only [run, processStatement_append]
    | marker m =>
      obtain ⟨hm, hn, hts⟩ := ht
      have e : s ++ tokensText (.marker m :: ts) = s ++ (m.text ++ tokensText ts) := by
        simp [tokensText, Token.chars]
      rw [e] at hf ⊢
      obtain ⟨f, rfl⟩ : ∃ f, fuel = f + 1 := ⟨fuel - 1, by omega⟩
      have hne : s ++ (m.text ++ tokensText ts) ≠ [] := by simp [m.text_ne_nil]
      have hlen : 0 < m.text.length := List.length_pos_iff.2 m.text_ne_nil
      simp only [loop, hne, if_false, search_skip _ _ hs, search_marker m hm _ hn, Option.map_some, List.append_nil]
      have ho : (if s = [] then out else processStatement out st s) = processStatement out st s := by
        split
        · rename_i h; subst h; rw [processStatement_nil]
        · rfl
      rw [ho]
      simp only [run]
      cases processExpression ctx context (processStatement out st s) st m with
      | ok p =>
        obtain ⟨o2, st2⟩ := p
        have := ih [] st2 o2 f (by simp) hts (by simp at hf ⊢; omega)
        simp only [List.nil_append, processStatement_nil] at this
        simp only [this]
      | fail => rfl
      | throws => rfl
      | ub => rfl

/-- Evaluation yields the value the specification gives. -/
theorem evaluate_hasValue {ctx : Ctx} {context : Option Nat} {e : Expr} {v : Value} (h : HasValue ctx context e v)
    (k : Option Cond) : evaluate ctx context (e.toMarker k) = .ok v := by
  cases h with
  | here env h1 h2 h3 =>
    unfold Ctx.envOr at h2
    simp only [evaluate, Expr.toMarker, h1]
    cases hc : ctx.envs context with
    | some e0 => simp only [hc, Option.some.injEq] at h2; subst h2; simp [h3]
    | none => simp only [hc] at h2; simp [h2, h3]
  | other env0 env x xv n h1 h2 h3 h4 h5 h6 =>
    have hp : parseExtruder ctx xv = .ok n := by
      cases xv with
      | int i s =>
        obtain ⟨rfl, hn⟩ := h4
        simp only [parseExtruder]
        congr 1
        have : ((n : Int) % 2 ^ 64) = n := Int.emod_eq_of_lt (by omega) (by omega)
        rw [this]; simp
      | str s sh =>
        obtain ⟨hs, hn⟩ := h4
        simp only [parseExtruder, hs]
        congr 1
        have : ((n : Int) % 2 ^ 64) = n := Int.emod_eq_of_lt (by omega) (by omega)
        rw [this]; simp
      | dbl f s =>
        obtain ⟨rfl, hn⟩ := h4
        simp only [parseExtruder]
        rw [if_pos ⟨by omega, by omega⟩]; simp
      | bool b s => exact h4.elim
      | other s => exact h4.elim
    unfold Ctx.envOr at h5
    simp only [evaluate, Expr.toMarker, h1, h2, h3, hp]
    cases hc : ctx.envs (some n) with
    | some e0 => simp only [hc, Option.some.injEq] at h5; subst h5; simp [h6]
    | none => simp only [hc] at h5; simp [h5, h6]

/-- The states in which text is written. -/
abbrev Active (st : CState) : Prop := st = .outside ∨ st = .condTrue

theorem run_body {ctx : Ctx} {context : Option Nat} {body : List Simple} {o : List Char}
    (h : RendersBody ctx context body o) (rest : List Token) (st : CState) (hs : Active st) (out : List Char) :
    run ctx context (body.map Simple.toToken ++ rest) st out = run ctx context rest st (out ++ o) := by
  induction h generalizing out with
  | nil => simp
  | text s r o _ ih =>
    simp only [List.map_cons, List.cons_append, Simple.toToken, run]
    rw [ih]
    congr 1
    unfold processStatement
    rw [if_pos hs]; simp
  | expr e v r o hv _ ih =>
    simp only [List.map_cons, List.cons_append, Simple.toToken, run]
    have : processExpression ctx context out st (e.toMarker none) =
        .ok (out ++ v.shown ++ (if e.eol then ['\n'] else []), st) := by
      simp only [processExpression, evaluate_hasValue hv]
      show (if _ then _ else _) = _
      rw [if_pos hs]
      rfl
    rw [this]
    simp only
    rw [ih]
    simp

theorem run_skip (ctx : Ctx) (context : Option Nat) (body : List Simple) (rest : List Token) (st : CState)
    (hs : ¬ Active st) (out : List Char) :
    run ctx context (body.map Simple.toToken ++ rest) st out = run ctx context rest st out := by
  induction body with
  | nil => simp
  | cons b body ih =>
    cases b with
    | text s =>
      simp only [List.map_cons, List.cons_append, Simple.toToken, run]
      have : processStatement out st s = out := by unfold processStatement; rw [if_neg hs]
      rw [this, ih]
    | expr e =>
      simp only [List.map_cons, List.cons_append, Simple.toToken, run]
      have : processExpression ctx context out st (e.toMarker none) = .ok (out, st) := by
        simp only [processExpression]
        show (if _ then _ else _) = _
        rw [if_neg hs]
      rw [this]
      exact ih

/-- The else branch and the end of a block. -/
def lastTokens (l : Option (Bool × List Simple)) : List Token :=
  match l with
  | some (eol, body) => .marker ⟨some .kElse, [], none, eol⟩ :: body.map Simple.toToken
  | none => []

theorem run_end (ctx : Ctx) (context : Option Nat) (e : Bool) (rest : List Token) (st : CState) (hs : st ≠ .outside)
    (out : List Char) : run ctx context (endToken e :: rest) st out = run ctx context rest .outside out := by
  simp [endToken, run, processExpression, hs]

/-- Once a branch was taken, the rest of the block is skipped. -/
theorem run_done (ctx : Ctx) (context : Option Nat) (more : List (Expr × List Simple))
    (l : Option (Bool × List Simple)) (e : Bool) (rest : List Token) (st : CState)
    (hs : st = .condTrue ∨ st = .condDone) (out : List Char) :
    run ctx context (more.flatMap (branchTokens .kElif) ++ (lastTokens l ++ endToken e :: rest)) st out =
      run ctx context rest .outside out := by
  induction more generalizing st with
  | nil =>
    simp only [List.flatMap_nil, List.nil_append]
    cases l with
    | none =>
      simp only [lastTokens, List.nil_append]
      exact run_end ctx context e rest st (by rcases hs with rfl | rfl <;> simp) out
    | some p =>
      obtain ⟨eol, body⟩ := p
      simp only [lastTokens, List.cons_append, run]
      have : processExpression ctx context out st ⟨some .kElse, [], none, eol⟩ = .ok (out, .condDone) := by
        rcases hs with rfl | rfl <;> simp [processExpression]
      rw [this]
      simp only
      rw [run_skip ctx context body _ .condDone (by simp [Active])]
      exact run_end ctx context e rest .condDone (by simp) out
  | cons b more ih =>
    simp only [List.flatMap_cons, branchTokens, List.cons_append, run, List.append_assoc]
    have : processExpression ctx context out st (b.1.toMarker (some .kElif)) = .ok (out, .condDone) := by
      rcases hs with rfl | rfl <;> simp [processExpression, Expr.toMarker]
    rw [this]
    simp only
    rw [run_skip ctx context b.2 _ .condDone (by simp [Active])]
    exact ih .condDone (Or.inr rfl)

theorem processExpression_cond {ctx : Ctx} {context : Option Nat} {c : Expr} {b : Bool} {s : List Char}
    (hv : HasValue ctx context c (.bool b s)) (k : Cond) (st : CState)
    (hk : (k = .kIf ∧ st = .outside) ∨ (k = .kElif ∧ st = .condFalse)) (out : List Char) :
    processExpression ctx context out st (c.toMarker (some k)) =
      .ok (out, if b then .condTrue else .condFalse) := by
  rcases hk with ⟨rfl, rfl⟩ | ⟨rfl, rfl⟩
  · simp only [processExpression, evaluate_hasValue hv]
    simp [Expr.toMarker]
  · simp only [processExpression, evaluate_hasValue hv]
    simp [Expr.toMarker]

theorem run_tail {ctx : Ctx} {context : Option Nat} {branches : List (Expr × List Simple)}
    {l : Option (Bool × List Simple)} {o : List Char} (h : RendersBranches ctx context branches l o) :
    ∀ (e : Bool) (rest : List Token) (out : List Char),
    run ctx context (branches.flatMap (branchTokens .kElif) ++ (lastTokens l ++ endToken e :: rest)) .condFalse out =
      run ctx context rest .outside (out ++ o) := by
  induction h with
  | hit c s body more last o hv hb =>
    intro e rest out
    simp only [List.flatMap_cons, branchTokens, List.cons_append, run, List.append_assoc]
    rw [processExpression_cond hv .kElif .condFalse (by simp)]
    simp only [if_true]
    rw [run_body hb _ .condTrue (Or.inr rfl)]
    exact run_done ctx context more last e rest .condTrue (Or.inl rfl) _
  | miss c s body more last o hv _ ih =>
    intro e rest out
    simp only [List.flatMap_cons, branchTokens, List.cons_append, run, List.append_assoc]
    rw [processExpression_cond hv .kElif .condFalse (by simp)]
    simp only [Bool.false_eq_true, if_false]
    rw [run_skip ctx context body _ .condFalse (by simp [Active])]
    exact ih e rest out
  | last eol body o hb =>
    intro e rest out
    simp only [List.flatMap_nil, List.nil_append, lastTokens, List.cons_append, run]
    have : processExpression ctx context out .condFalse ⟨some .kElse, [], none, eol⟩ = .ok (out, .condTrue) := by
      simp [processExpression]
    rw [this]
    simp only
    rw [run_body hb _ .condTrue (Or.inr rfl)]
    exact run_end ctx context e rest .condTrue (by simp) _
  | nothing =>
    intro e rest out
    simp only [List.flatMap_nil, List.nil_append, lastTokens, List.append_nil]
    exact run_end ctx context e rest .condFalse (by simp) _

theorem run_items {ctx : Ctx} {context : Option Nat} {items : List Item} {o : List Char}
    (h : Renders ctx context items o) (rest : List Token) (out : List Char) :
    run ctx context (itemsTokens items ++ rest) .outside out = run ctx context rest .outside (out ++ o) := by
  induction h generalizing out with
  | nil => simp [itemsTokens]
  | simple s r o1 o2 h1 _ ih =>
    have e : itemsTokens (.simple s :: r) ++ rest = [s].map Simple.toToken ++ (itemsTokens r ++ rest) := by
      simp [itemsTokens, Item.toTokens]
    rw [e, run_body h1 _ .outside (Or.inl rfl), ih, List.append_assoc]
  | block f m l e r o1 o2 h1 _ ih =>
    have eq : itemsTokens (.block f m l e :: r) ++ rest = branchTokens .kIf f ++ (m.flatMap (branchTokens .kElif) ++
        (lastTokens l ++ endToken e :: (itemsTokens r ++ rest))) := by
      simp only [itemsTokens, List.flatMap_cons, Item.toTokens, lastTokens, endToken]
      simp
      cases l <;> rfl
    rw [eq]
    cases h1 with
    | hit c s body more last o hv hb =>
      simp only [branchTokens, List.cons_append, run, List.append_assoc]
      rw [processExpression_cond hv .kIf .outside (by simp)]
      simp only [if_true]
      rw [run_body hb _ .condTrue (Or.inr rfl)]
      have := run_done ctx context m l e (itemsTokens r ++ rest) .condTrue (Or.inl rfl) (out ++ o1)
      rw [this, ih, List.append_assoc]
    | miss c s body more last o hv hb =>
      simp only [branchTokens, List.cons_append, run, List.append_assoc]
      rw [processExpression_cond hv .kIf .outside (by simp)]
      simp only [Bool.false_eq_true, if_false]
      rw [run_skip ctx context body _ .condFalse (by simp [Active])]
      have := run_tail hb e (itemsTokens r ++ rest) out
      rw [this, ih, List.append_assoc]

end Verif.Template
