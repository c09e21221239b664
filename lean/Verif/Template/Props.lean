import Verif.Template.RunLemmas

/-! # Properties of the template resolver: C15, C16, C17 -/

namespace Verif.Template

theorem resolve_eq_run (ctx : Ctx) (context : Option Nat) (ts : List Token) (hp : PlainTokens ts) :
    resolve ctx context (tokensText ts) = match run ctx context ts .outside [] with
      | .ok (some out) => .ok (terminate out)
      | .ok none => .ok (terminate (tokensText ts))
      | .fail => .fail
      | .throws => .throws
      | .ub => .ub := by
  unfold resolve
  have := loop_eq_run ctx context ts [] .outside [] ((tokensText ts).length + 1) (by simp) hp (by simp)
  simp only [List.nil_append, processStatement_nil] at this
  rw [this]
  generalize run ctx context ts CState.outside [] = r
  cases r with
  | ok o => cases o <;> rfl
  | fail => rfl
  | throws => rfl
  | ub => rfl

theorem terminated_terminate (o : List Char) : Terminated o (terminate o) := by
  unfold terminate Terminated
  split
  · rename_i h; exact Or.inl ⟨h, rfl⟩
  · rename_i h; exact Or.inr ⟨h, rfl⟩

/-- **C15.** A well-formed template is replaced with what it means, terminated by a newline: outside blocks everything,
and of each block the branch of the first true condition (or the else branch). Conditions behind the first true one
need no value. -/
theorem C15_template_resolved (ctx : Ctx) (context : Option Nat) (items : List Item) (o : List Char)
    (hp : PlainTokens (itemsTokens items)) (h : Renders ctx context items o) :
    ∃ r, resolve ctx context (templateText items) = .ok r ∧ Terminated o r := by
  refine ⟨_, ?_, terminated_terminate o⟩
  unfold templateText
  rw [resolve_eq_run ctx context _ hp]
  have := run_items h [] []
  simp only [List.append_nil, List.nil_append] at this
  rw [this]
  rfl

/-- **C15.** Whatever the template, a result is empty or ends with a newline. -/
theorem C15_newline_terminated (ctx : Ctx) (context : Option Nat) (input out : List Char)
    (h : resolve ctx context input = .ok out) : out = [] ∨ out.getLast? = some '\n' := by
  have ht : ∀ o, terminate o = [] ∨ (terminate o).getLast? = some '\n' := by
    intro o
    unfold terminate
    split
    · rename_i h; exact h
    · right; simp
  unfold resolve at h
  split at h <;> simp at h
  · rw [← h]; exact ht _
  · rw [← h]; exact ht _

/-- The state of the resolver at a position in a block. -/
def Pos.state : Pos → CState
  | .chosen => .condTrue
  | .before => .condFalse
  | .after => .condDone

theorem run_open {ctx : Ctx} {context : Option Nat} {ts : List Token} {p : Pos} (h : Open ctx context ts p) :
    ∀ (out : List Char), ∃ out', (p = .before → out' = out) ∧ ∀ rest,
      run ctx context (ts ++ rest) .outside out = run ctx context rest p.state out' := by
  induction h with
  | ifTrue c s body o hv hb =>
    intro out
    refine ⟨out ++ o, by simp, fun rest => ?_⟩
    simp only [branchTokens, List.cons_append, run]
    rw [processExpression_cond hv .kIf .outside (by simp)]
    exact run_body hb _ .condTrue (Or.inr rfl) _
  | ifFalse c s body hv =>
    intro out
    refine ⟨out, by simp, fun rest => ?_⟩
    simp only [branchTokens, List.cons_append, run]
    rw [processExpression_cond hv .kIf .outside (by simp)]
    exact run_skip ctx context body _ .condFalse (by simp [Active]) _
  | elifTrue ts c s body o _ hv hb ih =>
    intro out
    obtain ⟨o', _, ho⟩ := ih out
    refine ⟨o' ++ o, by simp, fun rest => ?_⟩
    rw [List.append_assoc, ho]
    simp only [branchTokens, List.cons_append, run, Pos.state]
    rw [processExpression_cond hv .kElif .condFalse (by simp)]
    exact run_body hb _ .condTrue (Or.inr rfl) _
  | elifFalse ts c s body _ hv ih =>
    intro out
    obtain ⟨o', he, ho⟩ := ih out
    refine ⟨o', fun _ => he rfl, fun rest => ?_⟩
    rw [List.append_assoc, ho]
    simp only [branchTokens, List.cons_append, run, Pos.state]
    rw [processExpression_cond hv .kElif .condFalse (by simp)]
    exact run_skip ctx context body _ .condFalse (by simp [Active]) _
  | elifSkipped ts p c body _ hp ih =>
    intro out
    obtain ⟨o', _, ho⟩ := ih out
    refine ⟨o', by simp, fun rest => ?_⟩
    rw [List.append_assoc, ho]
    simp only [branchTokens, List.cons_append, run]
    have : processExpression ctx context o' p.state (c.toMarker (some .kElif)) = .ok (o', .condDone) := by
      cases p <;> simp [processExpression, Expr.toMarker, Pos.state] at hp ⊢
    rw [this]
    exact run_skip ctx context body _ .condDone (by simp [Active]) _
  | elseTaken ts eol body o _ hb ih =>
    intro out
    obtain ⟨o', _, ho⟩ := ih out
    refine ⟨o' ++ o, by simp, fun rest => ?_⟩
    rw [List.append_assoc, ho]
    simp only [List.cons_append, run, Pos.state]
    have : processExpression ctx context o' .condFalse ⟨some .kElse, [], none, eol⟩ = .ok (o', .condTrue) := by
      simp [processExpression]
    rw [this]
    exact run_body hb _ .condTrue (Or.inr rfl) _
  | elseSkipped ts p eol body _ hp ih =>
    intro out
    obtain ⟨o', _, ho⟩ := ih out
    refine ⟨o', by simp, fun rest => ?_⟩
    rw [List.append_assoc, ho]
    simp only [List.cons_append, run]
    have : processExpression ctx context o' p.state ⟨some .kElse, [], none, eol⟩ = .ok (o', .condDone) := by
      cases p <;> simp [processExpression, Pos.state] at hp ⊢
    rw [this]
    exact run_skip ctx context body _ .condDone (by simp [Active]) _

theorem raw_of_run_none (ctx : Ctx) (context : Option Nat) (ts : List Token) (hp : PlainTokens ts)
    (h : run ctx context ts .outside [] = .ok none) :
    ReturnsRaw ctx context (tokensText ts) := by
  refine ⟨_, ?_, terminated_terminate _⟩
  rw [resolve_eq_run ctx context ts hp, h]

theorem evaluate_fails {ctx : Ctx} {context : Option Nat} {e : Expr} (h : Fails ctx context e) (k : Option Cond) :
    evaluate ctx context (e.toMarker k) = .fail := by
  cases h with
  | here env h1 h2 h3 =>
    unfold Ctx.envOr at h2
    simp only [evaluate, Expr.toMarker, h1]
    cases hc : ctx.envs context with
    | some e0 => simp only [hc, Option.some.injEq] at h2; subst h2; simp [h3]
    | none => simp only [hc] at h2; simp [h2, h3]
  | noExtruder env0 x h1 h2 h3 => simp [evaluate, Expr.toMarker, h1, h2, h3]
  | noNumber env0 x xv h1 h2 h3 h4 =>
    rcases h4 with ⟨b, s, rfl⟩ | ⟨s, rfl⟩ <;> simp [evaluate, Expr.toMarker, h1, h2, h3, parseExtruder]
  | other env0 env x xv n h1 h2 h3 h4 h5 h6 =>
    have hp : parseExtruder ctx xv = .ok n := by
      cases xv with
      | int i s =>
        obtain ⟨rfl, hn⟩ := h4
        simp only [parseExtruder]
        congr 1
        have : ((n : Int) % 2 ^ 64) = n := Int.emod_eq_of_lt (by omega) (by omega)
        rw [this]; simp
      | str s sh =>
        obtain ⟨hs, hn⟩ := h4
        simp only [parseExtruder, hs]
        congr 1
        have : ((n : Int) % 2 ^ 64) = n := Int.emod_eq_of_lt (by omega) (by omega)
        rw [this]; simp
      | dbl f s =>
        obtain ⟨rfl, hn⟩ := h4
        simp only [parseExtruder]
        rw [if_pos ⟨by omega, by omega⟩]; simp
      | bool b s => exact h4.elim
      | other s => exact h4.elim
    unfold Ctx.envOr at h5
    simp only [evaluate, Expr.toMarker, h1, h2, h3, hp]
    cases hc : ctx.envs (some n) with
    | some e0 => simp only [hc, Option.some.injEq] at h5; subst h5; simp [h6]
    | none => simp only [hc] at h5; simp [h5, h6]

/-- **C16.** An `elif`, `else` or `endif` outside a block: the raw template is returned. -/
theorem C16_keyword_outside_block (ctx : Ctx) (context : Option Nat) (items : List Item) (o : List Char)
    (h : Renders ctx context items o) (m : Marker) (hm : m.cond = some .kElif ∨ m.cond = some .kElse ∨ m.cond = some .kEndif)
    (rest : List Token) (hp : PlainTokens (itemsTokens items ++ .marker m :: rest)) :
    ReturnsRaw ctx context (tokensText (itemsTokens items ++ .marker m :: rest)) := by
  apply raw_of_run_none ctx context _ hp
  rw [run_items h]
  simp only [run]
  have : processExpression ctx context ([] ++ o) .outside m = .fail := by
    rcases hm with h | h | h <;> simp [processExpression, h]
  rw [this]

/-- **C16.** An `if` inside an open block: the raw template is returned, whatever follows. -/
theorem C16_nested_if (ctx : Ctx) (context : Option Nat) (items : List Item) (o : List Char)
    (h : Renders ctx context items o) (ts : List Token) (p : Pos) (ho : Open ctx context ts p) (m : Marker)
    (hm : m.cond = some .kIf) (rest : List Token)
    (hp : PlainTokens (itemsTokens items ++ (ts ++ .marker m :: rest))) :
    ReturnsRaw ctx context (tokensText (itemsTokens items ++ (ts ++ .marker m :: rest))) := by
  apply raw_of_run_none ctx context _ hp
  rw [run_items h]
  obtain ⟨o', _, ho'⟩ := run_open ho ([] ++ o)
  rw [ho']
  simp only [run]
  have : processExpression ctx context o' p.state m = .fail := by
    cases p <;> simp [processExpression, hm, Pos.state]
  rw [this]

/-- **C16.** An expression (or `if` condition) that cannot be evaluated, outside blocks: the raw template. -/
theorem C16_failing_outside (ctx : Ctx) (context : Option Nat) (items : List Item) (o : List Char)
    (h : Renders ctx context items o) (e : Expr) (he : Fails ctx context e) (k : Option Cond)
    (hk : k = none ∨ k = some .kIf) (rest : List Token)
    (hp : PlainTokens (itemsTokens items ++ .marker (e.toMarker k) :: rest)) :
    ReturnsRaw ctx context (tokensText (itemsTokens items ++ .marker (e.toMarker k) :: rest)) := by
  apply raw_of_run_none ctx context _ hp
  rw [run_items h]
  simp only [run]
  have : processExpression ctx context ([] ++ o) .outside (e.toMarker k) = .fail := by
    rcases hk with rfl | rfl
    · simp only [processExpression, evaluate_fails he]; simp [Expr.toMarker]
    · simp only [processExpression, evaluate_fails he]; simp [Expr.toMarker]
  rw [this]

/-- **C16.** In a block: an expression that cannot be evaluated in the chosen branch, or an `elif` condition that
cannot be evaluated while no branch is chosen yet: the raw template. -/
theorem C16_failing_in_block (ctx : Ctx) (context : Option Nat) (items : List Item) (o : List Char)
    (h : Renders ctx context items o) (ts : List Token) (p : Pos) (ho : Open ctx context ts p) (e : Expr)
    (he : Fails ctx context e) (k : Option Cond) (hk : (p = .chosen ∧ k = none) ∨ (p = .before ∧ k = some .kElif))
    (rest : List Token) (hp : PlainTokens (itemsTokens items ++ (ts ++ .marker (e.toMarker k) :: rest))) :
    ReturnsRaw ctx context (tokensText (itemsTokens items ++ (ts ++ .marker (e.toMarker k) :: rest))) := by
  apply raw_of_run_none ctx context _ hp
  rw [run_items h]
  obtain ⟨o', _, ho'⟩ := run_open ho ([] ++ o)
  rw [ho']
  simp only [run]
  have : processExpression ctx context o' p.state (e.toMarker k) = .fail := by
    rcases hk with ⟨rfl, rfl⟩ | ⟨rfl, rfl⟩
    · simp only [processExpression, evaluate_fails he]; simp [Expr.toMarker, Pos.state]
    · simp only [processExpression, evaluate_fails he]; simp [Expr.toMarker, Pos.state]
  rw [this]

/-- **C16.** An extruder expression whose value is no extruder number is not an error that returns the template: a text
that is no number ends the program with an exception, and a number below zero or from 2^64 on is undefined behaviour. -/
theorem C16_not_an_extruder_number (ctx : Ctx) (context : Option Nat) (items : List Item) (o : List Char)
    (h : Renders ctx context items o) (e : Expr) (env0 : List Char → Option Value) (x : List Char) (xv : Value)
    (hx : e.extruder = some x) (h0 : ctx.envs context = some env0) (hv : env0 x = some xv) (k : Option Cond)
    (hk : k = none ∨ k = some .kIf) (rest : List Token)
    (hp : PlainTokens (itemsTokens items ++ .marker (e.toMarker k) :: rest)) :
    (∀ s sh, xv = .str s sh → ctx.stoi s = none →
      resolve ctx context (tokensText (itemsTokens items ++ .marker (e.toMarker k) :: rest)) = .throws) ∧
    (∀ f sh, xv = .dbl f sh → (f < 0 ∨ 2 ^ 64 ≤ f) →
      resolve ctx context (tokensText (itemsTokens items ++ .marker (e.toMarker k) :: rest)) = .ub) := by
  constructor
  · intro s sh hs hn
    rw [resolve_eq_run ctx context _ hp, run_items h]
    have hev : evaluate ctx context (e.toMarker k) = .throws := by
      simp [evaluate, Expr.toMarker, hx, h0, hv, hs, parseExtruder, hn]
    have : processExpression ctx context ([] ++ o) .outside (e.toMarker k) = .throws := by
      rcases hk with rfl | rfl <;> simp only [processExpression, hev] <;> simp [Expr.toMarker]
    simp only [run, this]
  · intro f sh hs hn
    rw [resolve_eq_run ctx context _ hp, run_items h]
    have hneg : ¬ (0 ≤ f ∧ f < 2 ^ 64) := by omega
    have hev : evaluate ctx context (e.toMarker k) = .ub := by
      simp only [evaluate, Expr.toMarker, hx, h0, hv, hs, parseExtruder, if_neg hneg]
    have : processExpression ctx context ([] ++ o) .outside (e.toMarker k) = .ub := by
      rcases hk with rfl | rfl <;> simp only [processExpression, hev] <;> simp [Expr.toMarker]
    simp only [run, this]

/-- **C15.** A comma outside quotes is taken for the one in front of the extruder number: `{f(a,b)}`, an expression
that has a value, comes back raw, because `b)` is read as the extruder expression. -/
theorem C15_comma_counterexample : ∃ (ctx : Ctx) (e : Expr) (v : Value), HasValue ctx none e v ∧
    e.expression = "f(a,b)".toList ∧ ReturnsRaw ctx none (Marker.text (e.toMarker none)) := by
  refine ⟨⟨fun _ => some fun s => if s = "f(a,b)".toList then some (.int 7 ['7']) else none, fun _ => none⟩,
    ⟨"f(a,b)".toList, none, false⟩, .int 7 ['7'], .here _ rfl rfl (if_pos rfl), rfl, "{f(a,b)}\n".toList, by decide, ?_⟩
  right
  decide

/-- The text contains a marker: an opening brace, then no brace, then a closing brace. -/
def HasMarker (s : List Char) : Prop :=
  ∃ a body b, s = a ++ '{' :: body ++ '}' :: b ∧ ∀ c ∈ body, c ≠ '{' ∧ c ≠ '}'

/-- **C16.** The search finds a marker exactly if the text contains one, and what it skips over contains none: no
marker is ever copied as text. -/
theorem C16_markers_found (s : List Char) :
    (search s = none ↔ ¬ HasMarker s) ∧ ∀ p m r, search s = some (p, m, r) → ¬ HasMarker p := by
  have hcl : ∀ (l c r : List Char), closes l = some (c, r) → l = c ++ '}' :: r ∧ ∀ x ∈ c, x ≠ '{' ∧ x ≠ '}' := by
    intro l
    induction l with
    | nil => intro c r h; simp [closes] at h
    | cons x xs ih =>
      intro c r h
      unfold closes at h
      split at h
      · simp_all
      · simp_all
      · simp_all
      · rename_i y ys hy1 hy2 heq
        simp only [List.cons.injEq] at heq
        obtain ⟨rfl, rfl⟩ := heq
        cases hc : closes xs with
        | none => rw [hc] at h; cases h
        | some q =>
          rw [hc] at h
          obtain ⟨a, b⟩ := q
          simp only [Option.map_some, Option.some.injEq, Prod.mk.injEq] at h
          obtain ⟨rfl, rfl⟩ := h
          obtain ⟨h1, h2⟩ := ih a b hc
          refine ⟨by rw [h1]; rfl, ?_⟩
          intro z hz
          rcases List.mem_cons.1 hz with rfl | hz
          · exact ⟨hy2, hy1⟩
          · exact h2 z hz
  have hcons : ∀ (c : Char) (cs : List Char), HasMarker (c :: cs) ↔
      (c = '{' ∧ (closes cs).isSome) ∨ HasMarker cs := by
    intro c cs
    constructor
    · rintro ⟨a, body, b, h1, h2⟩
      cases a with
      | nil =>
        simp only [List.nil_append, List.cons_append, List.cons.injEq] at h1
        refine Or.inl ⟨h1.1, ?_⟩
        rw [h1.2, closes_eval body b h2]; rfl
      | cons x a =>
        simp only [List.cons_append, List.cons.injEq] at h1
        exact Or.inr ⟨a, body, b, by rw [h1.2], h2⟩
    · rintro (⟨rfl, h⟩ | ⟨a, body, b, h1, h2⟩)
      · obtain ⟨q, hq⟩ := Option.isSome_iff_exists.1 h
        obtain ⟨c, r⟩ := q
        obtain ⟨h1, h2⟩ := hcl cs c r hq
        exact ⟨[], c, r, by rw [h1]; rfl, h2⟩
      · exact ⟨c :: a, body, b, by rw [h1]; simp, h2⟩
  induction s with
  | nil =>
    refine ⟨?_, ?_⟩
    · simp only [search, true_iff]
      rintro ⟨a, body, b, h1, _⟩
      cases a <;> simp at h1
    · intro p m r h; simp [search] at h
  | cons c cs ih =>
    rw [hcons]
    by_cases hc : c = '{' ∧ (closes cs).isSome
    · obtain ⟨hc1, hc2⟩ := hc
      obtain ⟨⟨content, rest⟩, hq⟩ := Option.isSome_iff_exists.1 hc2
      have hs : ∃ m r, search (c :: cs) = some ([], m, r) := by
        simp only [search, hc1, if_true, hq]
        split <;> exact ⟨_, _, rfl⟩
      obtain ⟨m, r, hs⟩ := hs
      rw [hs]
      refine ⟨?_, ?_⟩
      · simp [hc1, hc2]
      · intro p m' r' h
        simp only [Option.some.injEq, Prod.mk.injEq] at h
        rw [← h.1]
        rintro ⟨a, body, b, h1, _⟩
        cases a <;> simp at h1
    · have hs : search (c :: cs) = (search cs).map fun (p, m, s) => (c :: p, m, s) := by
        simp only [search]
        split
        · rename_i content rest h
          exfalso
          apply hc
          by_cases hb : c = '{'
          · simp only [hb, if_true] at h; exact ⟨hb, by rw [h]; rfl⟩
          · simp [hb] at h
        · rfl
      rw [hs]
      refine ⟨?_, ?_⟩
      · simp only [Option.map_eq_none_iff, ih.1]
        constructor
        · rintro h (h' | h')
          · exact hc h'
          · exact h h'
        · intro h h'; exact h (Or.inr h')
      · intro p m r h
        cases hcs : search cs with
        | none => rw [hcs] at h; cases h
        | some q =>
          obtain ⟨p0, m0, r0⟩ := q
          rw [hcs] at h
          simp only [Option.map_some, Option.some.injEq, Prod.mk.injEq] at h
          obtain ⟨rfl, rfl, rfl⟩ := h
          rw [hcons]
          rintro (⟨h1, h2⟩ | h')
          · -- `c` is an opening brace closed within the skipped text, hence closed in `cs`
            apply hc
            refine ⟨h1, ?_⟩
            have hsplit : ∀ (l p : List Char) (m : Marker) (r : List Char), search l = some (p, m, r) → ∃ t, l = p ++ t := by
              intro l
              induction l with
              | nil => intro p m r h; simp [search] at h
              | cons x xs ihx =>
                intro p m r h
                simp only [search] at h
                split at h
                · split at h <;> simp only [Option.some.injEq, Prod.mk.injEq] at h <;> (rw [← h.1]; exact ⟨_, rfl⟩)
                · cases hx : search xs with
                  | none => rw [hx] at h; cases h
                  | some q =>
                    obtain ⟨a, b, d⟩ := q
                    rw [hx] at h
                    simp only [Option.map_some, Option.some.injEq, Prod.mk.injEq] at h
                    obtain ⟨t, ht⟩ := ihx a b d hx
                    exact ⟨t, by rw [← h.1, ht]; rfl⟩
            obtain ⟨t, ht⟩ := hsplit cs _ _ _ hcs
            obtain ⟨⟨content, rest⟩, hq⟩ := Option.isSome_iff_exists.1 h2
            obtain ⟨e1, e2⟩ := hcl _ _ _ hq
            rw [ht, e1, List.append_assoc, List.cons_append, closes_eval content _ e2]
            rfl
          · exact ih.2 _ _ _ hcs h'

/-- **C17, violated.** If the condition of an `if` block has a value that is not a boolean, then, whatever simple
contents the block has, its `endif` is rejected and the raw template is returned. -/
theorem C17_nonboolean_if_rejected (ctx : Ctx) (context : Option Nat) (items : List Item) (o : List Char)
    (h : Renders ctx context items o) (c : Expr) (v : Value) (hv : HasValue ctx context c v)
    (hb : ∀ b s, v ≠ .bool b s) (body : List Simple) (bo : List Char) (hbody : RendersBody ctx context body bo)
    (eol : Bool) (rest : List Token)
    (hp : PlainTokens (itemsTokens items ++ (branchTokens .kIf (c, body) ++ endToken eol :: rest))) :
    ReturnsRaw ctx context (tokensText (itemsTokens items ++ (branchTokens .kIf (c, body) ++ endToken eol :: rest))) := by
  apply raw_of_run_none ctx context _ hp
  rw [run_items h]
  simp only [branchTokens, List.cons_append, run]
  have : ∀ out, processExpression ctx context out .outside (c.toMarker (some .kIf)) = .ok (out, .outside) := by
    intro out
    simp only [processExpression, evaluate_hasValue hv]
    cases v with
    | bool b s => exact absurd rfl (hb b s)
    | int i s => rfl
    | str a b => rfl
    | dbl a b => rfl
    | other a => rfl
  rw [this]
  simp only
  rw [run_body hbody _ .outside (Or.inl rfl)]
  simp [endToken, run, processExpression]

/-- **C17, violated.** A non-boolean `elif` condition is treated as false: as long as no branch was chosen before it, a
block that ends with such a branch renders as nothing. -/
theorem C17_nonboolean_elif_is_false (ctx : Ctx) (context : Option Nat) (items : List Item) (o : List Char)
    (h : Renders ctx context items o) (ts : List Token) (ho : Open ctx context ts .before) (c : Expr) (v : Value)
    (hv : HasValue ctx context c v) (hb : ∀ b s, v ≠ .bool b s) (body : List Simple) (eol : Bool) (more : List Item)
    (o2 : List Char) (h2 : Renders ctx context more o2)
    (hp : PlainTokens (itemsTokens items ++ (ts ++ (branchTokens .kElif (c, body) ++ endToken eol :: itemsTokens more)))) :
    ∃ r, resolve ctx context
        (tokensText (itemsTokens items ++ (ts ++ (branchTokens .kElif (c, body) ++ endToken eol :: itemsTokens more)))) =
      .ok r ∧ Terminated (o ++ o2) r := by
  refine ⟨_, ?_, terminated_terminate _⟩
  rw [resolve_eq_run ctx context _ hp, run_items h]
  obtain ⟨o', he, ho'⟩ := run_open ho ([] ++ o)
  rw [ho', he rfl]
  simp only [branchTokens, List.cons_append, run, Pos.state]
  have : ∀ out, processExpression ctx context out .condFalse (c.toMarker (some .kElif)) = .ok (out, .condFalse) := by
    intro out
    simp only [processExpression, evaluate_hasValue hv]
    simp only [Expr.toMarker]
    cases v with
    | bool b s => exact absurd rfl (hb b s)
    | int i s => rfl
    | str a b => rfl
    | dbl a b => rfl
    | other a => rfl
  rw [this]
  simp only
  rw [run_skip ctx context body _ .condFalse (by simp [Active]), run_end ctx context eol _ .condFalse (by simp)]
  have h3 := run_items h2 [] ([] ++ o)
  simp only [List.append_nil, List.nil_append] at h3 ⊢
  rw [h3]
  rfl

/-! ## Witnesses -/

/-- A context in which `a` is true, `b` false, `n` the number 7, and nothing else has a value. -/
def exCtx : Ctx where
  envs := fun
    | none => some fun s => if s = ['a'] then some (.bool true "True".toList) else if s = ['b'] then
        some (.bool false "False".toList) else if s = ['n'] then some (.int 7 ['7']) else none
    | some _ => none
  stoi := fun _ => none

def exA : Expr := ⟨['a'], none, false⟩
def exB : Expr := ⟨['b'], none, false⟩
def exN : Expr := ⟨['n'], none, true⟩
def exZ : Expr := ⟨['z'], none, false⟩

/-- `G1{if b}x{elif a}{n}⏎y{elif z}z{else}w{endif}`. -/
def exItems : List Item :=
  [.simple (.text ['G', '1']), .block (exB, [.text ['x']]) [(exA, [.expr exN, .text ['y']]), (exZ, [.text ['z']])]
    (some (false, [.text ['w']])) false]

theorem exA_value : HasValue exCtx none exA (.bool true "True".toList) := .here _ rfl rfl rfl
theorem exB_value : HasValue exCtx none exB (.bool false "False".toList) := .here _ rfl rfl rfl
theorem exN_value : HasValue exCtx none exN (.int 7 ['7']) := .here _ rfl rfl rfl
theorem exZ_fails : Fails exCtx none exZ := .here _ rfl rfl rfl

theorem exItems_render : Renders exCtx none exItems (['G', '1'] ++ [] ++ (['7'] ++ ['\n'] ++ (['y'] ++ []) ++ [])) := by
  refine .simple _ _ _ _ (.text _ _ _ .nil) (.block _ _ _ _ _ _ _ ?_ .nil)
  exact .miss _ _ _ _ _ _ exB_value (.hit _ _ _ _ _ _ exA_value (.expr _ _ _ _ exN_value (.text _ _ _ .nil)))

theorem exItems_plain : PlainTokens (itemsTokens exItems) := by
  simp only [exItems, itemsTokens, Item.toTokens, branchTokens, List.flatMap_cons, List.flatMap_nil, List.map_cons,
    List.map_nil, Simple.toToken, List.cons_append, List.nil_append, List.append_nil]
  simp [PlainTokens, Marker.Plain, Expr.toMarker, exA, exB, exN, exZ, tokensText, Token.chars, Marker.text, Blank,
    condText, List.cons_eq_append_iff]

/-- C15: a template with a false, a true and an unevaluable condition. -/
example : ∃ items o, Renders exCtx none items o ∧ PlainTokens (itemsTokens items) ∧
    resolve exCtx none (templateText items) = .ok (['G', '1', '7', '\n', 'y', '\n']) :=
  ⟨exItems, _, exItems_render, exItems_plain, by decide⟩

/-- C15: commas in front of a quote or of the extruder number: `{f("a,b")}`, `{f(a,b),n}`. -/
example : PlainTokens [.marker ⟨none, "f(\"a,b\")".toList, none, false⟩, .marker ⟨none, "f(a,b)".toList, some ['n'], false⟩] := by
  simp [PlainTokens, Marker.Plain, tokensText, Token.chars, Marker.text, Blank, condText, List.cons_eq_append_iff]
  intro a b x _ x1 _ x2 _ x3 _ _ hb
  simp [hb]

/-- C16: an extruder expression that is below zero or no number. -/
example : ∃ (ctx : Ctx) (e : Expr) (env0 : List Char → Option Value), e.extruder = some ['x'] ∧ ctx.envs none = some env0 ∧
    env0 ['x'] = some (.dbl (-1) []) ∧ PlainTokens (itemsTokens [] ++ .marker (e.toMarker none) :: []) ∧
    resolve ctx none "{n,x}".toList = .ub :=
  ⟨⟨fun _ => some fun _ => some (.dbl (-1) []), fun _ => none⟩, ⟨['n'], some ['x'], false⟩, _, rfl, rfl, rfl, by
    simp [PlainTokens, Marker.Plain, Expr.toMarker, itemsTokens, tokensText, Blank, condText], by decide⟩

/-- C16, keyword outside a block: `…{else}`. -/
example : PlainTokens (itemsTokens exItems ++ .marker ⟨some .kElse, [], none, false⟩ :: []) := by
  simp only [exItems, itemsTokens, Item.toTokens, branchTokens, List.flatMap_cons, List.flatMap_nil, List.map_cons,
    List.map_nil, Simple.toToken, List.cons_append, List.nil_append, List.append_nil]
  simp [PlainTokens, Marker.Plain, Expr.toMarker, exA, exB, exN, exZ, tokensText, Token.chars, Marker.text, Blank,
    condText, List.cons_eq_append_iff]

/-- C16, nested `if` and failing expression in a block: open blocks at all three positions. -/
example : Open exCtx none (branchTokens .kIf (exA, [.text ['x']])) .chosen ∧
    Open exCtx none (branchTokens .kIf (exB, [.expr exZ]) ++ branchTokens .kElif (exB, [])) .before ∧
    Open exCtx none (branchTokens .kIf (exA, [.text ['x']]) ++ branchTokens .kElif (exZ, [])) .after :=
  ⟨.ifTrue _ _ _ _ exA_value (.text _ _ _ .nil), .elifFalse _ _ _ _ (.ifFalse _ _ _ exB_value) exB_value,
    .elifSkipped _ _ _ _ (.ifTrue _ _ _ _ exA_value (.text _ _ _ .nil)) (by decide)⟩

example : PlainTokens (itemsTokens [] ++ (branchTokens .kIf (exB, [.expr exZ]) ++
    .marker (exZ.toMarker (some .kElif)) :: [])) := by
  simp only [itemsTokens, Item.toTokens, branchTokens, List.flatMap_cons, List.flatMap_nil, List.map_cons,
    List.map_nil, Simple.toToken, List.cons_append, List.nil_append, List.append_nil]
  simp [PlainTokens, Marker.Plain, Expr.toMarker, exA, exB, exN, exZ, tokensText, Token.chars, Marker.text, Blank,
    condText, List.cons_eq_append_iff]

/-- C16: the search finds the inner of two opening braces. -/
example : HasMarker ['{', 'x', '{', 'n', '}'] ∧ search ['{', 'x', '{', 'n', '}'] =
    some (['{', 'x'], ⟨none, ['n'], none, false⟩, []) := ⟨⟨['{', 'x'], ['n'], [], rfl, by decide⟩, by decide⟩

/-- C17: `{if n}x{endif}` comes back raw, `{if b}x{elif n}y{endif}` is empty. -/
example : resolve exCtx none "{if n}x{endif}".toList = .ok "{if n}x{endif}\n".toList ∧
    resolve exCtx none "{if b}x{elif n}y{endif}".toList = .ok [] := by decide

end Verif.Template
