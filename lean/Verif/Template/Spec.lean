import Verif.Template.Model

/-! # What a template means

A template is a sequence of items: plain text, expressions, and if/elif/else/endif blocks whose branches contain text
and expressions. The meaning is given without the resolver's states. -/

namespace Verif.Template

/-- An expression marker's content: the expression and, after a comma, the expression for the extruder number; `eol`:
the marker is directly followed by a newline that belongs to it. -/
structure Expr where
  expression : List Char
  extruder : Option (List Char)
  eol : Bool

inductive Simple where
  | text (s : List Char)
  | expr (e : Expr)

/-- `{if c₁} b₁ {elif c₂} b₂ … {else} b {endif}`; the booleans tell whether a newline follows the marker. -/
inductive Item where
  | simple (s : Simple)
  | block (first : Expr × List Simple) (more : List (Expr × List Simple)) (last : Option (Bool × List Simple))
      (endEol : Bool)

/-- The environment for an extruder number: its own, or the global one if there is no such extruder. -/
def Ctx.envOr (ctx : Ctx) (n : Option Nat) : Option (List Char → Option Value) :=
  match ctx.envs n with
  | some e => some e
  | none => ctx.envs none

/-- The number a value stands for when used as an extruder number. -/
def isNumber (ctx : Ctx) : Value → Nat → Prop
  | .int i _, n => i = n ∧ n < 2 ^ 64
  | .str s _, n => ctx.stoi s = some (n : Int) ∧ n < 2 ^ 64
  | .dbl f _, n => f = n ∧ n < 2 ^ 64
  | _, _ => False

/-- The expression has value `v` in a template resolved for extruder `context`. -/
inductive HasValue (ctx : Ctx) (context : Option Nat) (e : Expr) (v : Value) : Prop
  | here (env : List Char → Option Value) : e.extruder = none → ctx.envOr context = some env →
      env e.expression = some v → HasValue ctx context e v
  | other (env0 env : List Char → Option Value) (x : List Char) (xv : Value) (n : Nat) : e.extruder = some x →
      ctx.envs context = some env0 → env0 x = some xv → isNumber ctx xv n →
      ctx.envOr (some n) = some env → env e.expression = some v → HasValue ctx context e v

/-- What a sequence of text and expressions is replaced with. -/
inductive RendersBody (ctx : Ctx) (context : Option Nat) : List Simple → List Char → Prop
  | nil : RendersBody ctx context [] []
  | text (s r o) : RendersBody ctx context r o → RendersBody ctx context (.text s :: r) (s ++ o)
  | expr (e v r o) : HasValue ctx context e v → RendersBody ctx context r o →
      RendersBody ctx context (.expr e :: r) (v.shown ++ (if e.eol then ['\n'] else []) ++ o)

/-- What the branches of a block are replaced with: the body of the first true condition, else the last body. -/
inductive RendersBranches (ctx : Ctx) (context : Option Nat) :
    List (Expr × List Simple) → Option (Bool × List Simple) → List Char → Prop
  | hit (c s body more last o) : HasValue ctx context c (.bool true s) → RendersBody ctx context body o →
      RendersBranches ctx context ((c, body) :: more) last o
  | miss (c s body more last o) : HasValue ctx context c (.bool false s) → RendersBranches ctx context more last o →
      RendersBranches ctx context ((c, body) :: more) last o
  | last (eol body o) : RendersBody ctx context body o → RendersBranches ctx context [] (some (eol, body)) o
  | nothing : RendersBranches ctx context [] none []

/-- What a template is replaced with. -/
inductive Renders (ctx : Ctx) (context : Option Nat) : List Item → List Char → Prop
  | nil : Renders ctx context [] []
  | simple (s r o1 o2) : RendersBody ctx context [s] o1 → Renders ctx context r o2 →
      Renders ctx context (.simple s :: r) (o1 ++ o2)
  | block (f m l e r o1 o2) : RendersBranches ctx context (f :: m) l o1 → Renders ctx context r o2 →
      Renders ctx context (.block f m l e :: r) (o1 ++ o2)

/-- `r` is `o`, terminated by a newline unless empty. -/
def Terminated (o r : List Char) : Prop :=
  ((o = [] ∨ o.getLast? = some '\n') ∧ r = o) ∨ (¬ (o = [] ∨ o.getLast? = some '\n') ∧ r = o ++ ['\n'])

/-- Resolving the input yields the input itself, terminated by a newline. -/
def ReturnsRaw (ctx : Ctx) (context : Option Nat) (input : List Char) : Prop :=
  ∃ r, resolve ctx context input = .ok r ∧ Terminated input r

/-! ## What is wrong with a template -/

/-- The expression cannot be evaluated: it, or its extruder expression, has no value, or the latter is no number. -/
inductive Fails (ctx : Ctx) (context : Option Nat) (e : Expr) : Prop
  | here (env : List Char → Option Value) : e.extruder = none → ctx.envOr context = some env →
      env e.expression = none → Fails ctx context e
  | noExtruder (env0 : List Char → Option Value) (x : List Char) : e.extruder = some x →
      ctx.envs context = some env0 → env0 x = none → Fails ctx context e
  | noNumber (env0 : List Char → Option Value) (x : List Char) (xv : Value) : e.extruder = some x →
      ctx.envs context = some env0 → env0 x = some xv → ((∃ b s, xv = .bool b s) ∨ ∃ s, xv = .other s) →
      Fails ctx context e
  | other (env0 env : List Char → Option Value) (x : List Char) (xv : Value) (n : Nat) : e.extruder = some x →
      ctx.envs context = some env0 → env0 x = some xv → isNumber ctx xv n →
      ctx.envOr (some n) = some env → env e.expression = none → Fails ctx context e

/-- Where in an open block a template is: in the branch that was chosen, before a chosen one, or after it. -/
inductive Pos where
  | chosen | before | after
  deriving DecidableEq

/-! ## Writing a template down -/

inductive Token where
  | text (s : List Char)
  | marker (m : Marker)

def Expr.toMarker (k : Option Cond) (e : Expr) : Marker := ⟨k, e.expression, e.extruder, e.eol⟩

def Simple.toToken : Simple → Token
  | .text s => .text s
  | .expr e => .marker (e.toMarker none)

def branchTokens (k : Cond) (b : Expr × List Simple) : List Token :=
  .marker (b.1.toMarker (some k)) :: b.2.map Simple.toToken

/-- `{endif}`. -/
def endToken (e : Bool) : Token := .marker ⟨some .kEndif, [], none, e⟩

def Item.toTokens : Item → List Token
  | .simple s => [s.toToken]
  | .block f m l e =>
    branchTokens .kIf f ++ m.flatMap (branchTokens .kElif) ++
      (match l with
        | some (eol, body) => .marker ⟨some .kElse, [], none, eol⟩ :: body.map Simple.toToken
        | none => []) ++
      [.marker ⟨some .kEndif, [], none, e⟩]

/-- Token sequences that open a block and do not close it, with the position they end at. In a branch that is not
chosen the body is arbitrary text and expressions. -/
inductive Open (ctx : Ctx) (context : Option Nat) : List Token → Pos → Prop
  | ifTrue (c s body o) : HasValue ctx context c (.bool true s) → RendersBody ctx context body o →
      Open ctx context (branchTokens .kIf (c, body)) .chosen
  | ifFalse (c s body) : HasValue ctx context c (.bool false s) → Open ctx context (branchTokens .kIf (c, body)) .before
  | elifTrue (ts c s body o) : Open ctx context ts .before → HasValue ctx context c (.bool true s) →
      RendersBody ctx context body o → Open ctx context (ts ++ branchTokens .kElif (c, body)) .chosen
  | elifFalse (ts c s body) : Open ctx context ts .before → HasValue ctx context c (.bool false s) →
      Open ctx context (ts ++ branchTokens .kElif (c, body)) .before
  | elifSkipped (ts p c body) : Open ctx context ts p → p ≠ .before →
      Open ctx context (ts ++ branchTokens .kElif (c, body)) .after
  | elseTaken (ts eol) (body : List Simple) (o) : Open ctx context ts .before → RendersBody ctx context body o →
      Open ctx context (ts ++ .marker ⟨some .kElse, [], none, eol⟩ :: body.map Simple.toToken) .chosen
  | elseSkipped (ts p eol) (body : List Simple) : Open ctx context ts p → p ≠ .before →
      Open ctx context (ts ++ .marker ⟨some .kElse, [], none, eol⟩ :: body.map Simple.toToken) .after

def itemsTokens (items : List Item) : List Token := items.flatMap Item.toTokens

def condText : Option Cond → List Char
  | none => []
  | some .kIf => ['i', 'f', ' ']
  | some .kElse => ['e', 'l', 's', 'e']
  | some .kElif => ['e', 'l', 'i', 'f', ' ']
  | some .kEndif => ['e', 'n', 'd', 'i', 'f']

/-- `{if expression, extruder}` and so on. -/
def Marker.text (m : Marker) : List Char :=
  '{' :: condText m.cond ++ m.expression ++
    (match m.extruder with
      | some x => ',' :: x
      | none => []) ++ ['}'] ++ (if m.eol then ['\n'] else [])

def Token.chars : Token → List Char
  | .text s => s
  | .marker m => m.text

def tokensText (ts : List Token) : List Char := ts.flatMap Token.chars

/-- The template as text. -/
def templateText (items : List Item) : List Char := tokensText (itemsTokens items)

/-- Blanks: space, tab, newline, vertical tab, form feed, carriage return. -/
def Blank (c : Char) : Prop := c = ' ' ∨ c = '\t' ∨ c = '\n' ∨ c = '\x0b' ∨ c = '\x0c' ∨ c = '\r'

/-- Markers that can be written down and read back: no braces in the expression, no blanks around it, no keyword in
front of it (unless the marker is a condition), a proper extruder expression, and, if there is none, no comma in the
expression except in front of a quote: `{f("a,b")}`, `{max(a,b),1}`. -/
def Marker.Plain (m : Marker) : Prop :=
  (∀ c ∈ m.expression, c ≠ '{' ∧ c ≠ '}') ∧
  (∀ c, m.expression.head? = some c → ¬ Blank c) ∧
  (∀ c, m.expression.getLast? = some c → ¬ Blank c) ∧
  (m.cond = none → ¬ ['i', 'f'] <+: m.expression ∧ ¬ ['e', 'l', 's', 'e'] <+: m.expression ∧
    ¬ ['e', 'l', 'i', 'f'] <+: m.expression ∧ ¬ ['e', 'n', 'd', 'i', 'f'] <+: m.expression) ∧
  (m.extruder = none → ∀ a b, m.expression = a ++ ',' :: b → '\'' ∈ b ∨ '"' ∈ b) ∧
  (∀ x, m.extruder = some x → x ≠ [] ∧
    (∀ c ∈ x, c ≠ '{' ∧ c ≠ '}' ∧ c ≠ ',' ∧ c ≠ '\'' ∧ c ≠ '"') ∧ ∀ c, x.head? = some c → ¬ Blank c)

/-- A token sequence that reads back as itself. -/
def PlainTokens : List Token → Prop
  | [] => True
  | .text s :: r => (∀ c ∈ s, c ≠ '{' ∧ c ≠ '}') ∧ PlainTokens r
  | .marker m :: r => m.Plain ∧ (m.eol = false → (tokensText r).head? ≠ some '\n') ∧ PlainTokens r

end Verif.Template
