/-! # Model of the start/end G-code template resolver (src/gcode_export/GcodeTemplateResolver.cpp)

Expressions are evaluated by an external library (cura-formulae-engine): an environment is an arbitrary partial function
from expression text to values. The regular expression is modelled by the functions `search`/`parseContent`, which follow
the leftmost, backtracking (Perl) matching of boost::regex_search. -/

namespace Verif.Template

/-- `cfe::eval::Value`: the alternatives the resolver distinguishes; `dbl` carries `floor` of the number, every
value carries what `toString` yields. -/
inductive Value where
  | bool (b : Bool) (shown : List Char)
  | int (i : Int) (shown : List Char)
  | str (s : List Char) (shown : List Char)
  | dbl (floor : Int) (shown : List Char)
  | other (shown : List Char)

/-- `Value::toString`. -/
def Value.shown : Value → List Char
  | .bool _ s | .int _ s | .str _ s | .dbl _ s | .other s => s

/-- What the surroundings provide: the environments by extruder number (`none`: the global one), each an evaluator
(`evaluateExpression`, .cpp:43-61: `none` for a syntax error or unknown identifier), and `std::stoi` (`none`: throws). -/
structure Ctx where
  envs : Option Nat → Option (List Char → Option Value)
  stoi : List Char → Option Int

/-- The `condition` group of the regular expression, .cpp:261. -/
inductive Cond where
  | kIf | kElse | kElif | kEndif
  deriving DecidableEq, Repr

/-- A match: its named groups, .cpp:261. An `extruder_nr` group, if matched, is never empty. -/
structure Marker where
  cond : Option Cond
  expression : List Char
  extruder : Option (List Char)
  eol : Bool
  deriving DecidableEq, Repr

/-- `GcodeConditionState`, GcodeTemplateResolver.h. -/
inductive CState where
  | outside | condFalse | condTrue | condDone
  deriving DecidableEq, Repr

/-- Result of a step: success, `return false`, an exception, undefined behaviour. -/
inductive Res (α : Type) where
  | ok (a : α)
  | fail
  | throws
  | ub
  deriving DecidableEq, Repr

/-- `processStatement`, .cpp:63-69. -/
def processStatement (output : List Char) (st : CState) (statement : List Char) : List Char :=
  if st = .outside ∨ st = .condTrue then output ++ statement else output

/-- The extruder number computed from the value of the `extruder_nr` group, .cpp:179-197; conversions to `size_t` wrap
modulo 2^64 for integers and are undefined for negative doubles. -/
def parseExtruder (ctx : Ctx) : Value → Res Nat
  | .int i _ => .ok (i % 2 ^ 64).toNat
  | .str s _ => match ctx.stoi s with
    | some i => .ok (i % 2 ^ 64).toNat
    | none => .throws
  | .dbl f _ => if 0 ≤ f ∧ f < 2 ^ 64 then .ok f.toNat else .ub
  | .bool _ _ | .other _ => .fail

/-- Lines 167-214: select the environment and evaluate the expression. -/
def evaluate (ctx : Ctx) (context : Option Nat) (m : Marker) : Res Value :=
  let here : Res (Option Nat) := match m.extruder with
    | none => .ok context
    | some x =>
      match ctx.envs context with
      | none => .throws
      | some env =>
        match env x with
        | none => .fail
        | some v =>
          match parseExtruder ctx v with
          | .ok n => .ok (some n)
          | .fail => .fail
          | .throws => .throws
          | .ub => .ub
  match here with
  | .fail => .fail
  | .throws => .throws
  | .ub => .ub
  | .ok h =>
    let env := match ctx.envs h with
      | some e => some e
      | none => ctx.envs none
    match env with
    | none => .ub
    | some e =>
      match e m.expression with
      | none => .fail
      | some v => .ok v

/-- `processExpression`, .cpp:71-238; returns the new output and state. -/
def processExpression (ctx : Ctx) (context : Option Nat) (output : List Char) (st : CState) (m : Marker) :
    Res (List Char × CState) :=
  let write (st : CState) : Res (List Char × CState) := match evaluate ctx context m with
    | .ok v => .ok (output ++ v.shown ++ (if m.eol then ['\n'] else []), st)
    | .fail => .fail
    | .throws => .throws
    | .ub => .ub
  let evalCond (st : CState) : Res (List Char × CState) := match evaluate ctx context m with
    | .ok (.bool b _) => .ok (output, if b then .condTrue else .condFalse)
    | .ok _ => .ok (output, st)
    | .fail => .fail
    | .throws => .throws
    | .ub => .ub
  match m.cond with
  | none => if st = .outside ∨ st = .condTrue then write st else .ok (output, st)
  | some .kIf => if st = .outside then evalCond st else .fail
  | some c =>
    if st = .outside then .fail
    else
      let st1 := if st = .condTrue then .condDone else st
      match c with
      | .kElif => if st1 = .condFalse then evalCond st1 else .ok (output, st1)
      | .kElse => .ok (output, if st1 = .condFalse then .condTrue else st1)
      | _ => .ok (output, .outside)

/-! ## The regular expression, .cpp:261 -/

/-- `\s` in boost's default locale. -/
def isSpace (c : Char) : Bool :=
  c = ' ' || c = '\t' || c = '\n' || c = '\x0b' || c = '\x0c' || c = '\r'

/-- Characters of the `extruder_nr` group: `[^{},'"]`. -/
def extChar (c : Char) : Bool := c ≠ '{' && c ≠ '}' && c ≠ ',' && c ≠ '\'' && c ≠ '"'

/-- `\s*(?:,\s*(?<extruder_nr>[^{},'"]+))?\s*` matched against all of `t`; the result is the group. -/
def tailMatch (t : List Char) : Option (Option (List Char)) :=
  match t.dropWhile isSpace with
  | [] => some none
  | ',' :: u =>
    match u.dropWhile isSpace with
    | [] => match u.getLast? with
      | none => none
      | some c => some (some [c])
    | u1 => if u1.all extChar then some (some u1) else none
  | _ => none

/-- `(?<expression>[^{}]*?)` followed by the tail: the shortest expression whose rest matches. -/
def lazyExpr : List Char → List Char × Option (List Char)
  | [] => ([], none)
  | c :: cs =>
    match tailMatch (c :: cs) with
    | some x => ([], x)
    | none => let r := lazyExpr cs; (c :: r.1, r.2)

/-- `(?<condition>if|else|elif|endif)?`: the keyword at the front, if any, and the rest. -/
def keyword : List Char → Option Cond × List Char
  | 'i' :: 'f' :: r => (some .kIf, r)
  | 'e' :: 'l' :: 's' :: 'e' :: r => (some .kElse, r)
  | 'e' :: 'l' :: 'i' :: 'f' :: r => (some .kElif, r)
  | 'e' :: 'n' :: 'd' :: 'i' :: 'f' :: r => (some .kEndif, r)
  | r => (none, r)

/-- The groups for the text between the braces. -/
def parseContent (content : List Char) : Option Cond × List Char × Option (List Char) :=
  let (k, r) := keyword (content.dropWhile isSpace)
  (k, lazyExpr (r.dropWhile isSpace))

/-- After an opening brace: the text up to the next brace, if that is a closing one, and what follows it. -/
def closes : List Char → Option (List Char × List Char)
  | [] => none
  | '}' :: r => some ([], r)
  | '{' :: _ => none
  | c :: cs => (closes cs).map fun (a, r) => (c :: a, r)

/-- `boost::regex_search`: prefix, match, suffix. -/
def search : List Char → Option (List Char × Marker × List Char)
  | [] => none
  | c :: cs =>
    let here := if c = '{' then closes cs else none
    match here with
    | some (content, rest) =>
      let (k, e, x) := parseContent content
      match rest with
      | '\n' :: rest' => some ([], ⟨k, e, x, true⟩, rest')
      | _ => some ([], ⟨k, e, x, false⟩, rest)
    | none => (search cs).map fun (p, m, s) => (c :: p, m, s)

/-- The loop, .cpp:303-327. Fuel: the input shrinks with every match, so its length suffices. `none` stands for the
early exit with the raw input. -/
def loop (ctx : Ctx) (context : Option Nat) : Nat → List Char → CState → List Char → Res (Option (List Char))
  | 0, _, _, out => .ok (some out)
  | fuel + 1, input, st, out =>
    if input = [] then .ok (some out)
    else
      match search input with
      | some (pre, m, suffix) =>
        let out1 := if pre = [] then out else processStatement out st pre
        match processExpression ctx context out1 st m with
        | .ok (out2, st2) => loop ctx context fuel suffix st2 out2
        | .fail => .ok none
        | .throws => .throws
        | .ub => .ub
      | none => .ok (some (processStatement out st input))

/-- Lines 329-332: terminate with a newline. -/
def terminate (out : List Char) : List Char :=
  if out = [] ∨ out.getLast? = some '\n' then out else out ++ ['\n']

/-- `resolveGCodeTemplate`, .cpp:240-335; `context` is the extruder number computed in lines 272-290. -/
def resolve (ctx : Ctx) (context : Option Nat) (input : List Char) : Res (List Char) :=
  match loop ctx context (input.length + 1) input .outside [] with
  | .ok (some out) => .ok (terminate out)
  | .ok none => .ok (terminate input)
  | .fail => .fail
  | .throws => .throws
  | .ub => .ub

end Verif.Template
