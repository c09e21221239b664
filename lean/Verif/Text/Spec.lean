/-! # Specifications for text output: what a reader of the text sees

Independent of the model: a parser for decimal numbers, the RFC 4648 decoding, the split into lines and the reading of
escape sequences. -/

namespace Verif.Text.Spec

/-- Value of a digit character. -/
def digitVal (c : Char) : Option Nat :=
  if '0' ≤ c ∧ c ≤ '9' then some (c.toNat - 48) else none

/-- Value of a digit string, continuing from `acc`. -/
def natFrom (acc : Nat) : List Char → Option Nat
  | [] => some acc
  | c :: cs => (digitVal c).bind fun d => natFrom (acc * 10 + d) cs

/-- Parse `digits* [. digits+]` with at least one digit, given the sign. -/
def parseUnsigned (sgn : Int) (body : List Char) : Option (Int × Nat) :=
  let ip := body.takeWhile (· != '.')
  match body.dropWhile (· != '.') with
  | [] => if ip = [] then none else (natFrom 0 ip).map fun n : Nat => (sgn * (n : Int), 0)
  | _ :: fp => if fp = [] then none else (natFrom 0 (ip ++ fp)).map fun n : Nat => (sgn * (n : Int), fp.length)

/-- Parse `[-] digits* [. digits+]` with at least one digit; the result `(m, k)` stands for the number `m / 10^k`.
(This is what G-code readers accept, including `-.5`.) -/
def parseDecimal (cs : List Char) : Option (Int × Nat) :=
  if cs.head? = some '-' then parseUnsigned (-1) cs.tail else parseUnsigned 1 cs

/-- Value of a base64 character (RFC 4648, table 1). -/
def b64Val (c : Char) : Option Nat :=
  if 'A' ≤ c ∧ c ≤ 'Z' then some (c.toNat - 65)
  else if 'a' ≤ c ∧ c ≤ 'z' then some (c.toNat - 97 + 26)
  else if '0' ≤ c ∧ c ≤ '9' then some (c.toNat - 48 + 52)
  else if c = '+' then some 62
  else if c = '/' then some 63
  else none

/-- RFC 4648 decoding: groups of four characters; one or two `=` end the text. -/
def b64Decode : List Char → Option (List Nat)
  | [] => some []
  | a :: b :: c :: d :: rest =>
    match b64Val a, b64Val b with
    | some x, some y =>
      if c = '=' then if d = '=' ∧ rest = [] then some [x * 4 + y / 16] else none
      else match b64Val c with
        | some z =>
          if d = '=' then if rest = [] then some [x * 4 + y / 16, y % 16 * 16 + z / 4] else none
          else match b64Val d, b64Decode rest with
            | some w, some r => some ((x * 4 + y / 16) :: (y % 16 * 16 + z / 4) :: (z % 4 * 64 + w) :: r)
            | _, _ => none
        | none => none
    | _, _ => none
  | _ => none

/-- The lines of a text, split at every `'\n'`. -/
def lines : List Char → List (List Char)
  | [] => [[]]
  | c :: cs =>
    if c = '\n' then [] :: lines cs
    else match lines cs with
      | l :: ls => (c :: l) :: ls
      | [] => [[c]]

/-- Two character codes are the same letter up to ASCII case. -/
def SameUpToCase (a b : Nat) : Prop :=
  a = b ∨ ∃ i, i < 26 ∧ ((a = 65 + i ∧ b = 97 + i) ∨ (a = 97 + i ∧ b = 65 + i))

/-- Two texts have the same length and the same letters up to case. -/
def EqualUpToCase : List Nat → List Nat → Prop
  | [], [] => True
  | a :: as, b :: bs => SameUpToCase a b ∧ EqualUpToCase as bs
  | _, _ => False

/-- Meaning of the C escape sequences. -/
def unescapeChar (c : Char) : Option Char :=
  if c = 'a' then some '\x07' else if c = 'b' then some '\x08' else if c = 'f' then some '\x0c'
  else if c = 'n' then some '\n' else if c = 'r' then some '\r' else if c = 't' then some '\t'
  else if c = 'v' then some '\x0b' else if c = '\\' then some '\\' else if c = '\'' then some '\''
  else if c = '"' then some '"' else if c = '?' then some '?' else none

/-- Read a C string literal's content. -/
def unescape : List Char → Option (List Char)
  | [] => some []
  | '\\' :: c :: cs => (unescapeChar c).bind fun d => (unescape cs).map (d :: ·)
  | ['\\'] => none
  | c :: cs => (unescape cs).map (c :: ·)

end Verif.Text.Spec
