import Verif.Basic

/-! # Model of the text helpers (include/utils/string.h) and of comments (src/gcode_export/gcodeExport.cpp)

Strings are lists of characters; a C buffer is a list of characters whose text ends at the first NUL. Reading or
writing outside a buffer is undefined behaviour (`Outcome.ub`). Not modelled: stream state, locale. -/

namespace Verif.Text
open Verif

/-- The character of a decimal digit. -/
def dig : Nat → Char
  | 0 => '0' | 1 => '1' | 2 => '2' | 3 => '3' | 4 => '4'
  | 5 => '5' | 6 => '6' | 7 => '7' | 8 => '8' | _ => '9'

/-- Decimal digits of a natural number, most significant first (what `%d` prints). -/
def digits (n : Nat) : List Char :=
  if _h : n < 10 then [dig n] else digits (n / 10) ++ [dig (n % 10)]

/-- `snprintf("%d")`, string.h:72. -/
def fmtInt (i : Int) : List Char :=
  (if i < 0 then ['-'] else []) ++ digits i.natAbs

/-- `ss << buffer`: the text up to the first NUL. -/
def cstr (buf : List Char) : List Char := buf.takeWhile (· ≠ '\x00')

/-- `buffer[i]` for a possibly negative `i`. -/
def at' (buf : List Char) (i : Int) : Outcome Char :=
  if i < 0 then .ub else Outcome.index buf i.toNat

/-- `buffer[i] = c`. -/
def put (buf : List Char) (i : Int) (c : Char) : Outcome (List Char) :=
  if i < 0 then .ub else if i.toNat < buf.length then .ok (buf.set i.toNat c) else .ub

/-- The trailing-zero loop, string.h:84-89, from a given value of `trailing_zeros`; returns the value after the
decrement at line 89. -/
def tzLoop (buf : List Char) (cc : Int) : Nat → Int → Outcome Int
  | 0, _ => .diverge
  | fuel + 1, t =>
    if t < 4 then do
      let c ← at' buf (cc - t)
      if c = '0' then tzLoop buf cc fuel (t + 1) else .ok (t - 1)
    else .ok (t - 1)

/-- The loop that inserts the decimal dot, string.h:115-122; returns the buffer and the final `pos`. -/
def dotLoop (endPos : Int) : Nat → List Char → Int → Char → Outcome (List Char × Int)
  | 0, _, _, _ => .diverge
  | fuel + 1, buf, pos, prev =>
    if pos ≤ endPos then do
      let next ← at' buf pos
      let buf ← put buf pos prev
      dotLoop endPos fuel buf (pos + 1) next
    else .ok (buf, pos)

/-- `writeInt2mm`, string.h:67-126. `garbage` is the initial (indeterminate) content of the 24-byte buffer;
the text of a 32-bit number always fits. The loops
run at most 3 and 4 times; that the fuel 4 and 8 given to them suffices follows from the theorems. -/
def writeInt2mm (garbage : List Char) (coord : Int) : Outcome (List Char) := do
  let text := fmtInt coord
  let buf := text ++ '\x00' :: garbage.drop (text.length + 1)
  let cc : Int := text.length
  let tz ← tzLoop buf cc 4 1
  let endPos := cc - tz
  if tz = 3 then
    let buf ← put buf (cc - tz) '\x00'
    pure (cstr buf)
  else if cc ≤ 3 then
    let start : Nat := if coord < 0 then 1 else 0
    let sign := if coord < 0 then ['-'] else []
    let zeros := List.replicate (3 - (cc.toNat - start)) '0'
    let buf ← put buf (cc - tz) '\x00'
    pure (sign ++ ['0', '.'] ++ zeros ++ cstr (buf.drop start))
  else do
    let (buf, pos) ← dotLoop endPos 8 buf (cc - 3) '.'
    let buf ← put buf pos '\x00'
    pure (cstr buf)

/-- `MMtoStream`, string.h:131-140: the 64-bit value is narrowed to 32 bits (two's complement). -/
def mmToStream (garbage : List Char) (value : Int) : Outcome (List Char) :=
  writeInt2mm garbage (value.bmod (2 ^ 32))

/-- The last `p` decimal digits of `m`. -/
def lastDigits : Nat → Nat → List Char
  | 0, _ => []
  | p + 1, m => lastDigits p (m / 10) ++ [dig (m % 10)]

/-- `"%.<p>F"` applied to a finite number given as sign, rounded mantissa `m` and precision `p`:
the value is ±m/10^p. With precision 0 there is no dot. -/
def fmtFixed (neg : Bool) (p m : Nat) : List Char :=
  (if neg then ['-'] else []) ++ digits (m / 10 ^ p) ++ (if p = 0 then [] else '.' :: lastDigits p m)

/-- The trimming loop, string.h:176-180: walk left while there are zeros. -/
def trimLoop (buf : List Char) : Nat → Int → Outcome Int
  | 0, _ => .diverge
  | fuel + 1, pos => do
    let c ← at' buf pos
    if c = '0' then trimLoop buf fuel (pos - 1) else .ok pos

/-- `writeDoubleToStream` from line 159 on, string.h:153-191: `text` is what `snprintf` produced and fits the 400-byte
buffer (finite doubles print at most 320 characters with precision up to 9); `garbage` is what lies behind it. -/
def trimDouble (garbage : List Char) (precision : Nat) (text : List Char) : Outcome (List Char) := do
  let buf := text ++ '\x00' :: garbage
  let cc : Int := text.length
  if cc ≤ 0 then pure []
  else
    let c ← at' buf (cc - precision - 1)
    if c = '.' then
      let pos ← trimLoop buf (text.length + 1) (cc - 1)
      let d ← at' buf pos
      if d = '.' then
        let buf ← put buf pos '\x00'
        pure (cstr buf)
      else
        let buf ← put buf (pos + 1) '\x00'
        pure (cstr buf)
    else pure (cstr buf)

/-- `writeDoubleToStream`, string.h:153-191, for a finite value that `snprintf` rounds to ±m/10^p. A precision above 9
makes an invalid conversion specification (line 156: `'0' + precision` is no digit), which is undefined. -/
def writeDouble (garbage : List Char) (neg : Bool) (p m : Nat) : Outcome (List Char) :=
  if p ≤ 9 then trimDouble garbage p (fmtFixed neg p m) else .ub

/-! ## Base64, string.h:36-56 -/

/-- The 64 characters of boost's `base64_from_binary`. -/
def b64Char (n : Nat) : Char :=
  if n < 26 then Char.ofNat (65 + n)
  else if n < 52 then Char.ofNat (97 + (n - 26))
  else if n < 62 then Char.ofNat (48 + (n - 52))
  else if n = 62 then '+' else '/'

/-- `transform_width<…, 6, 8>`: six bits at a time, most significant first, the last group filled with zero bits.
(boost is a dependency; this is its documented behaviour.) -/
def sextets : List Nat → List Nat
  | a :: b :: c :: rest => a / 4 :: (a % 4 * 16 + b / 16) :: (b % 16 * 4 + c / 64) :: c % 64 :: sextets rest
  | [a, b] => [a / 4, a % 4 * 16 + b / 16, b % 16 * 4]
  | [a] => [a / 4, a % 4 * 16]
  | [] => []

/-- `convertTobase64`, string.h:36-56; bytes are numbers below 256. -/
def toBase64 (input : List Nat) : List Char :=
  (sextets input).map b64Char ++ List.replicate ((3 - input.length % 3) % 3) '='

/-! ## Comments, gcodeExport.cpp:573-590 -/

/-- The loop of `writeComment`, gcodeExport.cpp:578-588. `newLine` is the member `new_line_`. The transliteration
before it (a call into ICU) is not modelled: `comment` is its result. -/
def commentBody (newLine : List Char) : List Char → List Char
  | [] => []
  | c :: cs => (if c = '\n' then newLine ++ [';'] else [c]) ++ commentBody newLine cs

/-- `writeComment`, gcodeExport.cpp:573-590. -/
def writeComment (newLine comment : List Char) : List Char :=
  [';'] ++ commentBody newLine comment ++ newLine

/-! ## Escaping and case-insensitive comparison -/

/-- `Escaped`, string.h:216-268. -/
def escape : List Char → List Char
  | [] => []
  | c :: cs =>
    (if c = '\x07' then ['\\', 'a'] else if c = '\x08' then ['\\', 'b'] else if c = '\x0c' then ['\\', 'f']
     else if c = '\n' then ['\\', 'n'] else if c = '\r' then ['\\', 'r'] else if c = '\t' then ['\\', 't']
     else if c = '\x0b' then ['\\', 'v'] else if c = '\\' then ['\\', '\\'] else if c = '\'' then ['\\', '\'']
     else if c = '"' then ['\\', '"'] else if c = '?' then ['\\', '?'] else [c]) ++ escape cs

/-- `tolower` in the C locale. -/
def toLower (c : Nat) : Nat := if 65 ≤ c ∧ c ≤ 90 then c + 32 else c

/-- `stringcasecompare`, string.h:21-31, on NUL-terminated strings given without their NUL (characters are non-zero
byte values). -/
def caseCompare : List Nat → List Nat → Int
  | a :: as, b :: bs => if toLower a ≠ toLower b then (toLower a : Int) - toLower b else caseCompare as bs
  | [], [] => 0
  | a :: _, [] => a
  | [], b :: _ => -(b : Int)

end Verif.Text
