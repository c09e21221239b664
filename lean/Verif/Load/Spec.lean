import Verif.Load.Model

/-! # Files with models: specification

What files in STL and OBJ format look like, and which triangles they describe. -/

namespace Verif.Load

open Verif.Slicer (P3)

/-! ## Coordinates -/

/-- The nearest number of micrometres to a number of millimetres; away from zero if there are two. -/
def Nearest (mm : Rat) (n : Int) : Prop :=
  |mm * 1000 - n| ≤ 1 / 2 ∧ (|mm * 1000 - n| = 1 / 2 → |mm * 1000| ≤ |(n : Rat)|)

/-- A point in millimetres. -/
abbrev Pos := Rat × Rat × Rat

/-- A matrix applied to a point. -/
def Matrix.image (m : Matrix) (v : Pos) : Pos :=
  (m.x.x * v.1 + m.x.y * v.2.1 + m.x.z * v.2.2 + m.x.d, m.y.x * v.1 + m.y.y * v.2.1 + m.y.z * v.2.2 + m.y.d,
    m.z.x * v.1 + m.z.y * v.2.1 + m.z.z * v.2.2 + m.z.d)

/-- A point is the one at a position, to the micrometre. -/
def At (v : Pos) (p : P3) : Prop := Nearest v.1 p.x ∧ Nearest v.2.1 p.y ∧ Nearest v.2.2 p.z

/-- A triangle is the one with the given corners, to the micrometre. -/
def TriAt (v : Pos × Pos × Pos) (t : Tri) : Prop := At v.1 t.1 ∧ At v.2.1 t.2.1 ∧ At v.2.2 t.2.2

/-- A position that fits into 64-bit coordinates. -/
def Fits (v : Pos) : Prop := |v.1| < 2 ^ 53 ∧ |v.2.1| < 2 ^ 53 ∧ |v.2.2| < 2 ^ 53

/-- A triangle moved by a matrix. -/
def Matrix.imageTri (m : Matrix) (v : Pos × Pos × Pos) : Pos × Pos × Pos := (m.image v.1, m.image v.2.1, m.image v.2.2)

def FitsTri (v : Pos × Pos × Pos) : Prop := Fits v.1 ∧ Fits v.2.1 ∧ Fits v.2.2

/-! ## Binary files -/

/-- A finite number in single precision (IEEE 754). -/
structure Single where
  neg : Bool
  exp : Nat
  man : Nat
  hexp : exp < 255
  hman : man < 2 ^ 23

def Single.value (s : Single) : Rat :=
  (if s.neg then -1 else 1) *
    (if s.exp = 0 then (s.man / 2 ^ 23) * (2 : Rat) ^ (-126 : Int) else (1 + s.man / 2 ^ 23) * (2 : Rat) ^ ((s.exp : Int) - 127))

/-- The bytes of a 32-bit word, lowest first. -/
def little (w : Nat) : List UInt8 :=
  [w.toUInt8, (w / 2 ^ 8).toUInt8, (w / 2 ^ 16).toUInt8, (w / 2 ^ 24).toUInt8]

def Single.bytes (s : Single) : List UInt8 := little ((if s.neg then 2 ^ 31 else 0) + s.exp * 2 ^ 23 + s.man)

/-- A corner of a triangle in a binary file. -/
structure Corner where
  x : Single
  y : Single
  z : Single

def Corner.pos (c : Corner) : Pos := (c.x.value, c.y.value, c.z.value)

def Corner.bytes (c : Corner) : List UInt8 := c.x.bytes ++ c.y.bytes ++ c.z.bytes

/-- A triangle in a binary file: a normal, which may be anything, three corners, and two bytes more. -/
structure Facet where
  normal : List UInt8
  a : Corner
  b : Corner
  c : Corner
  flags : List UInt8
  hnormal : normal.length = 12
  hflags : flags.length = 2

def Facet.corners (f : Facet) : Pos × Pos × Pos := (f.a.pos, f.b.pos, f.c.pos)

def Facet.corners36 (f : Facet) : List UInt8 := f.a.bytes ++ f.b.bytes ++ f.c.bytes

def Facet.bytes (f : Facet) : List UInt8 := f.normal ++ f.corners36 ++ f.flags

/-- White space: a blank, a tabulator, the end of a line or of a page. -/
abbrev White (b : UInt8) : Prop := b.toNat = 32 ∨ 9 ≤ b.toNat ∧ b.toNat ≤ 13

/-- The bytes are a text in small letters, or some of them are capital letters. -/
def Spells (bs : List UInt8) (text : String) : Prop := List.Forall₂ (fun b c => b = c ∨ b = c - 32) bs (ascii text)

/-- A file that does not begin with "solid", whatever white space is before that. -/
def NotSolid (file : List UInt8) : Prop :=
  ∃ space c r, file = space ++ c :: r ∧ (∀ b ∈ space, White b) ∧ ¬ White c ∧ 4 ≤ r.length ∧
    ¬ Spells ((c :: r).take 5) "solid"

/-- A file that begins with "solid" in small or capital letters, after any white space. -/
def IsSolid (file : List UInt8) : Prop :=
  ∃ space w r, file = space ++ w ++ r ∧ (∀ b ∈ space, White b) ∧ Spells w "solid"

/-! ## Text -/

/-- White space within a line. -/
def Blank (bs : List UInt8) : Prop := ∀ b ∈ bs, White b ∧ b ≠ 10 ∧ b ≠ 13

/-- White space of at least one character. -/
def Gap (bs : List UInt8) : Prop := Blank bs ∧ bs ≠ []

/-- A digit as a character. -/
def digit (d : Fin 10) : UInt8 := (48 + d.val).toUInt8

/-- The number that is written with some digits. -/
def natural (ds : List (Fin 10)) : Nat := ds.foldl (fun n d => 10 * n + d.val) 0

/-- A sign: none, plus or minus. -/
inductive Sign where
  | none | plus | minus
  deriving DecidableEq

def Sign.text : Sign → List UInt8
  | .none => []
  | .plus => ascii "+"
  | .minus => ascii "-"

def Sign.factor : Sign → Int
  | .minus => -1
  | _ => 1

/-- An exponent. -/
structure Exponent where
  capital : Bool
  sign : Sign
  digits : List (Fin 10)
  hdigits : digits ≠ []

def Exponent.text (e : Exponent) : List UInt8 :=
  (if e.capital then ascii "E" else ascii "e") ++ e.sign.text ++ e.digits.map digit

/-- A number, for instance `-12.50e+03`, `7.` or `.5`. -/
structure Number where
  sign : Sign
  whole : List (Fin 10)
  fraction : Option (List (Fin 10))
  exponent : Option Exponent
  hdigits : whole ≠ [] ∨ ∃ f, fraction = some f ∧ f ≠ []

def fractionText : Option (List (Fin 10)) → List UInt8
  | none => []
  | some f => ascii "." ++ f.map digit

def fractionValue : Option (List (Fin 10)) → Rat
  | none => 0
  | some f => natural f / 10 ^ f.length

def exponentText : Option Exponent → List UInt8
  | none => []
  | some e => e.text

def exponentValue : Option Exponent → Int
  | none => 0
  | some e => e.sign.factor * natural e.digits

def Number.text (n : Number) : List UInt8 :=
  n.sign.text ++ n.whole.map digit ++ fractionText n.fraction ++ exponentText n.exponent

def Number.value (n : Number) : Rat :=
  n.sign.factor * (natural n.whole + fractionValue n.fraction) * 10 ^ exponentValue n.exponent

/-- A vertex in a text. -/
structure Coords where
  x : Number
  y : Number
  z : Number

/-- The position of a vertex, after its coordinates have been rounded. -/
def Coords.Pos (rnd : Rat → Option Rat) (c : Coords) (v : Pos) : Prop :=
  rnd c.x.value = some v.1 ∧ rnd c.y.value = some v.2.1 ∧ rnd c.z.value = some v.2.2

/-- A line of a text file in STL format: a vertex, or another line. -/
inductive StlLine where
  | vertex (lead gap₁ gap₂ gap₃ : List UInt8) (c : Coords) (rest : List UInt8)
  | other (bs : List UInt8)

def StlLine.text : StlLine → List UInt8
  | .vertex lead g₁ g₂ g₃ c rest => lead ++ ascii "vertex" ++ g₁ ++ c.x.text ++ g₂ ++ c.y.text ++ g₃ ++ c.z.text ++ rest
  | .other bs => bs

/-- Whatever follows a vertex is separated from it, the other lines do not begin with "vertex", and no line is longer than
1023 bytes. -/
def StlLine.Ok (l : StlLine) : Prop :=
  l.text.length < 1024 ∧ 10 ∉ l.text ∧ 13 ∉ l.text ∧ match l with
    | .vertex lead g₁ g₂ g₃ _ rest => Blank lead ∧ Gap g₁ ∧ Gap g₂ ∧ Gap g₃ ∧ ∀ b r, rest = b :: r → White b
    | .other bs => ¬ ∃ lead r, Blank lead ∧ bs = lead ++ ascii "vertex" ++ r

/-- A text file in STL format: lines, each with its end (a line feed or a carriage return), and what follows them. -/
def stlText (ls : List (StlLine × UInt8)) (rest : List UInt8) : List UInt8 := (ls.flatMap fun l => l.1.text ++ [l.2]) ++ rest

/-- The vertices in a text file. -/
def stlVertices (ls : List (StlLine × UInt8)) : List Coords :=
  ls.filterMap fun l => match l.1 with | .vertex _ _ _ _ c _ => some c | .other _ => none

/-- Three vertices each make a triangle. -/
def inThrees {α : Type} : List α → List (α × α × α)
  | a :: b :: c :: r => (a, b, c) :: inThrees r
  | _ => []

/-! ## OBJ -/

/-- A corner of a face: the number of the vertex, and what may follow it: a number for the texture, for the normal, or both.
-/
inductive Suffix where
  | none
  | texture (t : List (Fin 10))
  | normal (n : List (Fin 10))
  | both (t n : List (Fin 10))

def Suffix.text : Suffix → List UInt8
  | .none => []
  | .texture t => ascii "/" ++ t.map digit
  | .normal n => ascii "//" ++ n.map digit
  | .both t n => ascii "/" ++ t.map digit ++ ascii "/" ++ n.map digit

/-- The number of the texture coordinates, 0 if there is none. -/
def Suffix.index : Suffix → Nat
  | .texture t => natural t
  | .both t _ => natural t
  | _ => 0

structure FaceCorner where
  vertex : List (Fin 10)
  suffix : Suffix
  hvertex : vertex ≠ []

def FaceCorner.text (c : FaceCorner) : List UInt8 := c.vertex.map digit ++ c.suffix.text

/-- A line of an OBJ file: a vertex, a face, or another line. -/
inductive ObjItem where
  | vertex (gap₁ gap₂ gap₃ : List UInt8) (c : Coords)
  | face (gap : List UInt8) (first : FaceCorner) (others : List (List UInt8 × FaceCorner)) (rest : List UInt8)
  | other (bs : List UInt8)

def ObjItem.text : ObjItem → List UInt8
  | .vertex g₁ g₂ g₃ c => ascii "v" ++ g₁ ++ c.x.text ++ g₂ ++ c.y.text ++ g₃ ++ c.z.text
  | .face g first others rest => ascii "f" ++ g ++ first.text ++ (others.flatMap fun o => o.1 ++ o.2.text) ++ rest
  | .other bs => bs

/-- The corners are separated by white space, their numbers are not too large, and the first word of other lines is none
of `v`, `vt` and `f`. -/
def ObjItem.Ok : ObjItem → Prop
  | .vertex g₁ g₂ g₃ _ => Gap g₁ ∧ Gap g₂ ∧ Gap g₃
  | .face g first others rest =>
    Gap g ∧ (∀ o ∈ others, Gap o.1) ∧ Blank rest ∧
      ∀ c ∈ first :: others.map Prod.snd, natural c.vertex < 2 ^ 64 ∧ c.suffix.index < 2 ^ 64
  | .other bs => 10 ∉ bs ∧ ∀ w ∈ ["v", "vt", "f"], ¬ ∃ b r, bs = ascii w ++ b :: r ∧ White b

/-- An OBJ file: lines that end with a line feed. -/
def objText (is : List ObjItem) : List UInt8 := is.flatMap fun i => i.text ++ [10]

/-- The triangles of a face: from the first corner to each pair of corners next to each other. -/
def fanOf {α : Type} : List α → List (α × α × α)
  | [] => []
  | a :: cs => (cs.zip cs.tail).map fun (b, c) => (a, b, c)

/-- The triangles of a file, by the vertices so far: a corner with the number 1 is the first vertex. -/
def objTriangles : List Coords → List ObjItem → List (Coords × Coords × Coords)
  | _, [] => []
  | vs, .vertex _ _ _ c :: is => objTriangles (vs ++ [c]) is
  | vs, .face _ first others _ :: is =>
    fanOf ((first :: others.map Prod.snd).filterMap fun c => vs[natural c.vertex - 1]?) ++ objTriangles vs is
  | vs, .other _ :: is => objTriangles vs is

/-- Each face has corners that are vertices above it; vertices are counted from 1. -/
def InRange : Nat → List ObjItem → Prop
  | _, [] => True
  | n, .vertex _ _ _ _ :: is => InRange (n + 1) is
  | n, .face _ first others _ :: is =>
    (∀ c ∈ first :: others.map Prod.snd, 1 ≤ natural c.vertex ∧ natural c.vertex ≤ n) ∧ InRange n is
  | n, .other _ :: is => InRange n is

/-- The vertices of a file. -/
def objVertices (is : List ObjItem) : List Coords :=
  is.filterMap fun | .vertex _ _ _ c => some c | _ => none

/-- A triangle with the given corners, after the coordinates have been rounded and the matrix has been applied. -/
def TriOf (rnd : Rat → Option Rat) (m : Matrix) (c : Coords × Coords × Coords) (t : Tri) : Prop :=
  ∃ a b d, c.1.Pos rnd a ∧ c.2.1.Pos rnd b ∧ c.2.2.Pos rnd d ∧ TriAt (m.imageTri (a, b, d)) t

/-- A vertex has a place in the coordinates of the program. -/
def Usable (rnd : Rat → Option Rat) (m : Matrix) (c : Coords) : Prop := ∃ v, c.Pos rnd v ∧ Fits (m.image v)

end Verif.Load
