import Verif.Basic
import Verif.Slicer.Model
import Mathlib.Data.Rat.Floor

/-! # Loading meshes

Models src/MeshGroup.cpp (STL and OBJ files), `readMeshGroupMessage` of src/communication/ArcusCommunicationPrivate.cpp
(meshes from the front end) and `Matrix4x3D::apply` (src/utils/Matrix4x3D.cpp). A file is the list of its bytes. A number
with a fraction is a rational number; how the text of a number is rounded to single precision is a parameter. Calculations
in double precision are exact here. Texture coordinates are left out, but where reading them goes wrong is not. -/

namespace Verif.Load

open Verif.Slicer (P3 Mesh buildMesh)

/-- A triangle. -/
abbrev Tri := P3 × P3 × P3

/-! ## Coordinates -/

/-- Conversion of a floating point number to an integer: towards zero. -/
def trunc (x : Rat) : Int := if 0 ≤ x then ⌊x⌋ else ⌈x⌉

/-- `MM2INT` (include/utils/Coord_t.h:30). A number that does not fit is undefined behaviour. -/
def mm2int (x : Rat) : Outcome Int :=
  let n := trunc (x * 1000 + (if 0 < x then 1 / 2 else if x < 0 then -1 / 2 else 0))
  if -2 ^ 63 ≤ n ∧ n < 2 ^ 63 then .ok n else .ub

/-- `Matrix4x3D` (include/utils/Matrix4x3D.h): a row is what one coordinate is computed from. -/
structure Row where
  x : Rat
  y : Rat
  z : Rat
  d : Rat

structure Matrix where
  x : Row
  y : Row
  z : Row

def Row.apply (r : Row) (x y z : Rat) : Rat := x * r.x + y * r.y + z * r.z + r.d

/-- `Matrix4x3D::apply` (src/utils/Matrix4x3D.cpp:51-57). `none` is infinite or not a number: each of the coordinates is
then infinite or not a number, too, and converting that is undefined behaviour. -/
def Matrix.apply (m : Matrix) : Option Rat → Option Rat → Option Rat → Outcome P3
  | some x, some y, some z => do
    let a ← mm2int (m.x.apply x y z)
    let b ← mm2int (m.y.apply x y z)
    let c ← mm2int (m.z.apply x y z)
    pure ⟨a, b, c⟩
  | _, _, _ => .ub

/-! ## Binary files -/

/-- A `float` in single precision from its 32 bits; `none` if it is infinite or not a number. -/
def single (w : Nat) : Option Rat :=
  let e : Nat := w / 2 ^ 23 % 2 ^ 8
  let m : Nat := w % 2 ^ 23
  if e = 255 then none
  else
    some ((if w / 2 ^ 31 % 2 = 1 then -1 else 1) *
      (if e = 0 then (m : Rat) * 2 ^ (-149 : Int) else ((2 ^ 23 + m : Nat) : Rat) * 2 ^ ((e : Int) - 150)))

/-- The 32-bit word at an offset, lowest byte first. -/
def word (bs : List UInt8) (i : Nat) : Nat :=
  (bs.getD i 0).toNat + 2 ^ 8 * (bs.getD (i + 1) 0).toNat + 2 ^ 16 * (bs.getD (i + 2) 0).toNat +
    2 ^ 24 * (bs.getD (i + 3) 0).toNat

/-- The vertex at an offset. -/
def vertexAt (m : Matrix) (bs : List UInt8) (i : Nat) : Outcome P3 :=
  m.apply (single (word bs i)) (single (word bs (i + 4))) (single (word bs (i + 8)))

/-- The three vertices at an offset. -/
def triangleAt (m : Matrix) (bs : List UInt8) (i : Nat) : Outcome Tri := do
  let a ← vertexAt m bs i
  let b ← vertexAt m bs (i + 12)
  let c ← vertexAt m bs (i + 24)
  pure (a, b, c)

/-- The loop of `loadMeshSTL_binary` (src/MeshGroup.cpp:216-243). -/
def binaryFaces (m : Matrix) : Nat → List UInt8 → Outcome (Option (List Tri))
  | 0, _ => .ok (some [])
  | n + 1, bs =>
    if bs.length < 50 then .ok none
    else do
      let t ← triangleAt m (bs.take 50) 12
      let ts ← binaryFaces m n (bs.drop 50)
      pure (ts.map (t :: ·))

/-- `loadMeshSTL_binary` (src/MeshGroup.cpp:181-247): the triangles that are added, `none` if it fails. For a file of less
than 84 bytes the face count is wrong, but not used. The face count in the file is not used either. -/
def binary (m : Matrix) (file : List UInt8) : Outcome (Option (List Tri)) :=
  if file.length < 80 then .ok none
  else if file.length < 84 then .ok none
  else binaryFaces m ((file.length - 84) / 50) (file.drop 84)

/-! ## Text -/

/-- The bytes of a text. -/
def ascii (s : String) : List UInt8 := s.toList.map fun c => c.toNat.toUInt8

/-- `isspace`, and `\s` of a regular expression. -/
def isSpace (c : UInt8) : Bool := c == 32 || (9 ≤ c && c ≤ 13)

/-- `\d`. -/
def isDigit (c : UInt8) : Bool := 48 ≤ c && c ≤ 57

/-- White space is skipped. -/
def skip (bs : List UInt8) : List UInt8 := bs.dropWhile isSpace

/-- The value of some digits. -/
def decimal (ds : List UInt8) : Nat := ds.foldl (fun n d => 10 * n + (d.toNat - 48)) 0

/-- A sign, if there is one: whether it is a minus, and the rest. -/
def scanSign : List UInt8 → Bool × List UInt8
  | [] => (false, [])
  | c :: r => if c = 45 then (true, r) else if c = 43 then (false, r) else (false, c :: r)

/-- The digits after a point, if there is one. -/
def scanFraction : List UInt8 → List UInt8 × List UInt8
  | [] => ([], [])
  | c :: r => if c = 46 then (r.takeWhile isDigit, r.dropWhile isDigit) else ([], c :: r)

/-- An exponent, if there is one. -/
def scanExponent : List UInt8 → Option (Int × List UInt8)
  | [] => some (0, [])
  | c :: r =>
    if c = 101 ∨ c = 69 then
      let (neg, r) := scanSign r
      if r.takeWhile isDigit = [] then none
      else some ((if neg then -1 else 1) * (decimal (r.takeWhile isDigit) : Int), r.dropWhile isDigit)
    else some (0, c :: r)

/-- A number at the beginning of a text, and the rest: `%f` of `sscanf` (without infinity, NaN and hexadecimal numbers),
and `floating_number_pattern` (src/MeshGroup.cpp:319) with `stof`. -/
def scanNumber (bs : List UInt8) : Option (Rat × List UInt8) :=
  let (neg, r) := scanSign bs
  let i := r.takeWhile isDigit
  let (f, r) := scanFraction (r.dropWhile isDigit)
  if i = [] ∧ f = [] then none
  else (scanExponent r).map fun (e, r) =>
    ((if neg then -1 else 1) * (decimal (i ++ f) : Rat) * 10 ^ (e - f.length), r)

/-! ## Text files in STL format -/

/-- `fgets_` (src/MeshGroup.cpp:39-52) with a buffer of the given size: a line and the rest of the file. `none` if there is
no end of line within the buffer or the file. -/
def getLine : Nat → List UInt8 → Option (List UInt8 × List UInt8)
  | 0, _ => none
  | _, [] => none
  | n + 1, c :: r => if c = 10 ∨ c = 13 then some ([], r) else (getLine n r).map fun (l, r) => (c :: l, r)

/-- The lines that the loop of `loadMeshSTL_ascii` (src/MeshGroup.cpp:155) gets to see, in as many steps as there are
bytes. -/
def stlLines : Nat → List UInt8 → List (List UInt8)
  | 0, _ => []
  | n + 1, file => match getLine 1024 file with
    | none => []
    | some (l, r) => l :: stlLines n r

/-- What follows a text at the beginning of another. -/
def dropText : List UInt8 → List UInt8 → Option (List UInt8)
  | [], r => some r
  | _ :: _, [] => none
  | c :: t, d :: r => if c = d then dropText t r else none

/-- `sscanf` with `" vertex %f %f %f"` (src/MeshGroup.cpp:157). It stops at a null byte. -/
def scanVertex (line : List UInt8) : Option (Rat × Rat × Rat) := do
  let r ← dropText (ascii "vertex") (skip (line.takeWhile (· ≠ 0)))
  let (x, r) ← scanNumber (skip r)
  let (y, r) ← scanNumber (skip r)
  let (z, _) ← scanNumber (skip r)
  pure (x, y, z)

/-- The triangles of some vertices; one that is not complete is left out. -/
def triples {α : Type} : List α → List (α × α × α)
  | a :: b :: c :: r => (a, b, c) :: triples r
  | _ => []

/-- `loadMeshSTL_ascii` (src/MeshGroup.cpp:148-179): the triangles that are added. -/
def text (rnd : Rat → Option Rat) (m : Matrix) (file : List UInt8) : Outcome (List Tri) := do
  let vs ← ((stlLines file.length file).filterMap scanVertex).mapM fun v => m.apply (rnd v.1) (rnd v.2.1) (rnd v.2.2)
  pure (triples vs)

/-- `tolower`. -/
def lower (c : UInt8) : UInt8 := if 65 ≤ c && c ≤ 90 then c + 32 else c

/-- What became of a file: a mesh, an error, or an exception that nobody catches. -/
inductive Loaded where
  | mesh (m : Mesh)
  | failed
  | crashed

/-- A mesh of some triangles. -/
def built (hash : P3 → Nat) (pick : List Nat → Option Nat) : Option (List Tri) → Loaded
  | none => .failed
  | some ts => .mesh (buildMesh hash pick ts)

/-- Whether the file begins with "solid", after white space (src/MeshGroup.cpp:260-288); `none` if it is too short.
`stringcasecompare` (include/utils/string.h:20-30) of two texts of the same length. -/
def isText (file : List UInt8) : Option Bool :=
  if (skip file).length < 5 then none else some (decide (((skip file).take 5).map lower = ascii "solid"))

/-- `loadMeshSTL` (src/MeshGroup.cpp:249-304). If the text has no faces the mesh is cleared, and the file is read once
more. -/
def loadSTL (rnd : Rat → Option Rat) (hash : P3 → Nat) (pick : List Nat → Option Nat) (m : Matrix) (file : List UInt8) :
    Outcome Loaded :=
  match isText file with
  | none => .ok .failed
  | some false => do pure (built hash pick (← binary m file))
  | some true => do
    let ts ← text rnd m file
    if (buildMesh hash pick ts).faces.length < 1 then pure (built hash pick (← binary m file))
    else pure (.mesh (buildMesh hash pick ts))

/-! ## Files in OBJ format -/

/-- The lines that `std::getline` reads, in as many steps as there are bytes. -/
def objLines : Nat → List UInt8 → List (List UInt8)
  | 0, _ => []
  | _, [] => []
  | n + 1, file => file.takeWhile (· ≠ 10) :: objLines n ((file.dropWhile (· ≠ 10)).drop 1)

/-- `main_regex` (src/MeshGroup.cpp:318): the identifier and the payload. `.` does not match a carriage return. -/
def mainMatch (line : List UInt8) : Option (List UInt8 × List UInt8) :=
  let word := line.takeWhile fun c => !isSpace c
  let r := line.dropWhile fun c => !isSpace c
  if r = [] ∨ 13 ∈ skip r then none
  else if word = ascii "v" ∨ word = ascii "vt" ∨ word = ascii "f" then some (word, skip r)
  else none

/-- A word that is a number as a whole. -/
def fullNumber (w : List UInt8) : Option Rat :=
  match scanNumber w with
  | some (x, []) => some x
  | _ => none

/-- The first word, and what follows it. -/
def word1 (bs : List UInt8) : List UInt8 × List UInt8 :=
  (bs.takeWhile fun c => !isSpace c, bs.dropWhile fun c => !isSpace c)

/-- `vertex_regex` (src/MeshGroup.cpp:320): three numbers with white space between them, and nothing else. -/
def vertexMatch (payload : List UInt8) : Option (Rat × Rat × Rat) := do
  let (a, r) := word1 payload
  let (b, r) := word1 (skip r)
  let (c, r) := word1 (skip r)
  let x ← fullNumber a
  let y ← fullNumber b
  let z ← fullNumber c
  if r = [] then pure (x, y, z) else none

/-- The optional part of `face_indices_regex`: the digits after a slash. -/
def slash : List UInt8 → List UInt8 × List UInt8
  | [] => ([], [])
  | c :: r => if c = 47 then (r.takeWhile isDigit, r.dropWhile isDigit) else ([], c :: r)

/-- The matches of `face_indices_regex` (src/MeshGroup.cpp:322, 365-382) anywhere in the payload: the texts of the index
and of the index of the texture coordinates. In as many steps as there are bytes. -/
def faceMatches : Nat → List UInt8 → List (List UInt8 × List UInt8)
  | 0, _ => []
  | n + 1, bs =>
    let r := bs.dropWhile fun c => !isDigit c
    if r = [] then []
    else
      let (t, r') := slash (r.dropWhile isDigit)
      (r.takeWhile isDigit, t) :: faceMatches n (slash r').2

/-- `stoul(...) - 1` of some digits: `none` is an exception, and 0 wraps around. -/
def vertexIndex (ds : List UInt8) : Option Nat :=
  if decimal ds < 2 ^ 64 then some (if decimal ds = 0 then 2 ^ 64 - 1 else decimal ds - 1) else none

/-- The indices of a face, `none` is an exception. -/
def faceIndices (payload : List UInt8) : Option (List Nat) :=
  (faceMatches payload.length payload).mapM fun (d, t) => do
    let i ← vertexIndex d
    let _ ← if t = [] then some 0 else vertexIndex t
    pure i

/-- The triangles of a face with more than three vertices (src/MeshGroup.cpp:384-405). -/
def fan (vs : List P3) : List Nat → List Tri
  | [] => []
  | a :: is => (is.zip is.tail).filterMap fun (b, c) => do
    let p ← vs[a]?
    let q ← vs[b]?
    let r ← vs[c]?
    pure (p, q, r)

/-- The vertices and triangles so far. -/
structure ObjState where
  vs : List P3
  ts : List Tri

/-- The body of the loop of `loadMeshOBJ` (src/MeshGroup.cpp:333-408); `none` is an exception. `stof` throws one if the
number is too large or too small for single precision. The texture coordinates are read for that reason alone: their
pattern (src/MeshGroup.cpp:321) is also three numbers, of which two are used. -/
def objLine (stof : Rat → Option Rat) (m : Matrix) (s : ObjState) (line : List UInt8) : Outcome (Option ObjState) :=
  match mainMatch line with
  | none => .ok (some s)
  | some (w, payload) =>
    if w = ascii "f" then
      match faceIndices payload with
      | none => .ok none
      | some is => .ok (some { s with ts := s.ts ++ fan s.vs is })
    else match vertexMatch payload with
      | none => .ok (some s)
      | some (x, y, z) =>
        if w = ascii "v" then
          match stof x, stof y, stof z with
          | some x, some y, some z => do
            let p ← m.apply (some x) (some y) (some z)
            pure (some { s with vs := s.vs ++ [p] })
          | _, _, _ => .ok none
        else match stof x, stof y with
          | some _, some _ => .ok (some s)
          | _, _ => .ok none

/-- The loop over the lines. -/
def objLoop (stof : Rat → Option Rat) (m : Matrix) : List (List UInt8) → ObjState → Outcome (Option ObjState)
  | [], s => .ok (some s)
  | l :: ls, s => do
    match ← objLine stof m s l with
    | none => pure none
    | some s => objLoop stof m ls s

/-- `loadMeshOBJ` (src/MeshGroup.cpp:306-413). -/
def loadOBJ (stof : Rat → Option Rat) (hash : P3 → Nat) (pick : List Nat → Option Nat) (m : Matrix) (file : List UInt8) :
    Outcome Loaded := do
  match ← objLoop stof m (objLines file.length file) ⟨[], []⟩ with
  | none => pure .crashed
  | some s =>
    if (buildMesh hash pick s.ts).faces = [] then pure .failed else pure (.mesh (buildMesh hash pick s.ts))

/-- `loadMeshIntoMeshGroup` (src/MeshGroup.cpp:508-587), for a file that can be read and has no texture coordinates of its
own: `extension` is the extension with the point, `substr(1, ...)` of an empty one is an exception. `rnd` and `stof` are
the same but for numbers that are too large or too small. -/
def loadFile (rnd stof : Rat → Option Rat) (hash : P3 → Nat) (pick : List Nat → Option Nat) (m : Matrix)
    (extension file : List UInt8) : Outcome Loaded :=
  if extension = [] then .ok .crashed
  else if (extension.drop 1).map lower = ascii "stl" then loadSTL rnd hash pick m file
  else if (extension.drop 1).map lower = ascii "obj" then loadOBJ stof hash pick m file
  else .ok .failed

/-! ## Meshes from the front end -/

/-- The loop over the faces of an object (src/communication/ArcusCommunicationPrivate.cpp:132-154). `uv` are the bytes of
the texture coordinates: `substr` throws an exception (`none`) if it begins behind the end, and if it is too short, what
follows it in memory is read. -/
def objectFaces (m : Matrix) (vertices uv : List UInt8) : Nat → Nat → Outcome (Option (List Tri))
  | 0, _ => .ok (some [])
  | n + 1, face =>
    if uv ≠ [] ∧ uv.length < 24 * face then .ok none
    else do
      let t ← triangleAt m ((vertices.drop (36 * face)).take 36) 0
      if uv ≠ [] ∧ uv.length ≠ 24 * face ∧ uv.length < 24 * face + 24 then .ub
      else do
        let ts ← objectFaces m vertices uv n (face + 1)
        pure (ts.map (t :: ·))

/-- An object of `readMeshGroupMessage` (src/communication/ArcusCommunicationPrivate.cpp:111-160). One without faces is
ignored (`failed`). -/
def readObject (hash : P3 → Nat) (pick : List Nat → Option Nat) (m : Matrix) (vertices uv : List UInt8) :
    Outcome Loaded :=
  if vertices.length / 36 = 0 then .ok .failed
  else do
    match ← objectFaces m vertices uv (vertices.length / 36) 0 with
    | none => pure .crashed
    | some ts => pure (.mesh (buildMesh hash pick ts))

end Verif.Load
