import Verif.Load.Props
import Mathlib.Tactic.NormNum

/-! # Cases of loading and placing models

For every theorem there is a case that meets its hypotheses, and for properties that do not hold in general there are
counterexamples. -/

namespace Verif.Load.Cases

open Verif.Slicer (P3 Mesh buildMesh)

/-- The matrix that moves nothing. -/
def same : Matrix := ⟨⟨1, 0, 0, 0⟩, ⟨0, 1, 0, 0⟩, ⟨0, 0, 1, 0⟩⟩

def hash : P3 → Nat := fun _ => 0

def pick : List Nat → Option Nat := List.head?

/-- The number of faces of a mesh that was loaded. -/
def faces : Outcome Loaded → Option Nat
  | .ok (.mesh m) => some m.faces.length
  | _ => none

def failed : Outcome Loaded → Bool
  | .ok .failed => true
  | _ => false

def crashed : Outcome Loaded → Bool
  | .ok .crashed => true
  | _ => false

def undefined : Outcome Loaded → Bool
  | .ub => true
  | _ => false

/-! ## Binary files -/

def s0 : Single := ⟨false, 0, 0, by decide, by decide⟩

def s1 : Single := ⟨false, 127, 0, by decide, by decide⟩

theorem s0_value : s0.value = 0 := by unfold Single.value s0; norm_num

theorem s1_value : s1.value = 1 := by unfold Single.value s1; norm_num

/-- A triangle with the corners (0, 0, 0), (1, 0, 0) and (0, 1, 0). -/
def facet : Facet := ⟨List.replicate 12 0, ⟨s0, s0, s0⟩, ⟨s1, s0, s0⟩, ⟨s0, s1, s0⟩, [0, 0], rfl, rfl⟩

theorem facet_fits : ∀ f ∈ [facet], FitsTri (same.imageTri f.corners) := by
  intro f hf
  rw [List.mem_singleton.mp hf]
  unfold FitsTri Matrix.imageTri Matrix.image Fits same facet Facet.corners Corner.pos
  simp only [s0_value, s1_value]
  norm_num

example : ∃ ts, loadSTL some hash pick same (List.replicate 80 0 ++ little 1 ++ [facet].flatMap Facet.bytes ++ []) =
    .ok (.mesh (buildMesh hash pick ts)) ∧ List.Forall₂ (fun f t => TriAt (same.imageTri f.corners) t) [facet] ts :=
  C84_binary_partial some hash pick same (List.replicate 80 0) (little 1) [] [facet] (by decide) (by decide) (by decide)
    facet_fits ⟨[], 0, (List.replicate 80 0 ++ little 1 ++ [facet].flatMap Facet.bytes ++ []).drop 1, by decide +kernel, by simp, by decide,
      by decide +kernel, by rw [spells_iff]; decide +kernel⟩

/-- A header that begins with "solid". -/
def solidHeader : List UInt8 := ascii "Solid" ++ List.replicate 75 0

example : ∃ ts, loadSTL some hash pick same (solidHeader ++ little 1 ++ [facet].flatMap Facet.bytes ++ []) =
    .ok (.mesh (buildMesh hash pick ts)) ∧ List.Forall₂ (fun f t => TriAt (same.imageTri f.corners) t) [facet] ts :=
  C84_header_partial some hash pick same solidHeader (little 1) [] [facet] (by decide +kernel) (by decide) (by decide)
    facet_fits ⟨[], ascii "Solid", _, rfl, by simp, by rw [spells_iff]; decide +kernel⟩ (by decide +kernel)

example : loadSTL some hash pick same (List.replicate 20 65) = .ok .failed :=
  C84_short_partial some hash pick same _ (by decide)
    ⟨[], 65, List.replicate 19 65, rfl, by simp, by decide, by decide, by rw [spells_iff]; decide +kernel⟩

example : ∃ ts, readObject hash pick same ([facet].flatMap Facet.corners36 ++ []) [] = .ok (.mesh (buildMesh hash pick ts)) ∧
    List.Forall₂ (fun f t => TriAt (same.imageTri f.corners) t) [facet] ts :=
  C84_socket_partial hash pick same [facet] [] [] (by decide) (by decide) (Or.inl rfl) facet_fits

/-- C84. One coordinate that is not a number makes the behaviour undefined: it is converted to an integer. -/
theorem C84_nan_counterexample :
    undefined (loadSTL some hash pick same
      (List.replicate 84 0 ++ facet.normal ++ little 0x7FC00000 ++ facet.bytes.drop 16)) = true := by decide +kernel

/-- C84. A binary file whose header looks like a text with a triangle is taken for that text, and the two triangles in the
file are not read. -/
theorem C84_solid_counterexample :
    let header := ascii "solid\nvertex 0 0 0\nvertex 9 0 0\nvertex 0 9 0\n"
    let body := (List.replicate 2 facet).flatMap Facet.bytes
    faces (loadSTL some hash pick same (header ++ List.replicate (84 - header.length) 0 ++ body)) = some 1 ∧
      binaryFaces same 2 body ≠ .ok none := by
  constructor
  · decide +kernel
  · intro h
    have : (match binaryFaces same 2 ((List.replicate 2 facet).flatMap Facet.bytes) with
      | .ok none => true | _ => false) = false := by decide +kernel
    rw [h] at this
    cases this

/-- C84. If an object from the front end has texture coordinates, but not enough, memory behind them is read. -/
theorem C84_uv_counterexample :
    undefined (readObject hash pick same ([facet].flatMap Facet.corners36) (List.replicate 8 0)) = true := by decide +kernel

/-! ## Text -/

def n0 : Number := ⟨.none, [0], none, none, Or.inl (by decide)⟩

/-- `+1.5e0` -/
def n1 : Number := ⟨.plus, [1], some [5], some ⟨false, .none, [0], by decide⟩, Or.inl (by decide)⟩

theorem n0_value : n0.value = 0 := by
  simp [Number.value, n0, fractionValue, exponentValue, natural]

theorem n1_value : n1.value = 3 / 2 := by
  have h : ((5 : Fin 10) : Nat) = 5 := rfl
  simp [Number.value, n1, fractionValue, exponentValue, natural, Sign.factor, h]
  norm_num

theorem usable (c : Coords) (hx : c.x = n0 ∨ c.x = n1) (hy : c.y = n0 ∨ c.y = n1) (hz : c.z = n0 ∨ c.z = n1) :
    Usable some same c := by
  have h : ∀ n, n = n0 ∨ n = n1 → |n.value| < 2 ^ 53 := by
    rintro n (rfl | rfl)
    · rw [n0_value]; norm_num
    · rw [n1_value]; norm_num
  refine ⟨(c.x.value, c.y.value, c.z.value), ⟨rfl, rfl, rfl⟩, ?_⟩
  unfold Fits Matrix.image same
  simp only [one_mul, zero_mul, add_zero, zero_add]
  exact ⟨h _ hx, h _ hy, h _ hz⟩

/-- The lines of a text with one triangle. -/
def lines : List (StlLine × UInt8) :=
  [(.other (ascii "SOLID"), 13), (.vertex [32] [32] [9] [32] ⟨n0, n0, n0⟩ [], 10), (.vertex [] [32] [32] [32] ⟨n1, n0, n0⟩ [32], 10),
    (.vertex [] [32] [32] [32] ⟨n0, n1, n0⟩ [], 10)]

theorem other_ok (bs : List UInt8) (h : bs.length < 1024) (h10 : 10 ∉ bs) (h13 : 13 ∉ bs) (c : UInt8) (r : List UInt8) (e : bs = c :: r)
    (hc : ¬ White c) (hv : c ≠ 118) : (StlLine.other bs).Ok := by
  refine ⟨h, h10, h13, ?_⟩
  rintro ⟨lead, r', hb, e'⟩
  rw [e] at e'
  cases lead with
  | nil =>
    rw [List.nil_append, show ascii "vertex" = [118, 101, 114, 116, 101, 120] by decide +kernel] at e'
    exact hv (List.cons.inj e').1
  | cons b lead =>
    have := (List.cons.inj e').1
    exact hc (this ▸ (hb b List.mem_cons_self).1)

theorem lines_ok : ∀ l ∈ lines, l.1.Ok ∧ (l.2 = 10 ∨ l.2 = 13) := by
  intro l hl
  have blank : Blank [32] := by intro b hb; rw [List.mem_singleton.mp hb]; decide
  have tab : Blank [9] := by intro b hb; rw [List.mem_singleton.mp hb]; decide
  have none : Blank [] := fun b hb => by cases hb
  have gap : Gap [32] := ⟨blank, by decide⟩
  have hnil : ∀ b r, ([] : List UInt8) = b :: r → White b := fun b r h => by cases h
  have h32 : ∀ b r, ([32] : List UInt8) = b :: r → White b := fun b r h => by
    rw [← (List.cons.inj h).1]; decide
  simp only [lines, List.mem_cons, List.not_mem_nil, or_false] at hl
  rcases hl with rfl | rfl | rfl | rfl
  · exact ⟨other_ok _ (by decide +kernel) (by decide +kernel) (by decide +kernel) 83 _ rfl (by decide) (by decide), Or.inr rfl⟩
  · exact ⟨⟨by decide +kernel, by decide +kernel, by decide +kernel, blank, gap, ⟨tab, by decide⟩, gap, hnil⟩, Or.inl rfl⟩
  · exact ⟨⟨by decide +kernel, by decide +kernel, by decide +kernel, none, gap, gap, gap, h32⟩, Or.inl rfl⟩
  · exact ⟨⟨by decide +kernel, by decide +kernel, by decide +kernel, none, gap, gap, gap, hnil⟩, Or.inl rfl⟩

example : ∃ ts, List.Forall₂ (TriOf some same) (inThrees (stlVertices lines)) ts ∧ ((buildMesh hash pick ts).faces ≠ [] →
    loadSTL some hash pick same (stlText lines []) = .ok (.mesh (buildMesh hash pick ts))) := by
  refine C85_text_partial some hash pick same lines [] lines_ok (by simp) (by simp) ?_ ?_
  · exact ⟨[], ascii "SOLID", (stlText lines []).drop 5, by decide +kernel, by simp, by rw [spells_iff]; decide +kernel⟩
  · intro c hc
    simp only [stlVertices, lines, List.filterMap_cons, List.filterMap_nil, List.mem_cons, List.not_mem_nil, or_false] at hc
    rcases hc with rfl | rfl | rfl <;> exact usable _ (by simp) (by simp) (by simp)

example : faces (loadSTL some hash pick same (stlText lines [])) = some 1 := by decide +kernel

/-- C85. A line of 1024 bytes ends the reading without any error: what follows it is missing. -/
theorem C85_long_counterexample :
    let first := ascii "solid\nvertex 0 0 0\nvertex 1 0 0\nvertex 0 1 0\n"
    let second := ascii "vertex 0 0 5\nvertex 1 0 5\nvertex 0 1 5\n"
    faces (loadSTL some hash pick same (first ++ second)) = some 2 ∧
      faces (loadSTL some hash pick same (first ++ List.replicate 1024 32 ++ [10] ++ second)) = some 1 := by decide +kernel

/-- C85. The first word may be in capital letters, but the other ones may not: the file is taken for a binary file. -/
theorem C85_capitals_counterexample :
    failed (loadSTL some hash pick same (ascii "SOLID\nVERTEX 0 0 0\nVERTEX 1 0 0\nVERTEX 0 1 0\n")) = true := by decide +kernel

/-! ## OBJ -/

def corner (n : List (Fin 10)) (h : n ≠ []) (s : Suffix) : FaceCorner := ⟨n, s, h⟩

/-- A file with a square. -/
def square : List ObjItem :=
  [.other (ascii "o square"), .vertex [32] [32] [32] ⟨n0, n0, n0⟩, .vertex [32] [32] [32] ⟨n1, n0, n0⟩,
    .vertex [32] [32] [32] ⟨n1, n1, n0⟩, .vertex [32] [9, 32] [32] ⟨n0, n1, n0⟩,
    .face [32] (corner [1] (by decide) .none)
      [([32], corner [2] (by decide) (.both [1] [2])), ([32], corner [3] (by decide) (.normal [1])), ([32], corner [4] (by decide) .none)] [32]]

theorem square_ok : ∀ i ∈ square, i.Ok := by
  have blank : Blank [32] := by intro b hb; rw [List.mem_singleton.mp hb]; decide
  have gap : Gap [32] := ⟨blank, by decide⟩
  have gap2 : Gap [9, 32] := ⟨by
    intro b hb
    simp only [List.mem_cons, List.not_mem_nil, or_false] at hb
    rcases hb with rfl | rfl <;> decide, by decide⟩
  intro i hi
  simp only [square, List.mem_cons, List.not_mem_nil, or_false] at hi
  rcases hi with rfl | rfl | rfl | rfl | rfl | rfl
  · refine ⟨by decide +kernel, ?_⟩
    rintro w hw ⟨b, r, e, -⟩
    have ho : ascii "o square" = 111 :: (ascii "o square").drop 1 := by decide +kernel
    rw [ho] at e
    simp only [List.mem_cons, List.not_mem_nil, or_false] at hw
    rcases hw with rfl | rfl | rfl
    · rw [ascii_one.2.2.2.2.2.2.2.1] at e; exact absurd (List.cons.inj e).1 (by decide)
    · rw [ascii_one.2.2.2.2.2.2.2.2.2] at e; exact absurd (List.cons.inj e).1 (by decide)
    · rw [ascii_one.2.2.2.2.2.2.2.2.1] at e; exact absurd (List.cons.inj e).1 (by decide)
  · exact ⟨gap, gap, gap⟩
  · exact ⟨gap, gap, gap⟩
  · exact ⟨gap, gap, gap⟩
  · exact ⟨gap, gap2, gap⟩
  · refine ⟨gap, ?_, blank, by decide⟩
    intro o ho
    simp only [List.mem_cons, List.not_mem_nil, or_false] at ho
    rcases ho with rfl | rfl | rfl <;> exact gap

example : ∃ ts, List.Forall₂ (TriOf some same) (objTriangles [] square) ts ∧ loadOBJ some hash pick same (objText square) =
    .ok (if (buildMesh hash pick ts).faces = [] then .failed else .mesh (buildMesh hash pick ts)) := by
  refine C86_obj_partial some hash pick same square square_ok ?_ ?_
  · refine ⟨?_, trivial⟩
    decide
  · intro c hc
    simp only [objVertices, square, List.filterMap_cons, List.filterMap_nil, List.mem_cons, List.not_mem_nil, or_false] at hc
    rcases hc with rfl | rfl | rfl | rfl <;> exact usable _ (by simp) (by simp) (by simp)

example : faces (loadOBJ some hash pick same (objText square)) = some 2 := by decide +kernel

/-- The triangles of an OBJ file. -/
def triangles (file : String) : List Tri :=
  match objLoop some same (objLines (ascii file).length (ascii file)) ⟨[], []⟩ with
  | .ok (some s) => s.ts
  | _ => []

/-- C86. Numbers that count the vertices backwards, as the format allows, are taken for numbers that count them from the
beginning. -/
theorem C86_relative_counterexample :
    triangles "v 0 0 0\nv 1 0 0\nv 0 1 0\nv 0 0 1\nf -3 -2 -1\n" = [(⟨0, 1000, 0⟩, ⟨1000, 0, 0⟩, ⟨0, 0, 0⟩)] ∧
      triangles "v 0 0 0\nv 1 0 0\nv 0 1 0\nv 0 0 1\nf 2 3 4\n" = [(⟨1000, 0, 0⟩, ⟨0, 1000, 0⟩, ⟨0, 0, 1000⟩)] := by decide +kernel

/-- C86. A vertex with a fourth number is skipped, so that all faces get other vertices than theirs. -/
theorem C86_weight_counterexample :
    triangles "v 0 0 0 1\nv 1 0 0\nv 0 1 0\nv 0 0 1\nf 1 2 3\n" = [(⟨1000, 0, 0⟩, ⟨0, 1000, 0⟩, ⟨0, 0, 1000⟩)] ∧
      triangles "v 0 0 0\nv 1 0 0\nv 0 1 0\nv 0 0 1\nf 1 2 3\n" = [(⟨0, 0, 0⟩, ⟨1000, 0, 0⟩, ⟨0, 1000, 0⟩)] := by decide +kernel

/-- C86. So is a vertex with a blank behind it. -/
theorem C86_blank_counterexample :
    triangles "v 0 0 0 \nv 1 0 0\nv 0 1 0\nv 0 0 1\nf 1 2 3\n" = [(⟨1000, 0, 0⟩, ⟨0, 1000, 0⟩, ⟨0, 0, 1000⟩)] := by decide +kernel

/-- C86. A file with the line ends of Windows is refused. -/
theorem C86_windows_counterexample :
    failed (loadOBJ some hash pick same (ascii "v 0 0 0\r\nv 1 0 0\r\nv 0 1 0\r\nf 1 2 3\r\n")) = true := by decide +kernel

/-- Single precision, roughly: numbers that are too small or too large are refused. -/
def stof (x : Rat) : Option Rat := if x ≠ 0 ∧ (|x| < 1 / 2 ^ 149 ∨ 2 ^ 128 ≤ |x|) then none else some x

/-- C86. A number that is too small for single precision ends the program with an exception. -/
theorem C86_tiny_counterexample :
    crashed (loadOBJ stof hash pick same (ascii "v 1e-50 0 0\nv 1 0 0\nv 0 1 0\nf 1 2 3\n")) = true := by decide +kernel

/-- C86. So does the number of a vertex with more than 64 bits. -/
theorem C86_huge_counterexample :
    crashed (loadOBJ some hash pick same (ascii "v 0 0 0\nf 1 99999999999999999999 1\n")) = true := by decide +kernel

/-- C86. So does a file without an extension. -/
theorem C86_extension_counterexample :
    crashed (loadFile some some hash pick same [] (objText square)) = true := by decide +kernel

/-! ## Placement -/

/-- A model and a modifier. -/
def parts : List Part :=
  [⟨[⟨0, 0, 0⟩, ⟨1001, 500, 2000⟩], ⟨0, 0, 0⟩, ⟨1001, 500, 2000⟩, ⟨100, 200, 0⟩, true, true⟩,
    ⟨[⟨5, 6, 7⟩], ⟨5, 6, 7⟩, ⟨5, 6, 7⟩, ⟨0, 0, 0⟩, false, false⟩]

def plate : Plate := ⟨false, 200001, 200000, 1002 / 1000, 1⟩

theorem parts_box : ∀ p ∈ parts, IsBox p.points p.lo p.hi := by
  intro p hp
  simp only [parts, List.mem_cons, List.not_mem_nil, or_false] at hp
  unfold IsBox Span
  rcases hp with rfl | rfl <;> decide

theorem parts_small : ∀ o d, Origin plate o → ∀ p ∈ parts, Moved o p d → ∀ q ∈ p.points, Small (plus q d) := by
  intro o d ho p hp hm q hq
  have ho' : Half o.x 200001 ∧ Half o.y 200000 ∧ o.z = 0 := ho
  obtain ⟨h1, h2, h3⟩ := ho'
  unfold Half at h1 h2
  rw [abs_le] at h1 h2
  simp only [parts, List.mem_cons, List.not_mem_nil, or_false] at hp
  rcases hp with rfl | rfl
  · obtain ⟨m1, m2, m3⟩ : Half (100 + o.x - d.x) (0 + 1001) ∧ Half (200 + o.y - d.y) (0 + 500) ∧ d.z + 0 = 0 + o.z := hm
    unfold Half at m1 m2
    rw [abs_le] at m1 m2
    simp only [List.mem_cons, List.not_mem_nil, or_false] at hq
    rcases hq with rfl | rfl <;> (unfold Small plus; dsimp only; omega)
  · have hm' : d = plus ⟨0, 0, 0⟩ o := hm
    subst hm'
    rw [List.mem_singleton.mp hq]
    unfold Small plus; dsimp only; omega

example : ∃ o ds c, Origin plate o ∧ List.Forall₂ (Moved o) parts ds ∧ Middle (modelPoints parts ds) c ∧
    List.Forall₂ (fun (x : Part × P3) (r : Part) => List.Forall₂ (fun p q => Scaled plate c (plus p x.2) q) x.1.points r.points)
      (parts.zip ds) (finalize plate parts) :=
  C87_place plate parts ⟨_, List.mem_cons_self, rfl⟩ parts_box parts_small

example : (finalize plate parts).map Part.points =
    [[⟨99599, 99949, 0⟩, ⟨100602, 100450, 2000⟩], [⟨100004, 100005, 7⟩]] := by decide +kernel

example : ∃ o ds, Origin ⟨true, 0, 0, 1, 1⟩ o ∧ List.Forall₂ (Moved o) parts ds ∧
    (finalize ⟨true, 0, 0, 1, 1⟩ parts).map Part.points = (parts.zip ds).map fun x => x.1.points.map fun p => plus p x.2 :=
  C87_unscaled ⟨true, 0, 0, 1, 1⟩ parts rfl rfl

example : ∀ p ∈ finalize plate parts, IsBox p.points p.lo p.hi :=
  C87_box plate parts (by unfold plate; norm_num) (by unfold plate; norm_num) parts_box

/-- C87. A group without any model is moved far away if it is scaled: its bounding box is that of nothing. -/
theorem C87_nothing_counterexample :
    ∀ p ∈ finalize plate (parts.drop 1), ∀ q ∈ p.points, q.x < -9 * 10 ^ 15 := by decide +kernel

end Verif.Load.Cases
