import Verif.Load.ObjLemmas
import Verif.Load.PlaceLemmas

/-! # Loading and placing models: theorems -/

namespace Verif.Load

open Verif.Slicer (P3 Mesh buildMesh)

variable (rnd stof : Rat → Option Rat) (hash : P3 → Nat) (pick : List Nat → Option Nat) (m : Matrix)

theorem loadSTL_not (file : List UInt8) (h : NotSolid file) :
    loadSTL rnd hash pick m file = (do pure (built hash pick (← binary m file))) := by
  unfold loadSTL
  rw [isText_not file h]

theorem loadSTL_solid (file : List UInt8) (h : IsSolid file) :
    loadSTL rnd hash pick m file = (do
      let ts ← text rnd m file
      if (buildMesh hash pick ts).faces.length < 1 then pure (built hash pick (← binary m file))
      else pure (.mesh (buildMesh hash pick ts))) := by
  unfold loadSTL
  rw [isText_solid file h]

/-- C84 (part). A binary STL file is read exactly: the mesh is made of as many triangles as the file has, in the same order,
each with its three corners in the same order, and each corner is where the file and the matrix put it, to the nearest
micrometre. The header may say anything that does not begin with "solid", the number of triangles in the header, the
normals and the attributes may be anything, and up to 49 bytes may follow the triangles. -/
theorem C84_binary_partial (header count rest : List UInt8) (fs : List Facet) (hh : header.length = 80) (hc : count.length = 4)
    (hr : rest.length < 50) (hfit : ∀ f ∈ fs, FitsTri (m.imageTri f.corners)) :
    let file := header ++ count ++ fs.flatMap Facet.bytes ++ rest
    NotSolid file →
      ∃ ts, loadSTL rnd hash pick m file = .ok (.mesh (buildMesh hash pick ts)) ∧
        List.Forall₂ (fun f t => TriAt (m.imageTri f.corners) t) fs ts := by
  intro file hn
  obtain ⟨ts, e, hts⟩ := binary_facets m header count rest fs hh hc hr hfit
  refine ⟨ts, ?_, hts⟩
  rw [loadSTL_not rnd hash pick m file hn]
  rw [show binary m file = _ from e]
  rfl

/-- C84 (part). A binary STL file whose header begins with "solid" is read just the same, if the word "vertex" does not
occur in it. -/
theorem C84_header_partial (header count rest : List UInt8) (fs : List Facet) (hh : header.length = 80) (hc : count.length = 4)
    (hr : rest.length < 50) (hfit : ∀ f ∈ fs, FitsTri (m.imageTri f.corners)) :
    let file := header ++ count ++ fs.flatMap Facet.bytes ++ rest
    IsSolid file → ¬ ascii "vertex" <:+: file →
      ∃ ts, loadSTL rnd hash pick m file = .ok (.mesh (buildMesh hash pick ts)) ∧
        List.Forall₂ (fun f t => TriAt (m.imageTri f.corners) t) fs ts := by
  intro file hs hv
  obtain ⟨ts, e, hts⟩ := binary_facets m header count rest fs hh hc hr hfit
  refine ⟨ts, ?_, hts⟩
  rw [loadSTL_solid rnd hash pick m file hs, text_none rnd m file hv]
  rw [show binary m file = _ from e]
  rfl

/-- C84 (part). A file that is too short for the header of a binary file is refused. -/
theorem C84_short_partial (file : List UInt8) (h : file.length < 84) (hn : NotSolid file) :
    loadSTL rnd hash pick m file = .ok .failed := by
  rw [loadSTL_not rnd hash pick m file hn]
  unfold binary
  by_cases h80 : file.length < 80
  · rw [if_pos h80]; rfl
  · rw [if_neg h80, if_pos h]; rfl

theorem objectFaces_facets (fs : List Facet) (uv : List UInt8) (huv : uv = [] ∨ 24 * fs.length ≤ uv.length)
    (h : ∀ f ∈ fs, FitsTri (m.imageTri f.corners)) (gs : List Facet) (k : Nat) (rest : List UInt8) (pre : List UInt8)
    (hpre : pre.length = 36 * k) (hk : k + gs.length = fs.length) (hg : ∀ f ∈ gs, f ∈ fs) :
    ∃ ts, objectFaces m (pre ++ (gs.flatMap Facet.corners36 ++ rest)) uv gs.length k = .ok (some ts) ∧
      List.Forall₂ (fun f t => TriAt (m.imageTri f.corners) t) gs ts := by
  induction gs generalizing k pre with
  | nil => exact ⟨[], rfl, .nil⟩
  | cons g gs ih =>
    rw [List.length_cons] at hk
    obtain ⟨t, et, ht⟩ := triangleAt_facet m [] [] g 0 rfl (h g (hg g List.mem_cons_self))
    obtain ⟨ts, e, hts⟩ := ih (k + 1) (pre ++ g.corners36) (by rw [List.length_append, hpre, Facet.length36]; ring) (by omega)
      fun f hf => hg f (List.mem_cons_of_mem _ hf)
    refine ⟨t :: ts, ?_, .cons ht hts⟩
    have e1 : ¬ (uv ≠ [] ∧ uv.length < 24 * k) := by rintro ⟨h1, h2⟩; rcases huv with h | h; exact h1 h; omega
    have e2 : ¬ (uv ≠ [] ∧ uv.length ≠ 24 * k ∧ uv.length < 24 * k + 24) := by
      rintro ⟨h1, h2, h3⟩; rcases huv with h | h; exact h1 h; omega
    have ecut : ((pre ++ ((g :: gs).flatMap Facet.corners36 ++ rest)).drop (36 * k)).take 36 = g.corners36 := by
      rw [List.drop_append_of_le_length (by omega), List.drop_of_length_le (by omega), List.nil_append, List.flatMap_cons,
        List.append_assoc, List.take_append_of_le_length (by rw [Facet.length36]), List.take_of_length_le (by rw [Facet.length36])]
    rw [List.length_cons]
    unfold objectFaces
    rw [if_neg e1, ecut]
    rw [List.nil_append, List.append_nil] at et
    rw [et]
    have e' : pre ++ ((g :: gs).flatMap Facet.corners36 ++ rest) = pre ++ g.corners36 ++ (gs.flatMap Facet.corners36 ++ rest) := by
      rw [List.flatMap_cons, List.append_assoc, List.append_assoc]
    simp only [bind, Outcome.bind, if_neg e2]
    rw [e', e]
    rfl

/-- C84 (part). The front end's own format, three corners of 36 bytes per triangle, is read exactly, too, if there are no
texture coordinates or enough of them. -/
theorem C84_socket_partial (fs : List Facet) (rest uv : List UInt8) (hne : fs ≠ []) (hr : rest.length < 36)
    (huv : uv = [] ∨ 24 * fs.length ≤ uv.length) (hfit : ∀ f ∈ fs, FitsTri (m.imageTri f.corners)) :
    ∃ ts, readObject hash pick m (fs.flatMap Facet.corners36 ++ rest) uv = .ok (.mesh (buildMesh hash pick ts)) ∧
      List.Forall₂ (fun f t => TriAt (m.imageTri f.corners) t) fs ts := by
  obtain ⟨ts, e, hts⟩ := objectFaces_facets m fs uv huv hfit fs 0 rest [] rfl (by omega) fun f h => h
  refine ⟨ts, ?_, hts⟩
  have hl : (fs.flatMap Facet.corners36 ++ rest).length / 36 = fs.length := by
    have : (fs.flatMap Facet.corners36).length = 36 * fs.length := by
      clear e hts huv hfit hne hr
      clear ts
      induction fs with
      | nil => rfl
      | cons f fs ih => rw [List.flatMap_cons, List.length_append, ih, Facet.length36, List.length_cons]; ring
    rw [List.length_append, this]
    omega
  have hpos := List.length_pos_of_ne_nil hne
  unfold readObject
  rw [hl, if_neg (by omega)]
  rw [List.nil_append] at e
  rw [e]
  rfl

/-- C85 (part). An STL file in text format is read exactly: every three vertices in the file make a triangle, in the order of
the file, each corner where its numbers, rounded as the platform does, and the matrix put it, to the nearest micrometre.
Lines may end in the ways of all systems, and whatever is not a vertex is skipped. If the file has no triangles that are not
degenerate, it is taken for a binary file instead. -/
theorem C85_text_partial (ls : List (StlLine × UInt8)) (rest : List UInt8)
    (hl : ∀ l ∈ ls, l.1.Ok ∧ (l.2 = 10 ∨ l.2 = 13)) (h10 : 10 ∉ rest) (h13 : 13 ∉ rest) (hs : IsSolid (stlText ls rest))
    (hu : ∀ c ∈ stlVertices ls, Usable rnd m c) :
    ∃ ts, List.Forall₂ (TriOf rnd m) (inThrees (stlVertices ls)) ts ∧
      ((buildMesh hash pick ts).faces ≠ [] →
        loadSTL rnd hash pick m (stlText ls rest) = .ok (.mesh (buildMesh hash pick ts))) := by
  obtain ⟨ts, e, hts⟩ := text_triangles rnd m ls rest hl h10 h13 hu
  refine ⟨ts, hts, fun hne => ?_⟩
  rw [loadSTL_solid rnd hash pick m _ hs, e]
  simp only [bind, Outcome.bind]
  rw [if_neg (by have := List.length_pos_of_ne_nil hne; omega)]
  rfl

/-- C86 (part). An OBJ file is read exactly: the mesh is made of the triangles that its faces describe, in their order, each
face as a fan from its first corner, and each corner is where the numbers of its vertex, rounded as the platform does, and
the matrix put it, to the nearest micrometre. A file without triangles that are not degenerate is refused. -/
theorem C86_obj_partial (is : List ObjItem) (hok : ∀ i ∈ is, i.Ok) (hr : InRange 0 is)
    (hu : ∀ c ∈ objVertices is, Usable stof m c) :
    ∃ ts, List.Forall₂ (TriOf stof m) (objTriangles [] is) ts ∧
      loadOBJ stof hash pick m (objText is) =
        .ok (if (buildMesh hash pick ts).faces = [] then .failed else .mesh (buildMesh hash pick ts)) := by
  obtain ⟨s, ts, e, h1, h2⟩ := objLoop_items stof m is hok hu [] hr ⟨[], []⟩ .nil
  refine ⟨ts, h2, ?_⟩
  unfold loadOBJ
  rw [objLines_text is hok _ (objText_length is), e]
  simp only [bind, Outcome.bind, h1, List.nil_append]
  split <;> rfl

/-! ## C87 -/

theorem place_each (s : Plate) (c : P3) (hc : c.z = 0) (f : Part → P3) (parts : List Part) :
    List.Forall₂ (fun (x : Part × P3) (r : Part) => List.Forall₂ (fun p q => Scaled s c (plus p x.2) q) x.1.points r.points)
      (parts.zip (parts.map f)) (parts.map ((fun m => m.transform (scaleMatrix s.xy s.xy s.z c)) ∘ fun p => p.translate (f p))) := by
  induction parts with
  | nil => exact .nil
  | cons p ps ih =>
    rw [List.map_cons, List.zip_cons_cons, List.map_cons]
    refine .cons ?_ ih
    unfold Part.transform
    simp only [Function.comp, translate_eq, List.map_map]
    rw [List.forall₂_map_right_iff]
    refine List.forall₂_same.mpr fun q _ => ?_
    simp only [Function.comp, applyInt_scale]
    refine ⟨?_, ?_, ?_⟩
    · convert trunc_close _ using 1; ring
    · convert trunc_close _ using 1; ring
    · convert trunc_close _ using 1; rw [hc]; push_cast; ring

theorem place_exact (c : P3) (f : Part → P3) (parts : List Part) :
    parts.map (Part.points ∘ (fun m => m.transform (scaleMatrix 1 1 1 c)) ∘ fun p => p.translate (f p)) =
      (parts.zip (parts.map f)).map fun x => x.1.points.map fun p => plus p x.2 := by
  induction parts with
  | nil => rfl
  | cons p ps ih =>
    rw [List.map_cons, List.map_cons, List.zip_cons_cons, List.map_cons, ih]
    congr 1
    unfold Part.transform
    simp only [Function.comp, translate_eq, List.map_map]
    refine List.map_congr_left fun q _ => ?_
    simp only [Function.comp, applyInt_scale, one_mul, sub_self, zero_mul, add_zero, trunc_int]

/-- C87. Every mesh is moved to its position on the build plate, and then all of them are scaled by the shrinkage factors,
from the centre of the models' common bounding box, and from the height 0. Each coordinate is less than a micrometre away
from where that puts it. -/
theorem C87_place (s : Plate) (parts : List Part) (hm : ∃ p ∈ parts, p.isModel = true)
    (hbox : ∀ p ∈ parts, IsBox p.points p.lo p.hi)
    (hsmall : ∀ o d, Origin s o → ∀ p ∈ parts, Moved o p d → ∀ q ∈ p.points, Small (plus q d)) :
    ∃ o ds c, Origin s o ∧ List.Forall₂ (Moved o) parts ds ∧ Middle (modelPoints parts ds) c ∧
      List.Forall₂ (fun (x : Part × P3) (r : Part) => List.Forall₂ (fun p q => Scaled s c (plus p x.2) q) x.1.points r.points)
        (parts.zip ds) (finalize s parts) := by
  refine ⟨plateOffset s, parts.map fun p => plus (partOffset p) (plateOffset s),
    scaleOrigin (parts.map fun p => p.translate (plus (partOffset p) (plateOffset s))), plateOffset_origin s, ?_, ?_, ?_⟩
  · rw [List.forall₂_map_right_iff]
    exact List.forall₂_same.mpr fun p _ => partOffset_moved p (plateOffset s)
  · have hb := group_box (parts.map fun p => p.translate (plus (partOffset p) (plateOffset s)))
      (by
        obtain ⟨p, h1, h2⟩ := hm
        exact ⟨_, List.mem_map_of_mem h1, by rw [translate_eq]; exact h2⟩)
      (by
        intro q hq
        obtain ⟨p, hp, rfl⟩ := List.mem_map.mp hq
        exact translate_box p _ (hbox p hp))
      (by
        intro q hq
        obtain ⟨p, hp, rfl⟩ := List.mem_map.mp hq
        intro r hr
        rw [translate_eq] at hr
        obtain ⟨t, ht, rfl⟩ := List.mem_map.mp hr
        exact hsmall _ _ (plateOffset_origin s) p hp (partOffset_moved p _) t ht)
    rw [modelPoints_eq] at hb
    refine ⟨_, _, hb, ?_, ?_⟩
    · unfold scaleOrigin
      rw [add_comm (groupMin _).x]
      exact half_tdiv _
    · unfold scaleOrigin
      rw [add_comm (groupMin _).y]
      exact half_tdiv _
  · unfold finalize scaleFromBottom
    rw [List.map_map]
    exact place_each s _ rfl (fun p => plus (partOffset p) (plateOffset s)) parts

/-- C87. Without shrinkage the meshes are only moved, exactly. -/
theorem C87_unscaled (s : Plate) (parts : List Part) (hxy : s.xy = 1) (hz : s.z = 1) :
    ∃ o ds, Origin s o ∧ List.Forall₂ (Moved o) parts ds ∧
      (finalize s parts).map Part.points = (parts.zip ds).map fun x => x.1.points.map fun p => plus p x.2 := by
  refine ⟨plateOffset s, parts.map fun p => plus (partOffset p) (plateOffset s), plateOffset_origin s, ?_, ?_⟩
  · rw [List.forall₂_map_right_iff]
    exact List.forall₂_same.mpr fun p _ => partOffset_moved p (plateOffset s)
  · unfold finalize scaleFromBottom
    rw [hxy, hz, List.map_map, List.map_map]
    exact place_exact _ (fun p => plus (partOffset p) (plateOffset s)) parts

/-- C87. The bounding box of every mesh stays the smallest one, for factors that are not negative. -/
theorem C87_box (s : Plate) (parts : List Part) (hxy : 0 ≤ s.xy) (hz : 0 ≤ s.z) (hbox : ∀ p ∈ parts, IsBox p.points p.lo p.hi) :
    ∀ p ∈ finalize s parts, IsBox p.points p.lo p.hi := by
  unfold finalize scaleFromBottom
  intro q hq
  rw [List.map_map] at hq
  obtain ⟨p, hp, rfl⟩ := List.mem_map.mp hq
  exact transform_box _ _ _ _ _ hxy hxy hz (translate_box p _ (hbox p hp))

end Verif.Load
