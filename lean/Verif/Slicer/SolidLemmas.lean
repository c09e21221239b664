import Verif.Slicer.BuildLemmas

/-! # A solid gives a watertight mesh -/

namespace Verif.Slicer

theorem testLength_iff (p q : P3) (len : Int) (hl : 0 ≤ len) : testLength p q len = true ↔ dist3 p q ≤ len * len := by
  unfold testLength dist3
  dsimp only
  generalize p.x - q.x = a
  generalize p.y - q.y = b
  generalize p.z - q.z = c
  have ha : 0 ≤ a * a := mul_self_nonneg a
  have hb : 0 ≤ b * b := mul_self_nonneg b
  have hc : 0 ≤ c * c := mul_self_nonneg c
  constructor
  · intro h
    split at h
    · simp at h
    · split at h
      · simp at h
      · split at h
        · simp at h
        · simpa using h
  · intro h
    have key : ∀ c : Int, c * c ≤ len * len → ¬ (c > len ∨ c < -len) := by
      rintro c hc (h1 | h1) <;> nlinarith
    rw [if_neg (key a (by linarith)), if_neg (key b (by linarith)), if_neg (key c (by linarith))]
    simpa using h

/-- The place of a vertex. -/
def pos (b : Builder) (u : Nat) : P3 := (b.mesh.vert u).p

/-- What holds while a mesh is built from triangles with corners in `C`, after the triangles `ts`. -/
structure POk (hash : P3 → Nat) (C : List P3) (ts : List (P3 × P3 × P3)) (b : Builder) : Prop where
  ok : BOk b
  inj : ∀ u < b.mesh.vertices.length, ∀ v < b.mesh.vertices.length, pos b u = pos b v → u = v
  corner : ∀ u < b.mesh.vertices.length, pos b u ∈ C
  tab : ∀ u < b.mesh.vertices.length, (hash (pos b u), u) ∈ b.table
  faces : b.mesh.faces.map (fun fc => (pos b fc.v0, pos b fc.v1, pos b fc.v2)) = ts

theorem findVertex_pos (hash : P3 → Nat) (C : List P3) (hC : ∀ p ∈ C, ∀ q ∈ C, p ≠ q → 30 * 30 < dist3 p q)
    (ts : List (P3 × P3 × P3)) (b : Builder) (h : POk hash C ts b) (v : P3) (hv : v ∈ C) :
    POk hash C ts (findVertex hash b v).1 ∧ pos (findVertex hash b v).1 (findVertex hash b v).2 = v ∧
    ∀ u < b.mesh.vertices.length, pos (findVertex hash b v).1 u = pos b u := by
  obtain ⟨s1, s2, s3, s4, s5⟩ := findVertex_spec hash b h.ok v
  have hpos : ∀ u < b.mesh.vertices.length, pos (findVertex hash b v).1 u = pos b u := by
    intro u hu; unfold pos; rw [s5 u hu]
  have hzero : testLength v v meld = true := (testLength_iff _ _ _ (by decide)).2 (by unfold dist3 meld; simp)
  have hfaces : (findVertex hash b v).1.mesh.faces.map
      (fun fc => (pos (findVertex hash b v).1 fc.v0, pos (findVertex hash b v).1 fc.v1, pos (findVertex hash b v).1 fc.v2)) = ts := by
    rw [s4, ← h.faces]
    apply List.map_congr_left
    intro fc hfc
    obtain ⟨f, hf⟩ := List.mem_iff_getElem?.1 hfc
    obtain ⟨r0, r1, r2⟩ := h.ok.rng f fc hf
    rw [hpos _ r0, hpos _ r1, hpos _ r2]
  suffices hs : (∀ u < (findVertex hash b v).1.mesh.vertices.length, ∀ w < (findVertex hash b v).1.mesh.vertices.length,
      pos (findVertex hash b v).1 u = pos (findVertex hash b v).1 w → u = w) ∧
      (∀ u < (findVertex hash b v).1.mesh.vertices.length, pos (findVertex hash b v).1 u ∈ C) ∧
      (∀ u < (findVertex hash b v).1.mesh.vertices.length, (hash (pos (findVertex hash b v).1 u), u) ∈ (findVertex hash b v).1.table) ∧
      pos (findVertex hash b v).1 (findVertex hash b v).2 = v by
    exact ⟨⟨s1, hs.1, hs.2.1, hs.2.2.1, hfaces⟩, hs.2.2.2, hpos⟩
  clear hfaces
  unfold findVertex at *
  cases hf : b.table.find? (fun e => e.1 == hash v && testLength (b.mesh.vert e.2).p v meld) with
  | some e =>
    rw [hf] at s2
    dsimp only at s2 ⊢
    refine ⟨h.inj, h.corner, h.tab, ?_⟩
    have he := List.find?_some hf
    simp only [Bool.and_eq_true, beq_iff_eq] at he
    have hd := (testLength_iff _ _ _ (by decide)).1 he.2
    by_contra hne
    have := hC _ (h.corner e.2 s2) v hv hne
    unfold meld at hd
    unfold pos at this
    omega
  | none =>
    rw [hf] at hpos
    dsimp only at hpos ⊢
    have hnew : ∀ u < b.mesh.vertices.length, pos b u ≠ v := by
      intro u hu he
      have hm := h.tab u hu
      have := List.find?_eq_none.1 hf _ hm
      simp only [Bool.and_eq_true, beq_iff_eq, not_and] at this
      rw [he] at this
      apply this rfl
      show testLength (pos b u) v meld = true
      rw [he]; exact hzero
    have hlast : (Mesh.vert { b.mesh with vertices := b.mesh.vertices ++ [⟨v, []⟩] } b.mesh.vertices.length).p = v := by
      rw [vert_append, if_pos rfl]
    simp only [List.length_append, List.length_singleton]
    have hcase : ∀ u, u < b.mesh.vertices.length + 1 → u < b.mesh.vertices.length ∨ u = b.mesh.vertices.length := fun u hu => by omega
    refine ⟨?_, ?_, ?_, hlast⟩
    · intro u hu w hw he
      rcases hcase u hu with hu | rfl <;> rcases hcase w hw with hw | rfl
      · rw [hpos u hu, hpos w hw] at he
        exact h.inj u hu w hw he
      · rw [hpos u hu] at he
        exact absurd (he.trans hlast) (hnew u hu)
      · rw [hpos w hw] at he
        exact absurd (he.symm.trans hlast) (hnew w hw)
      · rfl
    · intro u hu
      rcases hcase u hu with hu | rfl
      · rw [hpos u hu]; exact h.corner u hu
      · exact (congrArg (fun p => p ∈ C) hlast).mpr hv
    · intro u hu
      rcases hcase u hu with hu | rfl
      · rw [hpos u hu]; exact List.mem_append_left _ (h.tab u hu)
      · exact (congrArg (fun p => (hash p, b.mesh.vertices.length) ∈ b.table ++ [(hash v, b.mesh.vertices.length)]) hlast).mpr
          (by simp)

theorem addFace_pos (hash : P3 → Nat) (C : List P3) (hC : ∀ p ∈ C, ∀ q ∈ C, p ≠ q → 30 * 30 < dist3 p q)
    (ts : List (P3 × P3 × P3)) (b : Builder) (h : POk hash C ts b) (t : P3 × P3 × P3) (ht : ∀ p ∈ triCorners t, p ∈ C)
    (hd : t.1 ≠ t.2.1 ∧ t.2.1 ≠ t.2.2 ∧ t.1 ≠ t.2.2) : POk hash C (ts ++ [t]) (addFace hash b t) := by
  rw [addFace_eq]
  obtain ⟨a1, a2, a3⟩ := findVertex_pos hash C hC ts b h t.1 (ht _ (by simp [triCorners]))
  obtain ⟨_, a4, a5, _⟩ := findVertex_spec hash b h.ok t.1
  generalize findVertex hash b t.1 = r0 at *
  obtain ⟨b1, b2, b3⟩ := findVertex_pos hash C hC ts r0.1 a1 t.2.1 (ht _ (by simp [triCorners]))
  obtain ⟨_, b4, b5, _⟩ := findVertex_spec hash r0.1 a1.ok t.2.1
  dsimp only
  generalize findVertex hash r0.1 t.2.1 = r1 at *
  obtain ⟨c1, c2, c3⟩ := findVertex_pos hash C hC ts r1.1 b1 t.2.2 (ht _ (by simp [triCorners]))
  obtain ⟨_, c4, c5, _⟩ := findVertex_spec hash r1.1 b1.ok t.2.2
  generalize findVertex hash r1.1 t.2.2 = r2 at *
  have p0 : pos r2.1 r0.2 = t.1 := by rw [c3 _ (by omega), b3 _ (by omega), a2]
  have p1 : pos r2.1 r1.2 = t.2.1 := by rw [c3 _ (by omega), b2]
  have hne : ¬ (r0.2 = r1.2 ∨ r1.2 = r2.2 ∨ r0.2 = r2.2) := by
    rintro (e | e | e)
    · rw [e, p1] at p0; exact hd.1 p0.symm
    · rw [e, c2] at p1; exact hd.2.1 p1.symm
    · rw [e, c2] at p0; exact hd.2.2 p0.symm
  rw [if_neg hne]
  obtain ⟨e1, e2, e3, e4, e5⟩ := attach_spec r2.1 c1.ok r0.2 r1.2 r2.2 (by omega) (by omega) c4 hne
  have hp : ∀ u, pos (attach r2.1 r0.2 r1.2 r2.2) u = pos r2.1 u := e5
  refine ⟨e1, ?_, ?_, ?_, ?_⟩
  · intro u hu v hv he
    rw [e3] at hu hv
    rw [hp, hp] at he
    exact c1.inj u hu v hv he
  · intro u hu
    rw [e3] at hu
    rw [hp]; exact c1.corner u hu
  · intro u hu
    rw [e3] at hu
    rw [hp, e4]; exact c1.tab u hu
  · simp only [hp]
    rw [e2, List.map_append, c1.faces]
    simp only [List.map_cons, List.map_nil]
    rw [p0, p1, c2]

theorem build_pos (hash : P3 → Nat) (ts : List (P3 × P3 × P3)) (h : Solid ts) :
    POk hash (ts.flatMap triCorners) ts (ts.foldl (addFace hash) ⟨⟨[], []⟩, []⟩) := by
  have key : ∀ (rest done : List (P3 × P3 × P3)) (b : Builder), (∀ t ∈ rest, t ∈ ts) → POk hash (ts.flatMap triCorners) done b →
      POk hash (ts.flatMap triCorners) (done ++ rest) (rest.foldl (addFace hash) b) := by
    intro rest
    induction rest with
    | nil => intro done b _ h; simpa using h
    | cons t rest ih =>
      intro done b hm hb
      have ht := hm t List.mem_cons_self
      have := ih (done ++ [t]) (addFace hash b t) (fun x hx => hm x (List.mem_cons_of_mem _ hx))
        (addFace_pos hash _ h.apart done b hb t (fun p hp => List.mem_flatMap.2 ⟨t, ht, hp⟩) (h.proper t ht))
      simpa using this
  have h0 : POk hash (ts.flatMap triCorners) [] ⟨⟨[], []⟩, []⟩ :=
    ⟨build_ok hash [], by simp, by simp, by simp, rfl⟩
  simpa using key ts [] _ (fun t ht => ht) h0

theorem solid_watertight (hash : P3 → Nat) (pick : List Nat → Option Nat) (ts : List (P3 × P3 × P3)) (h : Solid ts) :
    (buildMesh hash pick ts).Watertight := by
  have hp := build_pos hash ts h
  generalize hb : ts.foldl (addFace hash) ⟨⟨[], []⟩, []⟩ = b at hp
  have hm : buildMesh hash pick ts = finish pick b.mesh := by unfold buildMesh; rw [hb]
  rw [hm]
  have hedges : (finish pick b.mesh).edges = b.mesh.edges := by
    unfold Mesh.edges finish
    dsimp only
    rw [List.flatMap_def, List.flatMap_def]
    congr 1
    apply List.ext_getElem
    · simp
    · intro i h1 h2
      rw [List.getElem_map, List.getElem_map, List.getElem_mapIdx]
      rfl
  have hmap : b.mesh.edges.map (fun e => (pos b e.1, pos b e.2)) = ts.flatMap triEdges := by
    rw [← hp.faces]
    unfold Mesh.edges
    rw [List.map_flatMap, List.flatMap_map]
    rfl
  have hrng : ∀ e ∈ b.mesh.edges, e.1 < b.mesh.vertices.length ∧ e.2 < b.mesh.vertices.length := by
    intro e he
    obtain ⟨f, fc, hf, hfe⟩ := (mem_edges_iff b.mesh e).1 he
    obtain ⟨r0, r1, r2⟩ := hp.ok.rng f fc hf
    unfold Face.edges at hfe
    simp only [List.mem_cons, List.not_mem_nil, or_false] at hfe
    rcases hfe with rfl | rfl | rfl
    · exact ⟨r0, r1⟩
    · exact ⟨r1, r2⟩
    · exact ⟨r2, r0⟩
  have hcount : ∀ x y, x < b.mesh.vertices.length → y < b.mesh.vertices.length →
      b.mesh.edges.count (x, y) = (ts.flatMap triEdges).count (pos b x, pos b y) := by
    intro x y hx hy
    rw [← hmap, List.count, List.count, List.countP_map]
    apply List.countP_congr
    intro e he
    obtain ⟨r1, r2⟩ := hrng e he
    simp only [Function.comp, beq_iff_eq]
    obtain ⟨e1, e2⟩ := e
    simp only [Prod.mk.injEq]
    constructor
    · rintro ⟨rfl, rfl⟩; exact ⟨rfl, rfl⟩
    · rintro ⟨h1, h2⟩; exact ⟨hp.inj _ r1 _ hx h1, hp.inj _ r2 _ hy h2⟩
  intro x y
  rw [hedges]
  by_cases hx : x < b.mesh.vertices.length
  · by_cases hy : y < b.mesh.vertices.length
    · rw [hcount x y hx hy, hcount y x hy hx]
      exact ⟨h.closed _ _, h.once _ _⟩
    · rw [List.count_eq_zero_of_not_mem (fun hm => hy (hrng _ hm).2), List.count_eq_zero_of_not_mem (fun hm => hy (hrng _ hm).1)]
      omega
  · rw [List.count_eq_zero_of_not_mem (fun hm => hx (hrng _ hm).1), List.count_eq_zero_of_not_mem (fun hm => hx (hrng _ hm).2)]
    omega

end Verif.Slicer
