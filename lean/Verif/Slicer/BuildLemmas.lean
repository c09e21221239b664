import Verif.Slicer.WaterLemmas
import Mathlib.Data.List.GetD

/-! # Lemmas on building meshes -/

namespace Verif.Slicer

/-- What holds of a mesh under construction. -/
structure BOk (b : Builder) : Prop where
  tab : ∀ e ∈ b.table, e.2 < b.mesh.vertices.length
  rng : ∀ (f : Nat) (fc : Face), b.mesh.faces[f]? = some fc →
    fc.v0 < b.mesh.vertices.length ∧ fc.v1 < b.mesh.vertices.length ∧ fc.v2 < b.mesh.vertices.length
  distinct : ∀ (f : Nat) (fc : Face), b.mesh.faces[f]? = some fc → fc.v0 ≠ fc.v1 ∧ fc.v1 ≠ fc.v2 ∧ fc.v0 ≠ fc.v2
  conn : ∀ v f : Nat, f ∈ (b.mesh.vert v).faces ↔ ∃ fc, b.mesh.faces[f]? = some fc ∧ fc.has v = true
  nodup : ∀ v, (b.mesh.vert v).faces.Nodup

theorem vert_append (m : Mesh) (x : Vertex) (v : Nat) :
    Mesh.vert { m with vertices := m.vertices ++ [x] } v = if v = m.vertices.length then x else m.vert v := by
  unfold Mesh.vert
  rw [List.getD_eq_getElem?_getD, List.getD_eq_getElem?_getD]
  dsimp only
  rw [List.getElem?_append]
  split
  · rw [if_neg (by omega)]
  · by_cases h : v = m.vertices.length
    · subst h; simp
    · rw [if_neg h]
      have h1 : m.vertices[v]? = none := List.getElem?_eq_none (by omega)
      have h2 : [x][v - m.vertices.length]? = none := List.getElem?_eq_none (by simp; omega)
      rw [h1, h2]

theorem findVertex_spec (hash : P3 → Nat) (b : Builder) (h : BOk b) (v : P3) :
    BOk (findVertex hash b v).1 ∧ (findVertex hash b v).2 < (findVertex hash b v).1.mesh.vertices.length ∧
    b.mesh.vertices.length ≤ (findVertex hash b v).1.mesh.vertices.length ∧ (findVertex hash b v).1.mesh.faces = b.mesh.faces ∧
    ∀ u < b.mesh.vertices.length, (findVertex hash b v).1.mesh.vert u = b.mesh.vert u := by
  unfold findVertex
  split
  · rename_i e he
    exact ⟨h, h.tab e (List.mem_of_find?_eq_some he), le_rfl, rfl, fun _ _ => rfl⟩
  · refine ⟨⟨?_, ?_, h.distinct, ?_, ?_⟩, ?_, ?_, rfl, ?_⟩
    · intro e he
      simp only [List.mem_append, List.mem_singleton] at he
      simp only [List.length_append, List.length_singleton]
      rcases he with he | rfl
      · have := h.tab e he; omega
      · simp
    · intro f fc hf
      have := h.rng f fc hf
      simp only [List.length_append, List.length_singleton]
      omega
    · intro u f
      rw [vert_append]
      by_cases hu : u = b.mesh.vertices.length
      · rw [if_pos hu]
        constructor
        · intro hf; simp at hf
        · rintro ⟨fc, h1, h2⟩
          have := h.rng f fc h1
          unfold Face.has at h2
          simp only [Bool.or_eq_true, beq_iff_eq] at h2
          omega
      · rw [if_neg hu]; exact h.conn u f
    · intro u
      rw [vert_append]
      split
      · simp
      · exact h.nodup u
    · simp
    · simp
    · intro u hu
      rw [vert_append, if_neg (by omega)]

theorem connect_vert (f : Nat) (m : Mesh) (v : Nat) (hv : v < m.vertices.length) (u : Nat) :
    (connect f m v).vert u = if u = v then { m.vert u with faces := (m.vert u).faces ++ [f] } else m.vert u := by
  unfold connect Mesh.vert
  rw [List.getD_eq_getElem?_getD, List.getD_eq_getElem?_getD]
  dsimp only
  rw [List.getElem?_modify]
  by_cases h : u = v
  · subst h
    rw [if_pos rfl, List.getElem?_eq_getElem hv]
    simp
  · rw [if_neg h]
    have hvu : ¬ v = u := fun e => h e.symm
    simp [hvu]

theorem connect_len (f : Nat) (m : Mesh) (v : Nat) : (connect f m v).vertices.length = m.vertices.length ∧ (connect f m v).faces = m.faces := by
  unfold connect; simp

/-- The last part of `addFace`. -/
def attach (b : Builder) (i0 i1 i2 : Nat) : Builder :=
  let f := b.mesh.faces.length
  let m := { b.mesh with faces := b.mesh.faces ++ [{ v0 := i0, v1 := i1, v2 := i2 }] }
  { b with mesh := connect f (connect f (connect f m i0) i1) i2 }

theorem attach_spec (b : Builder) (h : BOk b) (i0 i1 i2 : Nat) (h0 : i0 < b.mesh.vertices.length) (h1 : i1 < b.mesh.vertices.length)
    (h2 : i2 < b.mesh.vertices.length) (hd : ¬ (i0 = i1 ∨ i1 = i2 ∨ i0 = i2)) :
    BOk (attach b i0 i1 i2) ∧ (attach b i0 i1 i2).mesh.faces = b.mesh.faces ++ [{ v0 := i0, v1 := i1, v2 := i2 }] ∧
    (attach b i0 i1 i2).mesh.vertices.length = b.mesh.vertices.length ∧ (attach b i0 i1 i2).table = b.table ∧
    ∀ u, ((attach b i0 i1 i2).mesh.vert u).p = (b.mesh.vert u).p := by
  push Not at hd
  obtain ⟨d1, d2, d3⟩ := hd
  set m : Mesh := { b.mesh with faces := b.mesh.faces ++ [{ v0 := i0, v1 := i1, v2 := i2 }] } with hm
  set f := b.mesh.faces.length with hf
  have hlen : (attach b i0 i1 i2).mesh.vertices.length = b.mesh.vertices.length := by
    show (connect f (connect f (connect f m i0) i1) i2).vertices.length = _
    rw [(connect_len _ _ _).1, (connect_len _ _ _).1, (connect_len _ _ _).1]
  have hfaces : (attach b i0 i1 i2).mesh.faces = b.mesh.faces ++ [{ v0 := i0, v1 := i1, v2 := i2 }] := by
    show (connect f (connect f (connect f m i0) i1) i2).faces = _
    rw [(connect_len _ _ _).2, (connect_len _ _ _).2, (connect_len _ _ _).2]
  have hvert : ∀ u, (attach b i0 i1 i2).mesh.vert u =
      if u = i0 ∨ u = i1 ∨ u = i2 then { b.mesh.vert u with faces := (b.mesh.vert u).faces ++ [f] } else b.mesh.vert u := by
    intro u
    show (connect f (connect f (connect f m i0) i1) i2).vert u = _
    have hmv : m.vert u = b.mesh.vert u := rfl
    rw [connect_vert _ _ _ (by rw [(connect_len _ _ _).1, (connect_len _ _ _).1]; exact h2),
      connect_vert _ _ _ (by rw [(connect_len _ _ _).1]; exact h1), connect_vert _ _ _ (by exact h0), hmv]
    by_cases e0 : u = i0
    · subst e0; simp [d1, d3]
    · by_cases e1 : u = i1
      · subst e1; simp [d2, e0]
      · by_cases e2 : u = i2
        · subst e2; simp [e0, e1]
        · simp [e0, e1, e2]
  have hget : ∀ (g : Nat) (fc : Face), (attach b i0 i1 i2).mesh.faces[g]? = some fc ↔
      b.mesh.faces[g]? = some fc ∨ (g = f ∧ fc = { v0 := i0, v1 := i1, v2 := i2 }) := by
    intro g fc
    rw [hfaces, List.getElem?_append]
    split
    · rename_i hg
      constructor
      · exact Or.inl
      · rintro (h | ⟨h, _⟩)
        · exact h
        · omega
    · rename_i hg
      have hnone : b.mesh.faces[g]? = none := List.getElem?_eq_none (by omega)
      rw [hnone]
      by_cases e : g = f
      · rw [e, hf, Nat.sub_self]; simp [eq_comm]
      · have : [({ v0 := i0, v1 := i1, v2 := i2 } : Face)][g - b.mesh.faces.length]? = none :=
          List.getElem?_eq_none (by simp; omega)
        rw [this]; simp [e]
  have hnot : ∀ u, f ∉ (b.mesh.vert u).faces := by
    intro u hu
    obtain ⟨fc, hfc, _⟩ := (h.conn u f).1 hu
    have := (List.getElem?_eq_some_iff.1 hfc).1
    omega
  refine ⟨⟨?_, ?_, ?_, ?_, ?_⟩, hfaces, hlen, rfl, ?_⟩
  · intro e he; rw [hlen]; exact h.tab e he
  · intro g fc hg
    rw [hlen]
    rcases (hget g fc).1 hg with hg | ⟨_, rfl⟩
    · exact h.rng g fc hg
    · exact ⟨h0, h1, h2⟩
  · intro g fc hg
    rcases (hget g fc).1 hg with hg | ⟨_, rfl⟩
    · exact h.distinct g fc hg
    · exact ⟨d1, d2, d3⟩
  · intro u g
    rw [hvert u]
    have hsplit : (∃ fc, (attach b i0 i1 i2).mesh.faces[g]? = some fc ∧ fc.has u = true) ↔
        (∃ fc, b.mesh.faces[g]? = some fc ∧ fc.has u = true) ∨ (g = f ∧ (u = i0 ∨ u = i1 ∨ u = i2)) := by
      have hh : (({ v0 := i0, v1 := i1, v2 := i2 } : Face).has u = true) ↔ (u = i0 ∨ u = i1 ∨ u = i2) := by
        unfold Face.has; simp only [Bool.or_eq_true, beq_iff_eq]; omega
      constructor
      · rintro ⟨fc, hg, hu⟩
        rcases (hget g fc).1 hg with hg | ⟨hgf, rfl⟩
        · exact Or.inl ⟨fc, hg, hu⟩
        · exact Or.inr ⟨hgf, hh.1 hu⟩
      · rintro (⟨fc, hg, hu⟩ | ⟨hg, hu⟩)
        · exact ⟨fc, (hget g fc).2 (Or.inl hg), hu⟩
        · exact ⟨_, (hget g _).2 (Or.inr ⟨hg, rfl⟩), hh.2 hu⟩
    rw [hsplit, ← h.conn]
    split
    · rename_i hu; simp [hu]
    · rename_i hu; simp [hu]
  · intro u
    rw [hvert u]
    split
    · rw [List.nodup_append]
      refine ⟨h.nodup u, by simp, ?_⟩
      intro a ha b' hb'
      rw [List.mem_singleton] at hb'
      subst hb'
      rintro rfl
      exact hnot u ha
    · exact h.nodup u
  · intro u
    rw [hvert u]
    split <;> rfl

theorem addFace_eq (hash : P3 → Nat) (b : Builder) (t : P3 × P3 × P3) :
    addFace hash b t =
      (let r0 := findVertex hash b t.1
       let r1 := findVertex hash r0.1 t.2.1
       let r2 := findVertex hash r1.1 t.2.2
       if r0.2 = r1.2 ∨ r1.2 = r2.2 ∨ r0.2 = r2.2 then r2.1 else attach r2.1 r0.2 r1.2 r2.2) := rfl

theorem addFace_ok (hash : P3 → Nat) (b : Builder) (h : BOk b) (t : P3 × P3 × P3) : BOk (addFace hash b t) := by
  rw [addFace_eq]
  obtain ⟨a1, a2, a3, _⟩ := findVertex_spec hash b h t.1
  obtain ⟨b1, b2, b3, _⟩ := findVertex_spec hash _ a1 t.2.1
  obtain ⟨c1, c2, c3, _⟩ := findVertex_spec hash _ b1 t.2.2
  dsimp only
  split
  · exact c1
  · rename_i hd
    exact (attach_spec _ c1 _ _ _ (by omega) (by omega) c2 hd).1

theorem build_ok (hash : P3 → Nat) (ts : List (P3 × P3 × P3)) : BOk (ts.foldl (addFace hash) ⟨⟨[], []⟩, []⟩) := by
  have key : ∀ b, BOk b → BOk (ts.foldl (addFace hash) b) := by
    induction ts with
    | nil => intro b h; exact h
    | cons t ts ih => intro b h; exact ih _ (addFace_ok hash b h t)
  refine key _ ⟨by simp, by simp, by simp, ?_, ?_⟩
  · intro v f; simp [Mesh.vert, default, instInhabitedVertex.default]
  · intro v; simp [Mesh.vert, default, instInhabitedVertex.default]

/-! ## Finishing -/

theorem finish_faces (pick : List Nat → Option Nat) (m : Mesh) (f : Nat) (fc : Face) :
    (finish pick m).faces[f]? = some fc ↔ ∃ fc', m.faces[f]? = some fc' ∧ fc = finishFace pick m f fc' := by
  unfold finish
  dsimp only
  rw [List.getElem?_mapIdx]
  rw [Option.map_eq_some_iff]
  constructor
  · rintro ⟨a, h1, h2⟩; exact ⟨a, h1, h2.symm⟩
  · rintro ⟨a, h1, h2⟩; exact ⟨a, h1, h2.symm⟩

theorem finish_neighbour (pick : List Nat → Option Nat) (m : Mesh) (a b f : Nat) :
    neighbour pick (finish pick m) a b f = neighbour pick m a b f := by
  have hc : candidates (finish pick m) a b f = candidates m a b f := by
    unfold candidates
    have hv : (finish pick m).vert a = m.vert a := rfl
    rw [hv]
    apply List.filter_congr
    intro g _
    congr 1
    rw [List.getD_eq_getElem?_getD, List.getD_eq_getElem?_getD]
    cases hg : m.faces[g]? with
    | none =>
      have : (finish pick m).faces[g]? = none := by
        unfold finish; dsimp only; rw [List.getElem?_mapIdx, hg]; rfl
      rw [this]
    | some fc =>
      rw [(finish_faces pick m g _).2 ⟨fc, hg, rfl⟩]
      rfl
  unfold neighbour
  rw [hc]

theorem finish_ok (pick : List Nat → Option Nat) (b : Builder) (h : BOk b) : MeshOk pick (finish pick b.mesh) := by
  refine ⟨?_, ?_, h.nodup, ?_⟩
  · intro f fc hf
    obtain ⟨fc', h1, rfl⟩ := (finish_faces pick _ f fc).1 hf
    exact h.distinct f fc' h1
  · intro v f
    have hv : (finish pick b.mesh).vert v = b.mesh.vert v := rfl
    rw [hv, h.conn]
    constructor
    · rintro ⟨fc, h1, h2⟩
      exact ⟨_, (finish_faces pick _ f _).2 ⟨fc, h1, rfl⟩, h2⟩
    · rintro ⟨fc, h1, h2⟩
      obtain ⟨fc', h3, rfl⟩ := (finish_faces pick _ f fc).1 h1
      exact ⟨fc', h3, h2⟩
  · intro f fc hf
    obtain ⟨fc', h1, rfl⟩ := (finish_faces pick _ f fc).1 hf
    simp only [finish_neighbour]
    exact ⟨rfl, rfl, rfl⟩

theorem buildMesh_ok (hash : P3 → Nat) (pick : List Nat → Option Nat) (ts : List (P3 × P3 × P3)) :
    MeshOk pick (buildMesh hash pick ts) := finish_ok pick _ (build_ok hash ts)

end Verif.Slicer
