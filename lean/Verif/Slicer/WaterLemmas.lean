import Verif.Slicer.BalanceLemmas
import Verif.Slicer.LoopLemmas

/-! # Lemmas on watertight meshes -/

namespace Verif.Slicer

/-- The tables in a mesh are as `addFace` and `finish` leave them. -/
structure MeshOk (pick : List Nat → Option Nat) (m : Mesh) : Prop where
  distinct : ∀ (f : Nat) (fc : Face), m.faces[f]? = some fc → fc.v0 ≠ fc.v1 ∧ fc.v1 ≠ fc.v2 ∧ fc.v0 ≠ fc.v2
  conn : ∀ v f : Nat, f ∈ (m.vert v).faces ↔ ∃ fc, m.faces[f]? = some fc ∧ fc.has v = true
  nodup : ∀ v, (m.vert v).faces.Nodup
  nbr : ∀ (f : Nat) (fc : Face), m.faces[f]? = some fc →
    fc.c0 = neighbour pick m fc.v0 fc.v1 f ∧ fc.c1 = neighbour pick m fc.v1 fc.v2 f ∧ fc.c2 = neighbour pick m fc.v2 fc.v0 f

variable {m : Mesh} {pick : List Nat → Option Nat}

theorem Mesh.Watertight.closed (h : m.Watertight) : m.Closed := fun a b => (h a b).1

theorem mem_edges_iff (m : Mesh) (e : Nat × Nat) : e ∈ m.edges ↔ ∃ (f : Nat) (fc : Face), m.faces[f]? = some fc ∧ e ∈ fc.edges := by
  unfold Mesh.edges
  rw [List.mem_flatMap]
  constructor
  · rintro ⟨fc, h1, h2⟩
    obtain ⟨f, hf⟩ := List.mem_iff_getElem?.1 h1
    exact ⟨f, fc, hf, h2⟩
  · rintro ⟨f, fc, h1, h2⟩
    exact ⟨fc, List.mem_of_getElem? h1, h2⟩

theorem face_unique (h : m.Watertight) {f g : Nat} {fc gc : Face} (hf : m.faces[f]? = some fc) (hg : m.faces[g]? = some gc)
    {e : Nat × Nat} (h1 : e ∈ fc.edges) (h2 : e ∈ gc.edges) : f = g := by
  have hn : m.edges.Nodup := by
    rw [List.nodup_iff_count_le_one]
    rintro ⟨a, b⟩
    exact (h a b).2
  unfold Mesh.edges at hn
  rw [List.nodup_flatMap] at hn
  have hp := List.pairwise_iff_getElem.1 hn.2
  by_contra hne
  obtain ⟨lf, ef⟩ := List.getElem?_eq_some_iff.1 hf
  obtain ⟨lg, eg⟩ := List.getElem?_eq_some_iff.1 hg
  rcases lt_or_gt_of_ne hne with hlt | hlt
  · have := hp f g lf lg hlt
    simp only [Function.onFun, ef, eg] at this
    exact this h1 h2
  · have := hp g f lg lf hlt
    simp only [Function.onFun, ef, eg] at this
    exact this h2 h1

theorem opposite (h : m.Watertight) {f : Nat} {fc : Face} (hf : m.faces[f]? = some fc) {a b : Nat} (h1 : (a, b) ∈ fc.edges) :
    ∃ (g : Nat) (gc : Face), m.faces[g]? = some gc ∧ (b, a) ∈ gc.edges := by
  have hm : (a, b) ∈ m.edges := (mem_edges_iff m _).2 ⟨f, fc, hf, h1⟩
  have := List.count_pos_iff.2 hm
  rw [(h a b).1] at this
  exact (mem_edges_iff m _).1 (List.count_pos_iff.1 this)

theorem has_of_edge {fc : Face} {a b : Nat} (h : (a, b) ∈ fc.edges) : fc.has a = true ∧ fc.has b = true := by
  unfold Face.edges at h
  unfold Face.has
  simp only [List.mem_cons, Prod.mk.injEq, List.not_mem_nil, or_false] at h
  simp only [Bool.or_eq_true, beq_iff_eq]
  rcases h with ⟨rfl, rfl⟩ | ⟨rfl, rfl⟩ | ⟨rfl, rfl⟩ <;> simp

theorem edge_of_has {fc : Face} {a b : Nat} (ha : fc.has a = true) (hb : fc.has b = true) (hab : a ≠ b) :
    (a, b) ∈ fc.edges ∨ (b, a) ∈ fc.edges := by
  unfold Face.has at ha hb
  simp only [Bool.or_eq_true, beq_iff_eq] at ha hb
  unfold Face.edges
  simp only [List.mem_cons, Prod.mk.injEq, List.not_mem_nil, or_false]
  rcases ha with (rfl | rfl) | rfl <;> rcases hb with (rfl | rfl) | rfl <;> simp_all

theorem not_both {fc : Face} (hd : fc.v0 ≠ fc.v1 ∧ fc.v1 ≠ fc.v2 ∧ fc.v0 ≠ fc.v2) {a b : Nat} (h1 : (a, b) ∈ fc.edges) :
    (b, a) ∉ fc.edges ∧ a ≠ b := by
  obtain ⟨d1, d2, d3⟩ := hd
  unfold Face.edges at *
  simp only [List.mem_cons, Prod.mk.injEq, List.not_mem_nil, or_false] at *
  omega

theorem neighbour_eq (hok : MeshOk pick m) (h : m.Watertight) {f : Nat} {fc : Face} (hf : m.faces[f]? = some fc) {a b : Nat}
    (h1 : (a, b) ∈ fc.edges) :
    ∃ (g : Nat) (gc : Face), m.faces[g]? = some gc ∧ (b, a) ∈ gc.edges ∧ neighbour pick m a b f = some g := by
  obtain ⟨g, gc, hg, h2⟩ := opposite h hf h1
  refine ⟨g, gc, hg, h2, ?_⟩
  have hd := not_both (hok.distinct _ _ hf) h1
  have hgf : g ≠ f := by
    rintro rfl
    rw [hf] at hg
    obtain rfl := Option.some.inj hg
    exact hd.1 h2
  have hmem : ∀ x, x ∈ candidates m a b f ↔ x = g := by
    intro x
    unfold candidates
    rw [List.mem_filter, hok.conn]
    simp only [Bool.and_eq_true, bne_iff_ne, ne_eq]
    constructor
    · rintro ⟨⟨xc, hx, hxa⟩, hxf, hxb⟩
      have hgd : m.faces.getD x default = xc := by simp [List.getD, hx]
      rw [hgd] at hxb
      rcases edge_of_has hxa hxb hd.2 with he | he
      · exact absurd (face_unique h hx hf he h1) hxf
      · exact face_unique h hx hg he h2
    · rintro rfl
      have hgd : m.faces.getD x default = gc := by simp [List.getD, hg]
      exact ⟨⟨gc, hg, (has_of_edge h2).2⟩, hgf, by rw [hgd]; exact (has_of_edge h2).1⟩
  have hnd : (candidates m a b f).Nodup := (hok.nodup a).filter _
  have hperm : (candidates m a b f).Perm [g] := (List.perm_ext_iff_of_nodup hnd (by simp)).2 (by simpa using hmem)
  have := List.perm_singleton.1 hperm
  unfold neighbour
  rw [this]

/-- A face goes down at one place only. -/
theorem down_eq {tol : Tolerance} {z : Int} {fc : Face} {hi lo : Nat} (h1 : (hi, lo) ∈ fc.edges) (h2 : Above m tol z hi) (h3 : ¬ Above m tol z lo) :
    fc.down m tol z = some (cutOf m tol z hi lo) := by
  unfold Face.down
  unfold Face.edges at *
  simp only [List.mem_cons, Prod.mk.injEq, List.not_mem_nil, or_false] at h1
  rcases h1 with ⟨rfl, rfl⟩ | ⟨rfl, rfl⟩ | ⟨rfl, rfl⟩
  · simp [h2, h3]
  · simp [h2, h3]
  · simp [h2, h3]

theorem down_some {tol : Tolerance} {z : Int} {fc : Face} {n : Cut} (h : fc.down m tol z = some n) :
    ∃ hi lo, (hi, lo) ∈ fc.edges ∧ Above m tol z hi ∧ ¬ Above m tol z lo ∧ n = cutOf m tol z hi lo := by
  unfold Face.down at h
  obtain ⟨⟨hi, lo⟩, h1, h2⟩ := Option.map_eq_some_iff.1 h
  have h3 := List.find?_some h1
  simp only [decide_eq_true_eq] at h3
  exact ⟨hi, lo, List.mem_of_find?_eq_some h1, h3.1, h3.2, h2.symm⟩

end Verif.Slicer
