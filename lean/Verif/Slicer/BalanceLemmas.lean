import Verif.Slicer.MeshSpec
import Verif.Slicer.InterpLemmas
import Mathlib.Tactic.Linarith
import Mathlib.Data.List.Perm.Basic
import Mathlib.Data.List.Count

/-! # Lemmas on the segments of a mesh -/

namespace Verif.Slicer

theorem compensate_z (m : Mesh) (tol : Tolerance) (z : Int) (v : Nat) : (compensate tol z (m.vert v).p).z = height m tol z v := by
  unfold compensate height
  split
  · rename_i h; simp only; omega
  · rfl

theorem height_above (m : Mesh) (tol : Tolerance) (z : Int) (v : Nat) : z < height m tol z v ↔ z < (m.vert v).p.z := by
  unfold height; split <;> omega

/-- A face that the range of heights excludes has no segment anyway. -/
theorem buildSegment_eq (m : Mesh) (tol : Tolerance) (z : Int) (f : Nat) (fc : Face) :
    buildSegment m tol z f fc = cases z (compensate tol z (m.vert fc.v0).p) (compensate tol z (m.vert fc.v1).p)
      (compensate tol z (m.vert fc.v2).p) f fc := by
  unfold buildSegment
  dsimp only
  split
  · rename_i h
    have e0 := compensate_z m tol z fc.v0
    have e1 := compensate_z m tol z fc.v1
    have e2 := compensate_z m tol z fc.v2
    have a0 := height_above m tol z fc.v0
    have a1 := height_above m tol z fc.v1
    have a2 := height_above m tol z fc.v2
    rw [← e0] at a0; rw [← e1] at a1; rw [← e2] at a2
    have hz : (z < (m.vert fc.v0).p.z ∧ z < (m.vert fc.v1).p.z ∧ z < (m.vert fc.v2).p.z) ∨
        ((m.vert fc.v0).p.z < z ∧ (m.vert fc.v1).p.z < z ∧ (m.vert fc.v2).p.z < z) := by
      unfold zRange at h
      dsimp only at h
      rcases h with h | h
      · left; split at h <;> split at h <;> (refine ⟨?_, ?_, ?_⟩ <;> omega)
      · right; split at h <;> split at h <;> (refine ⟨?_, ?_, ?_⟩ <;> omega)
    symm
    unfold cases
    rcases hz with ⟨h0, h1, h2⟩ | ⟨h0, h1, h2⟩
    · have := a0.2 h0; have := a1.2 h1; have := a2.2 h2
      repeat rw [if_neg (by omega)]
    · have : ¬ _ := fun h => (show ¬ (z < (m.vert fc.v0).p.z) by omega) (a0.1 h)
      have : ¬ _ := fun h => (show ¬ (z < (m.vert fc.v1).p.z) by omega) (a1.1 h)
      have : ¬ _ := fun h => (show ¬ (z < (m.vert fc.v2).p.z) by omega) (a2.1 h)
      repeat rw [if_neg (by omega)]
  · rfl

/-- The plane passes between two points, the first above it. -/
def Crossing (z : Int) (p q : P3) : Prop := z < p.z ∧ q.z ≤ z

/-- What is known of the segment of a face. -/
theorem buildSegment_spec (m : Mesh) (tol : Tolerance) (z : Int) (f : Nat) (fc : Face) (s : Segment)
    (h : buildSegment m tol z f fc = some s) :
    s.face = f ∧
    (∃ hi lo, (hi, lo) ∈ fc.edges ∧ Above m tol z hi ∧ ¬ Above m tol z lo ∧ fc.down m tol z = some (cutOf m tol z hi lo) ∧
      (s.start = cutPoint z (compensate tol z (m.vert hi).p) (compensate tol z (m.vert lo).p) ∨
       s.start = cutPoint z (compensate tol z (m.vert lo).p) (compensate tol z (m.vert hi).p))) ∧
    (∃ (hi lo : Nat) (c : Option Nat), ((lo, hi), c) ∈ fc.edges.zip [fc.c0, fc.c1, fc.c2] ∧ Above m tol z hi ∧ ¬ Above m tol z lo ∧
      fc.up m tol z = some (cutOf m tol z hi lo) ∧ s.endOther = c ∧
      s.endVertex = (if height m tol z lo = z then some lo else none) ∧
      (s.stop = cutPoint z (compensate tol z (m.vert hi).p) (compensate tol z (m.vert lo).p) ∨
       s.stop = cutPoint z (compensate tol z (m.vert lo).p) (compensate tol z (m.vert hi).p))) := by
  rw [buildSegment_eq] at h
  unfold cases at h
  simp only [compensate_z] at h
  have key : ∀ v, (z < height m tol z v) = Above m tol z v := fun _ => rfl
  have key' : ∀ v, (height m tol z v ≤ z) = ¬ Above m tol z v := fun v => by unfold Above; simp
  have hn : ∀ v, height m tol z v < z → ¬ Above m tol z v := fun v => by unfold Above; omega
  unfold Face.down Face.up Face.edges
  have fin : ∀ v w, height m tol z v < z → (if height m tol z v = z then some w else none) = (none : Option Nat) := by
    intro v w hv; rw [if_neg (by omega)]
  split at h
  · rename_i hc; obtain ⟨h0, h1, h2⟩ := hc
    obtain rfl := (Option.some.inj h).symm
    have n0 := hn _ h0
    refine ⟨rfl, ⟨fc.v2, fc.v0, by simp, h2, n0, ?_, Or.inr rfl⟩, ⟨fc.v1, fc.v0, fc.c0, by simp, h1, n0, ?_, rfl, (fin _ _ h0).symm, Or.inr rfl⟩⟩
    · change Above m tol z _ at h1 h2; simp [n0, h1, h2]
    · change Above m tol z _ at h1 h2; simp [n0, h1]
  · split at h
    · rename_i hc; obtain ⟨h0, h1, h2⟩ := hc
      obtain rfl := (Option.some.inj h).symm
      rw [key'] at h1 h2
      refine ⟨rfl, ⟨fc.v0, fc.v1, by simp, h0, h1, ?_, Or.inl rfl⟩, ⟨fc.v0, fc.v2, fc.c2, by simp, h0, h2, ?_, rfl, rfl, Or.inl rfl⟩⟩
      · change Above m tol z _ at h0; simp [h0, h1]
      · change Above m tol z _ at h0; simp [h0, h1, h2]
    · split at h
      · rename_i hc; obtain ⟨h1, h0, h2⟩ := hc
        obtain rfl := (Option.some.inj h).symm
        have n1 := hn _ h1
        refine ⟨rfl, ⟨fc.v0, fc.v1, by simp, h0, n1, ?_, Or.inr rfl⟩, ⟨fc.v2, fc.v1, fc.c1, by simp, h2, n1, ?_, rfl, (fin _ _ h1).symm, Or.inr rfl⟩⟩
        · change Above m tol z _ at h0 h2; simp [n1, h0]
        · change Above m tol z _ at h0 h2; simp [n1, h0, h2]
      · split at h
        · rename_i hc; obtain ⟨h1, h0, h2⟩ := hc
          obtain rfl := (Option.some.inj h).symm
          rw [key'] at h0 h2
          refine ⟨rfl, ⟨fc.v1, fc.v2, by simp, h1, h2, ?_, Or.inl rfl⟩, ⟨fc.v1, fc.v0, fc.c0, by simp, h1, h0, ?_, rfl, rfl, Or.inl rfl⟩⟩
          · change Above m tol z _ at h1; simp [h0, h1, h2]
          · change Above m tol z _ at h1; simp [h0, h1]
        · split at h
          · rename_i hc; obtain ⟨h2, h1, h0⟩ := hc
            obtain rfl := (Option.some.inj h).symm
            have n2 := hn _ h2
            refine ⟨rfl, ⟨fc.v1, fc.v2, by simp, h1, n2, ?_, Or.inr rfl⟩, ⟨fc.v0, fc.v2, fc.c2, by simp, h0, n2, ?_, rfl, (fin _ _ h2).symm, Or.inr rfl⟩⟩
            · change Above m tol z _ at h0 h1; simp [n2, h0, h1]
            · change Above m tol z _ at h0 h1; simp [n2, h0, h1]
          · split at h
            · rename_i hc; obtain ⟨h2, h1, h0⟩ := hc
              obtain rfl := (Option.some.inj h).symm
              rw [key'] at h0 h1
              refine ⟨rfl, ⟨fc.v2, fc.v0, by simp, h2, h0, ?_, Or.inl rfl⟩, ⟨fc.v2, fc.v1, fc.c1, by simp, h2, h1, ?_, rfl, rfl, Or.inl rfl⟩⟩
              · change Above m tol z _ at h2; simp [h0, h1, h2]
              · change Above m tol z _ at h2; simp [h0, h1, h2]
            · simp at h

/-- A face has a segment exactly if it passes through the plane. -/
theorem buildSegment_isSome (m : Mesh) (tol : Tolerance) (z : Int) (f : Nat) (fc : Face) :
    (buildSegment m tol z f fc).isSome = true ↔ fc.Crosses m tol z := by
  rw [buildSegment_eq]
  unfold cases Face.Crosses Face.edges Face.has
  simp only [compensate_z]
  generalize height m tol z = h
  generalize fc.v0 = a; generalize fc.v1 = b; generalize fc.v2 = c
  rcases lt_trichotomy (h a) z with ha | ha | ha <;> rcases lt_trichotomy (h b) z with hb | hb | hb <;>
    rcases lt_trichotomy (h c) z with hc | hc | hc <;>
    simp [ha, hb, hc, not_lt_of_gt, ne_of_lt, ne_of_gt, le_of_lt, not_le_of_gt]

/-- The directed edges of a list on which the way goes down at `n`. -/
def downs (m : Mesh) (tol : Tolerance) (z : Int) (n : Cut) (es : List (Nat × Nat)) : Nat :=
  es.countP fun e => Above m tol z e.1 ∧ ¬ Above m tol z e.2 ∧ cutOf m tol z e.1 e.2 = n

/-- The directed edges of a list on which the way goes up at `n`. -/
def ups (m : Mesh) (tol : Tolerance) (z : Int) (n : Cut) (es : List (Nat × Nat)) : Nat :=
  es.countP fun e => ¬ Above m tol z e.1 ∧ Above m tol z e.2 ∧ cutOf m tol z e.2 e.1 = n

/-- One if the face has a segment and the condition holds. -/
def one (o : Option Segment) (p : Prop) [Decidable p] : Nat := if o.isSome = true ∧ p then 1 else 0

set_option maxHeartbeats 800000 in
theorem face_balance (m : Mesh) (tol : Tolerance) (z : Int) (f : Nat) (fc : Face) (n : Cut) :
    downs m tol z n fc.edges + one (buildSegment m tol z f fc) (fc.up m tol z = some n) =
    ups m tol z n fc.edges + one (buildSegment m tol z f fc) (fc.down m tol z = some n) := by
  rw [buildSegment_eq]
  unfold cases Face.down Face.up Face.edges downs ups one
  simp only [compensate_z]
  generalize hh : height m tol z = h
  have hA : ∀ v, Above m tol z v ↔ z < h v := by intro v; unfold Above; rw [hh]
  have hC : ∀ a b, cutOf m tol z a b = if h b = z then .vertex b else .edge a b := by intro a b; unfold cutOf; rw [hh]
  generalize fc.v0 = a; generalize fc.v1 = b; generalize fc.v2 = c
  simp only [hA, hC]
  rcases lt_trichotomy (h a) z with ha | ha | ha <;> rcases lt_trichotomy (h b) z with hb | hb | hb <;>
    rcases lt_trichotomy (h c) z with hc | hc | hc <;>
    simp [List.countP_cons, ha, hb, hc, not_lt_of_gt, ne_of_lt, ne_of_gt, le_of_lt, not_le_of_gt] <;> omega

theorem downs_eq_ups_of_closed (m : Mesh) (tol : Tolerance) (z : Int) (n : Cut) (h : m.Closed) :
    downs m tol z n m.edges = ups m tol z n m.edges := by
  have hp : m.edges.Perm (m.edges.map Prod.swap) := by
    rw [List.perm_iff_count]
    rintro ⟨a, b⟩
    rw [h a b]
    have : (a, b) = Prod.swap (b, a) := rfl
    rw [this, List.count_map_of_injective _ _ Prod.swap_injective]
  unfold downs
  rw [hp.countP_eq, List.countP_map]
  unfold ups
  congr 1
  funext e
  simp only [Function.comp, Prod.fst_swap, Prod.snd_swap, decide_eq_decide]
  tauto

theorem segmentsFrom_balance (m : Mesh) (tol : Tolerance) (z : Int) (n : Cut) (fcs : List Face) (pre : List Face) (hm : m.faces = pre ++ fcs) :
    downs m tol z n (fcs.flatMap Face.edges) + (segmentsFrom m tol z pre.length fcs).countP (fun s => stopCut m tol z s = some n) =
    ups m tol z n (fcs.flatMap Face.edges) + (segmentsFrom m tol z pre.length fcs).countP (fun s => startCut m tol z s = some n) := by
  induction fcs generalizing pre with
  | nil => rfl
  | cons fc fcs ih =>
    have hf : m.faces[pre.length]? = some fc := by rw [hm]; simp
    have ih := ih (pre ++ [fc]) (by simp [hm])
    rw [List.length_append, List.length_singleton] at ih
    have hb := face_balance m tol z pre.length fc n
    have hd : downs m tol z n ((fc :: fcs).flatMap Face.edges) = downs m tol z n fc.edges + downs m tol z n (fcs.flatMap Face.edges) := by
      unfold downs; rw [List.flatMap_cons, List.countP_append]
    have hu : ups m tol z n ((fc :: fcs).flatMap Face.edges) = ups m tol z n fc.edges + ups m tol z n (fcs.flatMap Face.edges) := by
      unfold ups; rw [List.flatMap_cons, List.countP_append]
    rw [hd, hu]
    unfold segmentsFrom
    cases hs : buildSegment m tol z pre.length fc with
    | none =>
      rw [hs] at hb
      simp only [one, Option.isSome_none, Bool.false_eq_true, false_and, if_false] at hb
      simp only
      omega
    | some s =>
      rw [hs] at hb
      have hface := (buildSegment_spec m tol z _ _ _ hs).1
      have h1 : startCut m tol z s = fc.down m tol z := by unfold startCut; rw [hface, hf]; rfl
      have h2 : stopCut m tol z s = fc.up m tol z := by unfold stopCut; rw [hface, hf]; rfl
      simp only [one, Option.isSome_some, true_and] at hb
      simp only [List.countP_cons, h1, h2, decide_eq_true_eq]
      omega

/-- The segments, seen from the faces. -/
theorem mem_segmentsFrom (m : Mesh) (tol : Tolerance) (z : Int) (s : Segment) (fcs : List Face) (k : Nat) :
    s ∈ segmentsFrom m tol z k fcs ↔ ∃ i fc, fcs[i]? = some fc ∧ buildSegment m tol z (k + i) fc = some s := by
  induction fcs generalizing k with
  | nil => simp [segmentsFrom]
  | cons fc fcs ih =>
    unfold segmentsFrom
    have hsplit : (∃ i fc', (fc :: fcs)[i]? = some fc' ∧ buildSegment m tol z (k + i) fc' = some s) ↔
        buildSegment m tol z k fc = some s ∨ ∃ i fc', fcs[i]? = some fc' ∧ buildSegment m tol z (k + 1 + i) fc' = some s := by
      constructor
      · rintro ⟨i, fc', h1, h2⟩
        cases i with
        | zero => simp at h1; subst h1; exact Or.inl h2
        | succ i => right; refine ⟨i, fc', by simpa using h1, ?_⟩; rw [← h2]; congr 1; omega
      · rintro (h | ⟨i, fc', h1, h2⟩)
        · exact ⟨0, fc, by simp, h⟩
        · refine ⟨i + 1, fc', by simpa using h1, ?_⟩; rw [← h2]; congr 1; omega
    rw [hsplit]
    cases hs : buildSegment m tol z k fc with
    | none => simp only [ih]; simp
    | some t => simp only [List.mem_cons, ih, Option.some.injEq]; constructor <;> (rintro (h | h) <;> [left; right] <;> first | exact h.symm | exact h)

theorem mem_buildSegments (m : Mesh) (tol : Tolerance) (z : Int) (s : Segment) :
    s ∈ buildSegments m tol z ↔ ∃ f fc, m.faces[f]? = some fc ∧ buildSegment m tol z f fc = some s := by
  unfold buildSegments
  rw [mem_segmentsFrom]
  simp

/-- No face has two segments. -/
theorem segmentsFrom_nodup (m : Mesh) (tol : Tolerance) (z : Int) (fcs : List Face) (k : Nat) :
    ((segmentsFrom m tol z k fcs).map Segment.face).Nodup ∧ ∀ s ∈ segmentsFrom m tol z k fcs, k ≤ s.face := by
  induction fcs generalizing k with
  | nil => simp [segmentsFrom]
  | cons fc fcs ih =>
    unfold segmentsFrom
    have ih := ih (k + 1)
    cases hs : buildSegment m tol z k fc with
    | none => exact ⟨ih.1, fun s h => by have := ih.2 s h; omega⟩
    | some t =>
      have hface := (buildSegment_spec m tol z _ _ _ hs).1
      refine ⟨?_, ?_⟩
      · simp only [List.map_cons, List.nodup_cons]
        refine ⟨?_, ih.1⟩
        intro hm
        obtain ⟨s, h1, h2⟩ := List.mem_map.1 hm
        have := ih.2 s h1
        omega
      · intro s h
        rcases List.mem_cons.1 h with rfl | h
        · omega
        · have := ih.2 s h; omega

end Verif.Slicer
