import Verif.Parts.Model
import Mathlib.Tactic.Common

/-! # Lemmas about splitting an area into parts -/

namespace Verif.Parts

open Spec

variable {α P : Type}

/-- How many contours are around the point. -/
def count (around : α → Bool) (l : List α) : ℕ := l.countP around

/-- How many parts contain the point. -/
def cover (around : α → Bool) (l : List (List α)) : ℕ := l.countP (inPart around)

mutual

theorem zero_of (around : α → Bool) : ∀ (f : List (Node α)), Nested around f → (∀ m ∈ f, around m.contour = false) →
    count around (contours f) = 0
  | [], _, _ => rfl
  | n :: rest, h, hz => by
    rw [Nested] at h
    rw [contours, count, List.countP_append]
    have h1 := zero_of_node around n h.2.1 (hz n (by simp))
    have h2 := zero_of around rest h.2.2 (fun m hm => hz m (by simp [hm]))
    unfold count at h1 h2
    omega

theorem zero_of_node (around : α → Bool) : ∀ (n : Node α), NestedIn around n → around n.contour = false →
    count around (contoursOf n) = 0
  | .node c children, h, hz => by
    rw [NestedIn] at h
    have hz' : around c = false := hz
    have := zero_of around children h.2 (h.1 hz')
    rw [contoursOf, count, List.countP_cons, hz']
    simpa [count] using this

end

mutual

theorem process_perm : ∀ f : List (Node α), (process f).flatten.Perm (contours f)
  | [] => List.Perm.refl _
  | n :: rest => by
    rw [process, contours, List.flatten_append]
    exact (processChild_perm n).append (process_perm rest)

theorem processChild_perm : ∀ n : Node α, (processChild n).flatten.Perm (contoursOf n)
  | .node c holes => by
    rw [processChild, contoursOf, List.flatten_append]
    simp only [List.flatten_cons, List.flatten_nil, List.append_nil]
    refine List.perm_append_comm.trans ?_
    rw [List.cons_append]
    exact (List.perm_append_comm.trans (processHoles_perm holes)).cons c

theorem processHoles_perm : ∀ f : List (Node α),
    ((processHoles f).flatten ++ f.map Node.contour).Perm (contours f)
  | [] => List.Perm.refl _
  | h :: rest => by
    rw [processHoles, contours, List.flatten_append, List.map_cons]
    have h1 := processHole_perm h
    have h2 := processHoles_perm rest
    have e : ((processHole h).flatten ++ (processHoles rest).flatten ++ h.contour :: rest.map Node.contour).Perm
        ((h.contour :: (processHole h).flatten) ++ ((processHoles rest).flatten ++ rest.map Node.contour)) := by
      rw [List.cons_append, ← List.append_assoc]
      exact List.perm_middle
    exact e.trans (h1.append h2)

theorem processHole_perm : ∀ n : Node α, (n.contour :: (processHole n).flatten).Perm (contoursOf n)
  | .node c children => by
    rw [processHole, contoursOf, Node.contour]
    exact (process_perm children).cons c

end

/-- One if the point is in none of these holes. -/
def free (around : α → Bool) (f : List (Node α)) : ℕ := if f.all (fun m => !around m.contour) then 1 else 0

mutual

theorem cover_process (around : α → Bool) : ∀ f : List (Node α), Nested around f →
    cover around (process f) = count around (contours f) % 2
  | [], _ => rfl
  | n :: rest, h => by
    rw [Nested] at h
    rw [process, contours, cover, List.countP_append, count, List.countP_append]
    have h1 := cover_child around n h.2.1
    have h2 := cover_process around rest h.2.2
    unfold cover count at h1 h2
    rcases hn : around n.contour with _ | _
    · have hz := zero_of_node around n h.2.1 hn
      unfold count at hz
      omega
    · have hz := zero_of around rest h.2.2 (h.1 hn)
      unfold count at hz
      omega

theorem cover_child (around : α → Bool) : ∀ n : Node α, NestedIn around n →
    cover around (processChild n) = count around (contoursOf n) % 2
  | .node c holes, h => by
    rw [NestedIn] at h
    rw [processChild, contoursOf, cover, List.countP_append, count, List.countP_cons]
    have h1 := cover_holes around holes h.2
    unfold cover count free at h1
    have hp : inPart around (c :: holes.map Node.contour) = (around c && holes.all fun m => !around m.contour) := by
      simp [inPart, List.all_map, Function.comp_def]
    rw [List.countP_cons, List.countP_nil, hp]
    rcases hc : around c with _ | _
    · have hz := zero_of around holes h.2 (h.1 hc)
      have hall : (holes.all fun m => !around m.contour) = true := by
        rw [List.all_eq_true]
        intro m hm
        simp [h.1 hc m hm]
      unfold count at hz
      rw [hall] at h1
      simp only [if_true, Bool.false_and, Bool.false_eq_true, if_false] at h1 ⊢
      omega
    · rcases ha : (holes.all fun m => !around m.contour) with _ | _ <;> rw [ha] at h1 <;>
        simp only [if_true, Bool.true_and, Bool.false_eq_true, if_false] at h1 ⊢ <;> omega

theorem cover_holes (around : α → Bool) : ∀ f : List (Node α), Nested around f →
    cover around (processHoles f) + free around f = (1 + count around (contours f)) % 2
  | [], _ => rfl
  | n :: rest, h => by
    rw [Nested] at h
    rw [processHoles, contours, cover, List.countP_append, count, List.countP_append]
    have h1 := cover_hole around n h.2.1
    have h2 := cover_holes around rest h.2.2
    unfold cover count at h1 h2
    unfold free at h2 ⊢
    rw [List.all_cons]
    rcases hn : around n.contour with _ | _
    · have hz := zero_of_node around n h.2.1 hn
      unfold count at hz
      rw [hn] at h1
      simp only [Bool.not_false, Bool.true_and, Bool.false_eq_true, if_false] at h1 ⊢
      omega
    · have hz := zero_of around rest h.2.2 (h.1 hn)
      have hall : (rest.all fun m => !around m.contour) = true := by
        rw [List.all_eq_true]
        intro m hm
        simp [h.1 hn m hm]
      unfold count at hz
      rw [hall] at h2
      rw [hn] at h1
      simp only [Bool.not_true, Bool.false_and, Bool.false_eq_true, if_false, if_true] at h1 h2 ⊢
      omega

theorem cover_hole (around : α → Bool) : ∀ n : Node α, NestedIn around n →
    (cover around (processHole n) + if around n.contour then 1 else 0) % 2 = count around (contoursOf n) % 2 ∧
      cover around (processHole n) ≤ 1
  | .node c children, h => by
    rw [NestedIn] at h
    rw [processHole, contoursOf, Node.contour]
    have h1 := cover_process around children h.2
    unfold count at h1 ⊢
    rw [List.countP_cons, h1]
    omega

end

/-! ## Layers -/

theorem sum_flipped (p : P) : ∀ polys : List (Poly P), (∀ q ∈ polys, Simple q) →
    ((polys.map flip).map fun q => q.winding p).sum = -(polys.countP (isAround p) : ℕ)
  | [], _ => rfl
  | q :: rest, h => by
    have ih := sum_flipped p rest (fun r hr => h r (by simp [hr]))
    rw [List.map_cons, List.map_cons, List.sum_cons, ih, List.countP_cons]
    have hq := h q (by simp) p
    unfold flip
    rcases ho : q.orientation <;> rw [ho] at hq <;> rcases hq with hq | hq <;>
      generalize List.countP (isAround p) rest = k <;> simp [hq, Poly.reverse, isAround]

theorem sum_parity (p : P) : ∀ polys : List (Poly P), (∀ q ∈ polys, Simple q) →
    (polys.map fun q => q.winding p).sum % 2 = ((polys.countP (isAround p) : ℕ) : ℤ) % 2
  | [], _ => rfl
  | q :: rest, h => by
    have ih := sum_parity p rest (fun r hr => h r (by simp [hr]))
    rw [List.map_cons, List.sum_cons, List.countP_cons]
    have hq := h q (by simp) p
    rcases ho : q.orientation <;> rw [ho] at hq <;> generalize List.countP (isAround p) rest = k at * <;>
      rcases hq with hq | hq <;> simp [hq, isAround] <;> omega

mutual

theorem process_ne : ∀ f : List (Node α), ∀ l ∈ process f, l ≠ []
  | [], l, hl => by simp [process] at hl
  | n :: rest, l, hl => by
    rw [process, List.mem_append] at hl
    rcases hl with hl | hl
    · exact processChild_ne n l hl
    · exact process_ne rest l hl

theorem processChild_ne : ∀ n : Node α, ∀ l ∈ processChild n, l ≠ []
  | .node c holes, l, hl => by
    rw [processChild, List.mem_append] at hl
    rcases hl with hl | hl
    · exact processHoles_ne holes l hl
    · rw [List.mem_singleton] at hl
      simp [hl]

theorem processHoles_ne : ∀ f : List (Node α), ∀ l ∈ processHoles f, l ≠ []
  | [], l, hl => by simp [processHoles] at hl
  | h :: rest, l, hl => by
    rw [processHoles, List.mem_append] at hl
    rcases hl with hl | hl
    · exact processHole_ne h l hl
    · exact processHoles_ne rest l hl

theorem processHole_ne : ∀ n : Node α, ∀ l ∈ processHole n, l ≠ []
  | .node _ children, l, hl => by
    rw [processHole] at hl
    exact process_ne children l hl

end

theorem foldl_store (result : List (List α)) (acc : List (List α)) : result.foldl store acc = acc ++ result := by
  induction result generalizing acc with
  | nil => simp
  | cons r rest ih =>
    rw [List.foldl_cons, ih]
    unfold store
    rcases r with _ | _ <;> simp

end Verif.Parts
