import Verif.Paint.BaryModel
import Verif.Paint.BarySpec
import Mathlib.Tactic.Linarith
import Mathlib.Tactic.Ring
import Mathlib.Tactic.FieldSimp
import Mathlib.Tactic.Positivity
import Mathlib.Tactic.LinearCombination
import Mathlib.Tactic.NormNum

/-! # Lemmas about texture coordinates in a triangle -/

namespace Verif.Paint

open BarySpec

/-- A point of the model as a vector. -/
def P3.vec (p : P3) : Vec := ⟨p.x, p.y, p.z⟩

/-- The denominator, which is the square of the cross product of two edges. -/
def P3.denom (p0 p1 p2 : P3) : ℤ :=
  (p1.sub p0).dot (p1.sub p0) * (p2.sub p0).dot (p2.sub p0) - (p1.sub p0).dot (p2.sub p0) * (p1.sub p0).dot (p2.sub p0)

theorem denom_cross (p0 p1 p2 : P3) : P3.denom p0 p1 p2 =
    ((p1.y - p0.y) * (p2.z - p0.z) - (p1.z - p0.z) * (p2.y - p0.y)) ^ 2 +
    ((p1.z - p0.z) * (p2.x - p0.x) - (p1.x - p0.x) * (p2.z - p0.z)) ^ 2 +
    ((p1.x - p0.x) * (p2.y - p0.y) - (p1.y - p0.y) * (p2.x - p0.x)) ^ 2 := by
  unfold P3.denom P3.dot P3.sub
  ring

theorem denom_cast (p0 p1 p2 : P3) : ((P3.denom p0 p1 p2 : ℤ) : ℚ) =
    (((p1.x : ℚ) - p0.x) * (p1.x - p0.x) + ((p1.y : ℚ) - p0.y) * (p1.y - p0.y) + ((p1.z : ℚ) - p0.z) * (p1.z - p0.z)) *
      (((p2.x : ℚ) - p0.x) * (p2.x - p0.x) + ((p2.y : ℚ) - p0.y) * (p2.y - p0.y) + ((p2.z : ℚ) - p0.z) * (p2.z - p0.z)) -
    (((p1.x : ℚ) - p0.x) * (p2.x - p0.x) + ((p1.y : ℚ) - p0.y) * (p2.y - p0.y) + ((p1.z : ℚ) - p0.z) * (p2.z - p0.z)) *
      (((p1.x : ℚ) - p0.x) * (p2.x - p0.x) + ((p1.y : ℚ) - p0.y) * (p2.y - p0.y) + ((p1.z : ℚ) - p0.z) * (p2.z - p0.z)) := by
  unfold P3.denom P3.dot P3.sub
  push_cast
  ring

theorem denom_zero (p0 p1 p2 : P3) : P3.denom p0 p1 p2 = 0 ↔ Collinear p0.vec p1.vec p2.vec := by
  rw [denom_cross]
  unfold Collinear P3.vec
  simp only
  constructor
  · intro h
    have a := sq_nonneg ((p1.y - p0.y) * (p2.z - p0.z) - (p1.z - p0.z) * (p2.y - p0.y))
    have b := sq_nonneg ((p1.z - p0.z) * (p2.x - p0.x) - (p1.x - p0.x) * (p2.z - p0.z))
    have c := sq_nonneg ((p1.x - p0.x) * (p2.y - p0.y) - (p1.y - p0.y) * (p2.x - p0.x))
    have a' := pow_eq_zero_iff (two_ne_zero) |>.1 (le_antisymm (by linarith) a)
    have b' := pow_eq_zero_iff (two_ne_zero) |>.1 (le_antisymm (by linarith) b)
    have c' := pow_eq_zero_iff (two_ne_zero) |>.1 (le_antisymm (by linarith) c)
    refine ⟨?_, ?_, ?_⟩
    · have := sub_eq_zero.1 a'; exact_mod_cast this
    · have := sub_eq_zero.1 b'; exact_mod_cast this
    · have := sub_eq_zero.1 c'; exact_mod_cast this
  · rintro ⟨h1, h2, h3⟩
    have h1' : (p1.y - p0.y) * (p2.z - p0.z) = (p1.z - p0.z) * (p2.y - p0.y) := by exact_mod_cast h1
    have h2' : (p1.z - p0.z) * (p2.x - p0.x) = (p1.x - p0.x) * (p2.z - p0.z) := by exact_mod_cast h2
    have h3' : (p1.x - p0.x) * (p2.y - p0.y) = (p1.y - p0.y) * (p2.x - p0.x) := by exact_mod_cast h3
    rw [h1', h2', h3']
    simp

/-- The coordinates, as both functions compute them. -/
def P3.bary (p p0 p1 p2 : P3) : Bary :=
  let v : ℚ := (((p2.sub p0).dot (p2.sub p0) * (p.sub p0).dot (p1.sub p0) -
    (p1.sub p0).dot (p2.sub p0) * (p.sub p0).dot (p2.sub p0) : ℤ) : ℚ) / (P3.denom p0 p1 p2 : ℤ)
  let w : ℚ := (((p1.sub p0).dot (p1.sub p0) * (p.sub p0).dot (p2.sub p0) -
    (p1.sub p0).dot (p2.sub p0) * (p.sub p0).dot (p1.sub p0) : ℤ) : ℚ) / (P3.denom p0 p1 p2 : ℤ)
  ⟨1 - v - w, v, w⟩

theorem slicer_eq (p p0 p1 p2 : P3) : baryOfSlicer p p0 p1 p2 =
    if P3.denom p0 p1 p2 = 0 then none else some (P3.bary p p0 p1 p2) := by
  have e : (((p1.sub p0).dot (p1.sub p0) : ℤ) : ℚ) * ((p2.sub p0).dot (p2.sub p0) : ℤ) -
      ((p1.sub p0).dot (p2.sub p0) : ℤ) * ((p1.sub p0).dot (p2.sub p0) : ℤ) = (P3.denom p0 p1 p2 : ℤ) := by
    unfold P3.denom; push_cast; rfl
  unfold baryOfSlicer
  simp only
  rw [e]
  by_cases h : P3.denom p0 p1 p2 = 0
  · rw [if_pos h, h]
    simp
  · rw [if_neg h, if_neg]
    · unfold P3.bary
      push_cast
      rfl
    · have : (1 : ℚ) ≤ |((P3.denom p0 p1 p2 : ℤ) : ℚ)| := by exact_mod_cast Int.one_le_abs h
      linarith

/-- The coordinates give the foot of the perpendicular from the point to the plane of the triangle. -/
theorem bary_foot (p p0 p1 p2 : P3) (h : P3.denom p0 p1 p2 ≠ 0) :
    Perpendicular p.vec (point p0.vec p1.vec p2.vec (P3.bary p p0 p1 p2).v (P3.bary p p0 p1 p2).w) p0.vec p1.vec ∧
    Perpendicular p.vec (point p0.vec p1.vec p2.vec (P3.bary p p0 p1 p2).v (P3.bary p p0 p1 p2).w) p0.vec p2.vec := by
  have hq : ((P3.denom p0 p1 p2 : ℤ) : ℚ) ≠ 0 := by exact_mod_cast h
  have hd := denom_cast p0 p1 p2
  unfold Perpendicular point P3.bary P3.vec
  simp only
  generalize ((P3.denom p0 p1 p2 : ℤ) : ℚ) = D at hq hd ⊢
  unfold P3.dot P3.sub
  push_cast
  constructor
  · field_simp
    rw [hd]
    ring
  · field_simp
    rw [hd]
    ring

/-- For points of the plane there is only one choice. -/
theorem bary_plane (p p0 p1 p2 : P3) (h : P3.denom p0 p1 p2 ≠ 0) (v w : ℚ)
    (hp : p.vec = point p0.vec p1.vec p2.vec v w) : P3.bary p p0 p1 p2 = ⟨1 - v - w, v, w⟩ := by
  have hq : ((P3.denom p0 p1 p2 : ℤ) : ℚ) ≠ 0 := by exact_mod_cast h
  unfold P3.vec point at hp
  simp only [Vec.mk.injEq] at hp
  obtain ⟨hx, hy, hz⟩ := hp
  have hd := denom_cast p0 p1 p2
  have hv : (P3.bary p p0 p1 p2).v = v := by
    unfold P3.bary
    simp only
    rw [div_eq_iff hq]
    unfold P3.dot P3.sub
    push_cast
    rw [hx, hy, hz, hd]
    ring
  have hw : (P3.bary p p0 p1 p2).w = w := by
    unfold P3.bary
    simp only
    rw [div_eq_iff hq]
    unfold P3.dot P3.sub
    push_cast
    rw [hx, hy, hz, hd]
    ring
  have hu : (P3.bary p p0 p1 p2).u = 1 - (P3.bary p p0 p1 p2).v - (P3.bary p p0 p1 p2).w := rfl
  rw [hv, hw] at hu
  generalize P3.bary p p0 p1 p2 = b at hv hw hu ⊢
  cases b
  simp only at hv hw hu
  rw [hv, hw, hu]

/-- Coordinates that differ by at most 26 millimetres. -/
def P3.Near (p q : P3) : Prop := |p.x - q.x| ≤ 26000 ∧ |p.y - q.y| ≤ 26000 ∧ |p.z - q.z| ≤ 26000

theorem mul_bound (a b m n : ℤ) (ha : |a| ≤ m) (hb : |b| ≤ n) : |a * b| ≤ m * n := by
  rw [abs_mul]
  exact mul_le_mul ha hb (abs_nonneg _) (le_trans (abs_nonneg _) ha)

theorem dot_bound (a b o : P3) (ha : a.Near o) (hb : b.Near o) :
    |(a.sub o).dot (b.sub o)| ≤ 2028000000 := by
  unfold P3.dot P3.sub
  simp only
  have h1 := abs_le.1 (mul_bound _ _ _ _ ha.1 hb.1)
  have h2 := abs_le.1 (mul_bound _ _ _ _ ha.2.1 hb.2.1)
  have h3 := abs_le.1 (mul_bound _ _ _ _ ha.2.2 hb.2.2)
  rw [abs_le]
  constructor <;> linarith

theorem mulSub_ok (a b c d : ℤ) (ha : |a| ≤ 2028000000) (hb : |b| ≤ 2028000000) (hc : |c| ≤ 2028000000)
    (hd : |d| ≤ 2028000000) : mulSub a b c d = some (a * b - c * d) := by
  have h1 := abs_le.1 (mul_bound _ _ _ _ ha hb)
  have h2 := abs_le.1 (mul_bound _ _ _ _ hc hd)
  unfold mulSub int64
  rw [if_pos ⟨by linarith, by linarith⟩, Option.bind_some, if_pos ⟨by linarith, by linarith⟩, Option.bind_some,
    if_pos ⟨by linarith, by linarith⟩]

theorem splitter_eq (p p0 p1 p2 : P3) (h1 : p1.Near p0) (h2 : p2.Near p0) (h : p.Near p0) :
    baryOfSplitter p p0 p1 p2 = some (if P3.denom p0 p1 p2 = 0 then none else some (P3.bary p p0 p1 p2)) := by
  unfold baryOfSplitter
  simp only
  rw [mulSub_ok _ _ _ _ (dot_bound _ _ _ h1 h1) (dot_bound _ _ _ h2 h2) (dot_bound _ _ _ h1 h2) (dot_bound _ _ _ h1 h2),
    Option.bind_some]
  change (if P3.denom p0 p1 p2 = 0 then _ else _) = _
  by_cases hd : P3.denom p0 p1 p2 = 0
  · rw [if_pos hd, if_pos hd]
  · rw [if_neg hd, if_neg hd,
      mulSub_ok _ _ _ _ (dot_bound _ _ _ h2 h2) (dot_bound _ _ _ h h1) (dot_bound _ _ _ h1 h2) (dot_bound _ _ _ h h2),
      Option.bind_some,
      mulSub_ok _ _ _ _ (dot_bound _ _ _ h1 h1) (dot_bound _ _ _ h h2) (dot_bound _ _ _ h1 h2) (dot_bound _ _ _ h h1),
      Option.bind_some]
    rfl

end Verif.Paint
