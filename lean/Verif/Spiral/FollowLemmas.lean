import Verif.Spiral.PrintLemmas

/-! # Lemmas on the points of a spiral -/

namespace Verif.Spiral

variable {len : Pt → Pt → ℚ}

theorem size2_square (p q : Pt) : Simplify.size2 p q = square p q := rfl

theorem square_comm (p q : Pt) : square p q = square q p := by unfold square; ring

theorem tdiv_near (x n : Int) (hn : 0 < n) : |((x.tdiv n : Int) : ℚ) - (x : ℚ) / n| < 1 := by
  have hn' : (0 : ℚ) < n := by exact_mod_cast hn
  have e : (x : ℚ) = n * (x.tdiv n : Int) + (x.tmod n : Int) := by
    have := Int.mul_tdiv_add_tmod x n
    exact_mod_cast this.symm
  have h1 : |(x.tmod n : Int)| < n := by
    rw [abs_lt]
    exact ⟨by have := Int.lt_tmod_of_pos x hn; omega, Int.tmod_lt_of_pos x hn⟩
  have h2 : |((x.tmod n : Int) : ℚ)| < n := by exact_mod_cast h1
  have : ((x.tdiv n : Int) : ℚ) - (x : ℚ) / n = -((x.tmod n : Int) : ℚ) / n := by
    rw [e]; field_simp; ring
  rw [this, abs_div, abs_neg, abs_of_pos hn', div_lt_one hn']
  exact h2

theorem onSegment_foot (p a b : Pt) : IsFoot p a b (onSegment p a b) := by
  unfold onSegment
  dsimp only
  split
  · rename_i h
    refine ⟨0, by norm_num, by norm_num, by simp, by simp, Or.inl ?_⟩
    have h1 : b.1 - a.1 = 0 := by nlinarith [sq_nonneg (b.1 - a.1), sq_nonneg (b.2 - a.2)]
    have h2 : b.2 - a.2 = 0 := by nlinarith [sq_nonneg (b.1 - a.1), sq_nonneg (b.2 - a.2)]
    have h1' : (b.1 : ℚ) - a.1 = 0 := by exact_mod_cast h1
    have h2' : (b.2 : ℚ) - a.2 = 0 := by exact_mod_cast h2
    simp only [h1', h2']; ring
  · split
    · rename_i h
      exact ⟨0, by norm_num, by norm_num, by simp, by simp, Or.inr (Or.inl ⟨rfl, by exact_mod_cast h⟩)⟩
    · split
      · rename_i h
        exact ⟨1, by norm_num, by norm_num, by simp, by simp, Or.inr (Or.inr ⟨rfl, by exact_mod_cast h⟩)⟩
      · rename_i hn0 hx hn
        generalize hX : (p.1 - a.1) * (b.1 - a.1) + (p.2 - a.2) * (b.2 - a.2) = X at *
        generalize hN : (b.1 - a.1) * (b.1 - a.1) + (b.2 - a.2) * (b.2 - a.2) = N at *
        have hX' : ((p.1 : ℚ) - a.1) * (b.1 - a.1) + (p.2 - a.2) * (b.2 - a.2) = X := by exact_mod_cast hX
        have hN' : ((b.1 : ℚ) - a.1) * (b.1 - a.1) + (b.2 - a.2) * (b.2 - a.2) = N := by exact_mod_cast hN
        have hNp : 0 < N := by omega
        have hNq : (0 : ℚ) < N := by exact_mod_cast hNp
        have hXq : (0 : ℚ) < X := by exact_mod_cast (show 0 < X by omega)
        have hXN : (X : ℚ) < N := by exact_mod_cast (show X < N by omega)
        refine ⟨(X : ℚ) / N, by positivity, by rw [div_le_one hNq]; exact hXN.le, ?_, ?_, Or.inl ?_⟩
        · have := tdiv_near (X * (b.1 - a.1)) N hNp
          push_cast at this ⊢
          rw [show (a.1 : ℚ) + ((X * (b.1 - a.1)).tdiv N : Int) - (a.1 + X / N * (b.1 - a.1)) =
            ((X * (b.1 - a.1)).tdiv N : Int) - X * (b.1 - a.1) / N by ring]
          exact this
        · have := tdiv_near (X * (b.2 - a.2)) N hNp
          push_cast at this ⊢
          rw [show (a.2 : ℚ) + ((X * (b.2 - a.2)).tdiv N : Int) - (a.2 + X / N * (b.2 - a.2)) =
            ((X * (b.2 - a.2)).tdiv N : Int) - X * (b.2 - a.2) / N by ring]
          exact this
        · rw [hX', hN']
          field_simp

theorem IsFoot.onEdge {p a b x : Pt} (h : IsFoot p a b x) : OnEdge x a b := by
  obtain ⟨s, h0, h1, h2, h3, -⟩ := h
  exact ⟨s, h0, h1, h2, h3⟩

theorem edges_mem {wall : List Pt} {e : Pt × Pt} : e ∈ edges wall ↔ IsEdge wall e.1 e.2 := by
  constructor
  · intro h
    obtain ⟨i, hi⟩ := List.getElem?_of_mem h
    rw [edges, List.getElem?_zip_eq_some] at hi
    refine ⟨i, hi.1, ?_⟩
    have hlt := (List.getElem?_eq_some_iff.mp hi.1).1
    have := hi.2
    rw [List.getElem?_rotate hlt] at this
    exact this
  · rintro ⟨i, h1, h2⟩
    have hlt := (List.getElem?_eq_some_iff.mp h1).1
    apply List.mem_of_getElem? (i := i)
    rw [edges, List.getElem?_zip_eq_some]
    exact ⟨h1, by rw [List.getElem?_rotate hlt]; exact h2⟩

theorem closestLoop_best (p : Pt) (best : Pt × Nat) (i : Nat) (es : List (Pt × Pt)) :
    ((closestLoop p best i es).1 = best.1 ∨ ∃ e ∈ es, (closestLoop p best i es).1 = onSegment p e.1 e.2) ∧
      square p (closestLoop p best i es).1 ≤ square p best.1 ∧ ∀ e ∈ es, square p (closestLoop p best i es).1 ≤ square p (onSegment p e.1 e.2) := by
  induction es generalizing best i with
  | nil => exact ⟨Or.inl rfl, le_refl _, by simp⟩
  | cons e es ih =>
    by_cases hlt : Simplify.size2 p (onSegment p e.1 e.2) < Simplify.size2 p best.1
    · have he : closestLoop p best i (e :: es) = closestLoop p (onSegment p e.1 e.2, i) (i + 1) es := by
        simp only [closestLoop]; rw [if_pos hlt]
      obtain ⟨h1, h2, h3⟩ := ih (onSegment p e.1 e.2, i) (i + 1)
      rw [he]
      rw [size2_square, size2_square] at hlt
      refine ⟨Or.inr ?_, le_trans h2 hlt.le, ?_⟩
      · rcases h1 with h1 | ⟨e', he', h1⟩
        · exact ⟨e, by simp, h1⟩
        · exact ⟨e', by simp [he'], h1⟩
      · intro e' he'
        rcases List.mem_cons.mp he' with rfl | he'
        · exact h2
        · exact h3 e' he'
    · have he : closestLoop p best i (e :: es) = closestLoop p best (i + 1) es := by
        simp only [closestLoop]; rw [if_neg hlt]
      obtain ⟨h1, h2, h3⟩ := ih best (i + 1)
      rw [he]
      rw [size2_square, size2_square] at hlt
      refine ⟨?_, h2, ?_⟩
      · rcases h1 with h1 | ⟨e', he', h1⟩
        · exact Or.inl h1
        · exact Or.inr ⟨e', by simp [he'], h1⟩
      · intro e' he'
        rcases List.mem_cons.mp he' with rfl | he'
        · exact le_trans h2 (not_lt.mp hlt)
        · exact h3 e' he'

theorem closest_spec {p : Pt} {wall : List Pt} {q : Pt × Nat} (h : closest p wall = some q) :
    (∃ a b, IsEdge wall a b ∧ OnEdge q.1 a b) ∧ ∀ a b, IsEdge wall a b → ∃ y, IsFoot p a b y ∧ square q.1 p ≤ square y p := by
  cases wall with
  | nil => simp [closest] at h
  | cons a l =>
    simp only [closest, Option.some.injEq] at h
    obtain ⟨h1, -, h3⟩ := closestLoop_best p (a, 0) 0 (edges (a :: l))
    rw [h] at h1 h3
    constructor
    · rcases h1 with h1 | ⟨e, he, h1⟩
      · have hlt : 1 % (a :: l).length < (a :: l).length := Nat.mod_lt _ (by simp)
        refine ⟨a, (a :: l)[1 % (a :: l).length], ⟨0, rfl, List.getElem?_eq_getElem hlt⟩, 0, by norm_num, by norm_num, ?_, ?_⟩
        · rw [h1]; simp
        · rw [h1]; simp
      · exact ⟨e.1, e.2, edges_mem.mp he, h1 ▸ (onSegment_foot p e.1 e.2).onEdge⟩
    · intro x y hxy
      refine ⟨onSegment p x y, onSegment_foot p x y, ?_⟩
      have := h3 (x, y) (edges_mem.mpr hxy)
      rw [square_comm q.1, square_comm (onSegment p x y)]
      exact this

theorem llrint_near (x : ℚ) : |(Simplify.llrint x : ℚ) - x| ≤ 1 / 2 := by
  unfold Simplify.llrint
  have h1 := Int.floor_le x
  have h2 := Int.lt_floor_add_one x
  rw [abs_le]
  split
  · constructor <;> linarith
  · split
    · push_cast; constructor <;> linarith
    · split
      · constructor <;> linarith
      · push_cast; constructor <;> linarith

theorem smoothPoint_spec (c : Cfg) (lw : List Pt) (p : Pt) (f : ℚ) : Blends c.width lw p f (smoothPoint c lw p f) := by
  unfold smoothPoint
  cases hq : closest p lw with
  | none =>
    right
    refine ⟨rfl, ?_⟩
    rintro a b ⟨i, h1, -⟩
    cases lw with
    | nil => simp at h1
    | cons x xs => simp [closest] at hq
  | some q =>
    obtain ⟨h1, h2⟩ := closest_spec hq
    dsimp only
    split
    · rename_i hle
      left
      refine ⟨q.1, h1, ?_, h2, ?_, ?_⟩
      · rw [← size2_square]; linarith
      · have := llrint_near (((p.1 - q.1.1 : Int) : ℚ) * f)
        push_cast at this ⊢
        rw [show (q.1.1 : ℚ) + Simplify.llrint (((p.1 : ℚ) - q.1.1) * f) - (q.1.1 + f * (p.1 - q.1.1)) =
          Simplify.llrint (((p.1 : ℚ) - q.1.1) * f) - ((p.1 : ℚ) - q.1.1) * f by ring]
        exact this
      · have := llrint_near (((p.2 - q.1.2 : Int) : ℚ) * f)
        push_cast at this ⊢
        rw [show (q.1.2 : ℚ) + Simplify.llrint (((p.2 : ℚ) - q.1.2) * f) - (q.1.2 + f * (p.2 - q.1.2)) =
          Simplify.llrint (((p.2 : ℚ) - q.1.2) * f) - ((p.2 : ℚ) - q.1.2) * f by ring]
        exact this
    · rename_i hle
      right
      refine ⟨rfl, ?_⟩
      intro a b hab
      obtain ⟨y, hy, hle'⟩ := h2 a b hab
      refine ⟨y, hy, ?_⟩
      rw [size2_square] at hle
      linarith

/-- The moves along the wall, one by one. -/
theorem spiralMoves_get (c : Cfg) (lw : List Pt) (b : Bool) (speed all acc : ℚ) (p0 : Pt) (l : List Pt) (i : Nat) (p : Pt) (m : Move)
    (hp : l[i]? = some p) (hm : (spiralMoves len c lw b speed all acc p0 l)[i]? = some m) :
    m.flow = (if b then 1 / 4 + (1 - 1 / 4) * (acc + along len p0 (l.take (i + 1))) / all else 1) ∧
      (if c.smooth = true ∧ b = false ∧ i + 1 < l.length then Blends c.width lw p ((acc + along len p0 (l.take (i + 1))) / all) m.dst else m.dst = p) := by
  induction l generalizing acc p0 i with
  | nil => simp at hp
  | cons q qs ih =>
    cases i with
    | zero =>
      simp only [List.getElem?_cons_zero, Option.some.injEq] at hp
      subst hp
      simp only [spiralMoves, List.getElem?_cons_zero, Option.some.injEq] at hm
      subst hm
      refine ⟨by simp [along], ?_⟩
      simp only [List.take_succ_cons, List.take_zero, along, add_zero, zero_add, List.length_cons]
      by_cases hc : c.smooth = true ∧ b = false ∧ 1 < qs.length + 1
      · rw [if_pos hc]
        have hne : qs.isEmpty = false := by
          cases qs with
          | nil => simp at hc
          | cons x xs => rfl
        simp only [hc.1, hc.2.1, hne]
        exact smoothPoint_spec c lw q _
      · rw [if_neg hc]
        by_cases hs : c.smooth = true
        · by_cases hb : b = false
          · have : qs = [] := by
              cases qs with
              | nil => rfl
              | cons x xs => exact absurd ⟨hs, hb, by simp⟩ hc
            simp [this]
          · simp [hb]
        · simp [hs]
    | succ i =>
      simp only [List.getElem?_cons_succ] at hp
      simp only [spiralMoves, List.getElem?_cons_succ] at hm
      have := ih (acc + len p0 q) q i hp hm
      simp only [List.take_succ_cons, along, List.length_cons, Nat.add_lt_add_iff_right, ← add_assoc] at this ⊢
      exact this

end Verif.Spiral
