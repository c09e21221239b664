import Verif.Lines.ScanLemmas

/-! # What the lines cover -/

namespace Verif.Lines

/-- The number of pairs that contain `y`. -/
def cov (l : List (Int × Int)) (y : ℚ) : Nat := l.countP fun s => decide ((s.1 : ℚ) < y ∧ y < s.2)

def below (l : List Int) (y : ℚ) : Nat := l.countP fun a : Int => decide ((a : ℚ) < y)

theorem pairUp_above (w : Int) (y : ℚ) : ∀ l : List Int, (∀ a ∈ l, y < a) → cov (pairUp w l) y = 0
  | [], _ => rfl
  | [_], _ => rfl
  | a :: b :: rest, h => by
    have h1 := pairUp_above w y rest (fun x hx => h x (by simp [hx]))
    unfold pairUp
    split
    · exact h1
    · unfold cov at h1 ⊢
      rw [List.countP_cons, h1, if_neg]
      have := h a (by simp)
      simp only [decide_eq_true_eq, not_and, not_lt]
      intro h'
      exact absurd h' (not_lt.mpr this.le)

theorem below_above {y : ℚ} {l : List Int} (h : ∀ a ∈ l, y < a) : below l y = 0 := by
  unfold below
  rw [List.countP_eq_zero]
  intro a ha
  simpa using (h a ha).le

/-- Pairs of sorted crossings contain a point if and only if the number of crossings below it is odd. -/
theorem pairUp_cov (w : Int) {y : ℚ} : ∀ l : List Int, l.Pairwise (· ≤ ·) → Even l.length → (∀ a ∈ l, (a : ℚ) ≠ y) →
    cov (pairUp w l) y ≤ 1 ∧ (cov (pairUp w l) y = 1 → Odd (below l y)) ∧
    (Odd (below l y) → cov (pairUp w l) y = 1 ∨ ∃ a ∈ l, ∃ b ∈ l, (a : ℚ) < y ∧ y < b ∧ b - a < w.tdiv 5)
  | [], _, _, _ => by simp [pairUp, cov, below]
  | [_], _, h, _ => by simp at h
  | a :: b :: rest, hs, he, hy => by
    rw [List.pairwise_cons, List.pairwise_cons] at hs
    obtain ⟨h1, h2, h3⟩ := hs
    have he' : Even rest.length := by
      simp only [List.length_cons] at he
      rw [add_assoc, Nat.even_add] at he
      exact he.mpr (by decide)
    have ih := pairUp_cov w rest h3 he' (fun x hx => hy x (by simp [hx]))
    have hab : a ≤ b := h1 b (by simp)
    have habq : (a : ℚ) ≤ b := by exact_mod_cast hab
    have hbelow : below (a :: b :: rest) y = below rest y + (if (b : ℚ) < y then 1 else 0) + (if (a : ℚ) < y then 1 else 0) := by
      unfold below
      rw [List.countP_cons, List.countP_cons]
      simp
    rcases lt_trichotomy y a with hya | hya | hya
    · -- above the point
      have hall : ∀ x ∈ a :: b :: rest, y < x := by
        intro x hx
        rw [List.mem_cons] at hx
        rcases hx with rfl | hx
        · exact hya
        · have : (a : ℚ) ≤ x := by exact_mod_cast h1 x hx
          exact hya.trans_le this
      rw [pairUp_above w y _ hall, below_above hall]
      simp
    · exact absurd hya.symm (hy a (by simp))
    · rcases lt_trichotomy y b with hyb | hyb | hyb
      · have hrest : ∀ x ∈ rest, y < x := by
          intro x hx
          have : (b : ℚ) ≤ x := by exact_mod_cast h2 x hx
          exact hyb.trans_le this
        rw [hbelow, below_above hrest, if_neg (not_lt.mpr hyb.le), if_pos hya]
        have h0 := pairUp_above w y _ hrest
        unfold pairUp
        split
        · rename_i hw
          rw [h0]
          refine ⟨by simp, by simp, fun _ => .inr ⟨a, by simp, b, by simp, hya, hyb, hw⟩⟩
        · have : cov ((a, b) :: pairUp w rest) y = 1 := by
            unfold cov at h0 ⊢
            rw [List.countP_cons, h0, if_pos (by simp [hya, hyb])]
          rw [this]
          exact ⟨le_refl _, fun _ => by decide, fun _ => .inl rfl⟩
      · exact absurd hyb.symm (hy b (by simp))
      · rw [hbelow, if_pos hyb, if_pos hya]
        have hodd : Odd (below rest y + 1 + 1) ↔ Odd (below rest y) := by
          rw [add_assoc, Nat.odd_add]
          exact ⟨fun h => h.mpr (by decide), fun h => ⟨fun _ => by decide, fun _ => h⟩⟩
        have hc : cov (pairUp w (a :: b :: rest)) y = cov (pairUp w rest) y := by
          conv_lhs => unfold pairUp
          split
          · rfl
          · unfold cov
            rw [List.countP_cons, if_neg]
            · rfl
            · simp [hyb.le]
        rw [hc, hodd]
        refine ⟨ih.1, ih.2.1, fun h => ?_⟩
        rcases ih.2.2 h with h' | ⟨p, hp, q, hq, h'⟩
        · exact .inl h'
        · exact .inr ⟨p, by simp [hp], q, by simp [hq], h'⟩

/-! ## Closed polygons cross a line an even number of times -/

theorem meets_iff (x : Int) (p q : Pt) : Meets x (p, q) ↔ ¬ (x ≤ p.1 ↔ x ≤ q.1) := by
  unfold Meets
  dsimp only
  omega

theorem path_even (x : Int) (p0 : Pt) (l : List Pt) :
    Even (((p0 :: l).zip l).countP fun e => decide (Meets x e)) ↔ (x ≤ p0.1 ↔ x ≤ (l.getLastD p0).1) := by
  induction l generalizing p0 with
  | nil => simp
  | cons p1 l ih =>
    rw [List.zip_cons_cons, List.countP_cons, Nat.even_add, ih p1]
    have : (p1 :: l).getLastD p0 = l.getLastD p1 := List.getLastD_cons ..
    rw [this]
    by_cases h : Meets x (p0, p1)
    · rw [if_pos (by simpa using h)]
      rw [meets_iff] at h
      have : ¬ Even 1 := by decide
      tauto
    · rw [if_neg (by simpa using h)]
      rw [meets_iff, not_not] at h
      have : Even 0 := by decide
      tauto

theorem getLastD_getLastD {l : List Pt} (h : l ≠ []) (a b : Pt) : l.getLastD a = l.getLastD b := by
  cases l with
  | nil => exact absurd rfl h
  | cons x l => rw [List.getLastD_cons, List.getLastD_cons]

theorem edges_even (x : Int) (poly : List Pt) : Even ((edges poly).countP fun e => decide (Meets x e)) := by
  unfold edges
  rw [path_even]
  by_cases h : poly = []
  · subst h
    simp
  · rw [getLastD_getLastD h (poly.getLastD (0, 0)) (0, 0)]

theorem allEdges_even (x : Int) (outline : List (List Pt)) : Even ((allEdges outline).countP fun e => decide (Meets x e)) := by
  unfold allEdges
  induction outline with
  | nil => simp
  | cons poly rest ih =>
    rw [List.flatMap_cons, List.countP_append]
    exact (edges_even x poly).add ih

/-! ## The lines of all scanlines -/

def segs (d w m : Int) : Int → List (List Int) → List Seg
  | _, [] => []
  | x, c :: rest => if x < m then ((pairUp w (sorted c)).map fun ab => ⟨x, ab.1, ab.2⟩) ++ segs d w m (x + d) rest else []

theorem addLines_segs (d w m x : Int) (cuts : List (List Int)) : addLines d w m x cuts = (segs d w m x cuts).map fun s => [(s.x, s.a), (s.x, s.b)] := by
  induction cuts generalizing x with
  | nil => rfl
  | cons c rest ih =>
    unfold addLines segs
    split
    · rw [List.map_append, List.map_map, ih]
      rfl
    · rfl

theorem covered_segs {d : Int} (hd : 0 < d) (w m x0 : Int) (cuts : List (List Int)) (x : Int) (y : ℚ) :
    (∀ (i : Nat) (hi : i < cuts.length), x = x0 + i * d → x < m → covered (segs d w m x0 cuts) x y = cov (pairUp w (sorted cuts[i])) y) ∧
    ((∀ i : Nat, i < cuts.length → x = x0 + i * d → ¬ x < m) → covered (segs d w m x0 cuts) x y = 0) := by
  induction cuts generalizing x0 with
  | nil => exact ⟨by simp, fun _ => rfl⟩
  | cons c rest ih =>
    obtain ⟨ih1, ih2⟩ := ih (x0 + d)
    have hhead : covered ((pairUp w (sorted c)).map fun ab => (⟨x0, ab.1, ab.2⟩ : Seg)) x y = if x = x0 then cov (pairUp w (sorted c)) y else 0 := by
      unfold covered cov
      rw [List.countP_map]
      split
      · rename_i h
        subst h
        congr 1
        funext s
        simp
      · rename_i h
        rw [List.countP_eq_zero]
        intro s _
        simp only [Function.comp, decide_eq_true_eq, not_and]
        intro h'
        exact absurd h'.symm h
    have happ : x0 < m → covered (segs d w m x0 (c :: rest)) x y = (if x = x0 then cov (pairUp w (sorted c)) y else 0) + covered (segs d w m (x0 + d) rest) x y := by
      intro hm
      rw [← hhead]
      conv_lhs => unfold segs
      rw [if_pos hm]
      unfold covered
      rw [List.countP_append]
    constructor
    · intro i hi hx hxm
      have h0 : x0 < m := by
        have : (0 : Int) ≤ i * d := by positivity
        omega
      rw [happ h0]
      cases i with
      | zero =>
        have : x = x0 := by simpa using hx
        rw [if_pos this, ih2]
        · simp
        · intro j _ hj
          exfalso
          have : (0 : Int) ≤ j * d := by positivity
          omega
      | succ i =>
        have hx' : x = x0 + d + i * d := by
          rw [hx]
          push_cast
          ring
        have : x ≠ x0 := by
          have : (0 : Int) ≤ i * d := by positivity
          omega
        rw [if_neg this, ih1 i (by simpa using hi) hx' hxm]
        simp
    · intro h
      by_cases h0 : x0 < m
      · rw [happ h0, if_neg, ih2]
        · intro i hi hx
          refine h (i + 1) (by simpa using hi) ?_
          rw [hx]
          push_cast
          ring
        · intro hx
          exact h 0 (by simp) (by simpa using hx) (hx ▸ h0)
      · unfold segs
        rw [if_neg h0]
        rfl

/-! ## The bounding box -/

theorem minX_le {outline : List (List Pt)} {p : Pt} (h : p ∈ outline.flatten) : minX outline ≤ p.1 := by
  unfold minX
  have hm : p.1 ∈ outline.flatten.map (·.1) := List.mem_map_of_mem h
  cases hmin : (outline.flatten.map (·.1)).min? with
  | none => rw [List.min?_eq_none_iff] at hmin; rw [hmin] at hm; simp at hm
  | some a => exact (List.min?_eq_some_iff.mp hmin).2 _ hm

theorem le_maxX {outline : List (List Pt)} {p : Pt} (h : p ∈ outline.flatten) : p.1 ≤ maxX outline := by
  unfold maxX
  have hm : p.1 ∈ outline.flatten.map (·.1) := List.mem_map_of_mem h
  cases hmax : (outline.flatten.map (·.1)).max? with
  | none => rw [List.max?_eq_none_iff] at hmax; rw [hmax] at hm; simp at hm
  | some a => exact (List.max?_eq_some_iff.mp hmax).2 _ hm

theorem edges_mem {poly : List Pt} {e : Pt × Pt} (h : e ∈ edges poly) : e.1 ∈ poly ∧ e.2 ∈ poly := by
  unfold edges at h
  have h2 := List.of_mem_zip h
  refine ⟨?_, h2.2⟩
  have h1 := h2.1
  rw [List.mem_cons] at h1
  rcases h1 with h1 | h1
  · rw [h1]
    cases poly with
    | nil => exact absurd h2.2 (by simp)
    | cons a l =>
      rw [List.getLastD_cons, List.getLastD_eq_getLast?]
      cases hl : l.getLast? with
      | none => simp
      | some b => exact List.mem_cons_of_mem _ (List.mem_of_getLast? hl)
  · exact h1

theorem allEdges_mem {outline : List (List Pt)} {e : Pt × Pt} (h : e ∈ allEdges outline) : e.1 ∈ outline.flatten ∧ e.2 ∈ outline.flatten := by
  unfold allEdges at h
  rw [List.mem_flatMap] at h
  obtain ⟨poly, hp, he⟩ := h
  obtain ⟨h1, h2⟩ := edges_mem he
  exact ⟨List.mem_flatten.mpr ⟨poly, hp, h1⟩, List.mem_flatten.mpr ⟨poly, hp, h2⟩⟩

theorem meets_bounds {outline : List (List Pt)} {e : Pt × Pt} (h : e ∈ allEdges outline) {x : Int} (hm : Meets x e) :
    minX outline < x ∧ x ≤ maxX outline := by
  obtain ⟨h1, h2⟩ := allEdges_mem h
  have a1 := minX_le h1
  have a2 := minX_le h2
  have b1 := le_maxX h1
  have b2 := le_maxX h2
  unfold Meets at hm
  omega

end Verif.Lines
