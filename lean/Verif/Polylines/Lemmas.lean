import Verif.Polylines.Spec
import Verif.Grid.Props
import Mathlib.Tactic.Linarith

/-! # Lemmas on the search for the next line -/

namespace Verif.Polylines

open Grid (Pt dist2)

variable {J : Type} {c : Cfg J} {lines : List (Line J)}

theorem dist2_comm (p q : Pt) : dist2 p q = dist2 q p := by unfold dist2; ring

theorem size_comm (p q : Pt) : size p q = size q p := by unfold size; rw [dist2_comm]

/-- The end is one of those that are put into the grid. -/
theorem mem_ends {e : End} : e ∈ ends lines ↔ ∃ l, lines[e.1]? = some l ∧ (e.2 = 0 ∨ e.2 = l.pts.length - 1) := by
  unfold ends
  rw [List.mem_flatMap]
  constructor
  · rintro ⟨l, hl, he⟩
    rw [List.mem_zipIdx_iff_getElem?] at hl
    simp only [List.mem_cons, List.not_mem_nil, or_false] at he
    rcases he with rfl | rfl
    · exact ⟨l.1, hl, Or.inl rfl⟩
    · exact ⟨l.1, hl, Or.inr rfl⟩
  · rintro ⟨l, hl, he⟩
    refine ⟨(l, e.1), by rw [List.mem_zipIdx_iff_getElem?]; exact hl, ?_⟩
    rcases he with he | he
    · simp [← he]
    · simp [← he]

theorem roundSqrt_le_of {n m : Nat} (h : Simplify.roundSqrt n ≤ m) : n ≤ m * m + m := by
  unfold Simplify.roundSqrt at h
  have h2 : n < (Nat.sqrt n + 1) * (Nat.sqrt n + 1) := Nat.lt_succ_sqrt n
  generalize Nat.sqrt n = s at *
  split at h
  · have : s + 1 ≤ m := h
    nlinarith
  · have : s * s ≤ m * m := Nat.mul_le_mul h h
    omega

/-- What is not farther than the radius is within the square. -/
theorem within_of_size {p q : Pt} {r : Int} (h : size p q ≤ r) : Grid.WithinSquare q r p := by
  have h0 : 0 ≤ r := le_trans (by unfold size; exact Int.natCast_nonneg _) h
  obtain ⟨m, rfl⟩ : ∃ m : Nat, r = m := ⟨r.toNat, by omega⟩
  have h1 := roundSqrt_le_of (show Simplify.roundSqrt (dist2 p q).toNat ≤ m by unfold size at h; exact_mod_cast h)
  have h2 : dist2 p q ≤ (m : Int) * m + m := by
    have : ((dist2 p q).toNat : Int) ≤ ((m * m + m : Nat) : Int) := by exact_mod_cast h1
    push_cast at this
    omega
  unfold dist2 at h2
  have key : ∀ x : Int, x * x ≤ (m : Int) * m + m → -(m : Int) ≤ x ∧ x ≤ m := by
    intro x hx
    constructor
    · by_contra hc
      have : x ≤ -(m : Int) - 1 := by omega
      nlinarith
    · by_contra hc
      have : (m : Int) + 1 ≤ x := by omega
      nlinarith
  have hx := key (p.x - q.x) (by nlinarith [sq_nonneg (p.y - q.y)])
  have hy := key (p.y - q.y) (by nlinarith [sq_nonneg (p.x - q.x)])
  exact ⟨hx.1, hx.2, hy.1, hy.2⟩

/-- The line's kind. -/
def kind (lines : List (Line J)) (e : End) : Bool := ((lines[e.1]?).map Line.odd).getD false

def Near (c : Cfg J) (lines : List (Line J)) (s : Search) (e : End) : Prop := dist2 (place c lines e) s.front < c.snap * c.snap

instance (s : Search) (e : End) : Decidable (Near c lines s e) := by unfold Near; infer_instance

/-- The end is a candidate. -/
def Accept (c : Cfg J) (lines : List (Line J)) (s : Search) (e : End) : Prop :=
  size (place c lines e) s.back ≤ c.maxDist ∧
    (Near c lines s e → 3 * c.maxDist ≤ s.length + size (place c lines e) s.back ∧ 2 < s.count) ∧
    (¬Near c lines s e → e.1 ∉ s.done) ∧
    (canReverse c (kind lines e) = false → (e.2 ≠ 0 ↔ s.rev = true)) ∧ s.odd = kind lines e

/-- How far it counts as. -/
def score (c : Cfg J) (lines : List (Line J)) (s : Search) (e : End) : Int :=
  size (place c lines e) s.back + if Near c lines s e then (if s.close then -10 else 10) else 0

theorem visit_reject {s : Search} {f : Found} {e : End} (h : ¬Accept c lines s e) : visit c lines s f e = (true, f) := by
  unfold visit
  dsimp only
  split
  · rfl
  · rename_i h1
    split
    · rfl
    · rename_i h2
      split
      · rfl
      · rename_i h3
        split
        · rfl
        · rename_i h4
          split
          · rfl
          · rename_i h5
            exfalso
            apply h
            simp only [Bool.and_eq_true, decide_eq_true_eq, Bool.or_eq_true, not_and, not_or, not_lt, not_le, Bool.not_eq_true',
              decide_eq_false_iff_not, bne_iff_ne, ne_eq, not_not] at h1 h2 h3 h4 h5
            refine ⟨by omega, fun hn => h2 hn, fun hn => h3 (not_lt.mp hn), ?_, h5⟩
            intro hr
            have := h4 hr
            by_cases he : e.2 = 0 <;> cases hs : s.rev <;> simp_all

theorem visit_accept {s : Search} {f : Found} {e : End} (h : Accept c lines s e) :
    visit c lines s f e = (!decide (score c lines s e < c.snap),
      if (f.best.map fun b => decide (score c lines s e < b.2)).getD true then ⟨some (e, score c lines s e), decide (Near c lines s e)⟩ else f) := by
  obtain ⟨h1, h2, h3, h4, h5⟩ := h
  unfold visit
  dsimp only
  rw [if_neg (by omega)]
  have e2 : ¬((decide (dist2 (place c lines e) s.front < c.snap * c.snap) && (decide (s.length + size (place c lines e) s.back < 3 * c.maxDist) ||
      decide (s.count ≤ 2))) = true) := by
    simp only [Bool.and_eq_true, decide_eq_true_eq, Bool.or_eq_true, not_and, not_or, not_lt, not_le]
    intro hn; exact h2 hn
  rw [if_neg e2]
  have e3 : ¬((!decide (dist2 (place c lines e) s.front < c.snap * c.snap) && decide (e.1 ∈ s.done)) = true) := by
    simp only [Bool.and_eq_true, Bool.not_eq_true', decide_eq_false_iff_not, decide_eq_true_eq, not_and]
    intro hn; exact h3 hn
  rw [if_neg e3]
  have e4 : ¬((!canReverse c (kind lines e) && (decide (e.2 ≠ 0) != s.rev)) = true) := by
    simp only [Bool.and_eq_true, Bool.not_eq_true', not_and, bne_iff_ne, ne_eq, not_not]
    intro hr
    have := h4 hr
    by_cases he : e.2 = 0 <;> cases hs : s.rev <;> simp_all
  rw [if_neg (show ¬((!canReverse c (((lines[e.1]?).map Line.odd).getD false) && (decide (e.2 ≠ 0) != s.rev)) = true) from e4)]
  rw [if_neg (show ¬((s.odd != ((lines[e.1]?).map Line.odd).getD false) = true) by rw [bne_iff_ne, not_not]; exact h5)]
  have hscore : (if decide (dist2 (place c lines e) s.front < c.snap * c.snap) = true then if s.close = true then size (place c lines e) s.back - 10
      else size (place c lines e) s.back + 10 else size (place c lines e) s.back) = score c lines s e := by
    unfold score
    by_cases hn : Near c lines s e
    · rw [if_pos hn, if_pos (decide_eq_true (show dist2 (place c lines e) s.front < c.snap * c.snap from hn))]
      split <;> omega
    · rw [if_neg hn, if_neg (show ¬(decide (dist2 (place c lines e) s.front < c.snap * c.snap) = true) by rw [decide_eq_true_eq]; exact hn)]
      omega
  rw [hscore]
  rfl

/-- What a search has found. -/
structure Sound (c : Cfg J) (lines : List (Line J)) (s : Search) (l : List End) (f : Found) : Prop where
  some : ∀ e d, f.best = some (e, d) → e ∈ l ∧ Accept c lines s e ∧ d = score c lines s e ∧ (f.closing = true ↔ Near c lines s e)

theorem fold_visit {s : Search} {all : List End} (l : List End) (hall : ∀ e ∈ l, e ∈ all) (f : Found) (hf : Sound c lines s all f) :
    Sound c lines s all (Grid.processAll (visit c lines s) l f).2 ∧
    (∀ e d, f.best = some (e, d) → ∃ e' d', (Grid.processAll (visit c lines s) l f).2.best = some (e', d') ∧ d' ≤ d) ∧
    ((∃ e d, (Grid.processAll (visit c lines s) l f).2.best = some (e, d) ∧ d < c.snap) ∨
      ∀ e ∈ l, Accept c lines s e → ∃ e' d, (Grid.processAll (visit c lines s) l f).2.best = some (e', d) ∧ d ≤ score c lines s e) := by
  induction l generalizing f with
  | nil =>
    refine ⟨hf, ?_, Or.inr (by simp)⟩
    intro e d h
    exact ⟨e, d, h, le_refl _⟩
  | cons e l ih =>
    have hall' : ∀ x ∈ l, x ∈ all := fun x hx => hall x (by simp [hx])
    by_cases ha : Accept c lines s e
    · have hv := visit_accept (f := f) ha
      generalize hf' : (if (f.best.map fun b => decide (score c lines s e < b.2)).getD true then
        (⟨some (e, score c lines s e), decide (Near c lines s e)⟩ : Found) else f) = f' at hv
      have hs' : Sound c lines s all f' := by
        rw [← hf']
        split
        · constructor
          intro e' d' h
          simp only [Option.some.injEq, Prod.mk.injEq] at h
          obtain ⟨rfl, rfl⟩ := h
          exact ⟨hall e (by simp), ha, rfl, by simp⟩
        · exact hf
      have hbest : ∃ e' d', f'.best = some (e', d') ∧ d' ≤ score c lines s e := by
        rw [← hf']
        split
        · exact ⟨_, _, rfl, le_refl _⟩
        · rename_i hb
          cases hfb : f.best with
          | none => rw [hfb] at hb; simp at hb
          | some b =>
            rw [hfb] at hb
            simp only [Option.map_some, Option.getD_some, decide_eq_true_eq, not_lt] at hb
            exact ⟨b.1, b.2, rfl, hb⟩
      have hmono : ∀ e₀ d₀, f.best = some (e₀, d₀) → ∃ e' d', f'.best = some (e', d') ∧ d' ≤ d₀ := by
        intro e₀ d₀ h
        rw [← hf']
        split
        · rename_i hb
          rw [h] at hb
          simp only [Option.map_some, Option.getD_some, decide_eq_true_eq] at hb
          exact ⟨_, _, rfl, hb.le⟩
        · exact ⟨e₀, d₀, h, le_refl _⟩
      by_cases hsnap : score c lines s e < c.snap
      · have hp : Grid.processAll (visit c lines s) (e :: l) f = (false, f') := by
          rw [Grid.processAll, hv]
          simp [hsnap]
        rw [hp]
        obtain ⟨e', d', h1, h2⟩ := hbest
        exact ⟨hs', hmono, Or.inl ⟨e', d', h1, lt_of_le_of_lt h2 hsnap⟩⟩
      · have hp : Grid.processAll (visit c lines s) (e :: l) f = Grid.processAll (visit c lines s) l f' := by
          rw [Grid.processAll, hv]
          simp [hsnap]
        rw [hp]
        obtain ⟨i1, i2, i3⟩ := ih hall' f' hs'
        refine ⟨i1, ?_, ?_⟩
        · intro e₀ d₀ h
          obtain ⟨e', d', h1, h2⟩ := hmono e₀ d₀ h
          obtain ⟨e'', d'', h3, h4⟩ := i2 e' d' h1
          exact ⟨e'', d'', h3, le_trans h4 h2⟩
        · rcases i3 with i3 | i3
          · exact Or.inl i3
          · right
            intro x hx hax
            rcases List.mem_cons.mp hx with rfl | hx
            · obtain ⟨e', d', h1, h2⟩ := hbest
              obtain ⟨e'', d'', h3, h4⟩ := i2 e' d' h1
              exact ⟨e'', d'', h3, le_trans h4 h2⟩
            · exact i3 x hx hax
    · have hp : Grid.processAll (visit c lines s) (e :: l) f = Grid.processAll (visit c lines s) l f := by
        rw [Grid.processAll, visit_reject ha]
      rw [hp]
      obtain ⟨i1, i2, i3⟩ := ih hall' f hf
      refine ⟨i1, i2, ?_⟩
      rcases i3 with i3 | i3
      · exact Or.inl i3
      · right
        intro x hx hax
        rcases List.mem_cons.mp hx with rfl | hx
        · exact absurd hax ha
        · exact i3 x hx hax

/-- The search finds a candidate, the best unless it is within the snap distance, if there is one. -/
theorem search_spec {look : Pt → List End} (hm : 0 < c.maxDist) (hl : Grid.Lookup (Grid.pointGrid c.maxDist (place c lines) (ends lines)) look)
    {odd rev : Bool} {front back : J} {s : Chain J} {S : Search}
    (hS : S = ⟨c.pt front, c.pt back, s.pts.length, s.length, odd, rev, s.close, s.done⟩) :
    Sound c lines S (ends lines) (search c lines look odd rev front back s) ∧
    ((∃ e d, (search c lines look odd rev front back s).best = some (e, d) ∧ d < c.snap) ∨
      ∀ e ∈ ends lines, Accept c lines S e → ∃ e' d, (search c lines look odd rev front back s).best = some (e', d) ∧ d ≤ score c lines S e) := by
  have hn := Grid.C38_nearby c.maxDist hm (place c lines) (ends lines) look hl (c.pt back) c.maxDist
  have hsub : ∀ e ∈ Grid.getNearby c.maxDist look (c.pt back) c.maxDist, e ∈ ends lines := by
    intro e he
    have := hn.2.subset he
    exact (List.mem_filter.mp this).1
  have hsup : ∀ e ∈ ends lines, Accept c lines S e → e ∈ Grid.getNearby c.maxDist look (c.pt back) c.maxDist := by
    intro e he ha
    apply hn.1.subset
    rw [List.mem_filter]
    refine ⟨he, ?_⟩
    have := ha.1
    rw [hS] at this
    simpa using within_of_size this
  unfold search
  rw [Grid.C38_process, ← hS]
  obtain ⟨h1, -, h3⟩ := fold_visit (c := c) (lines := lines) (s := S) (all := ends lines) (Grid.getNearby c.maxDist look (c.pt back) c.maxDist) hsub ⟨none, false⟩
    ⟨by simp⟩
  refine ⟨h1, ?_⟩
  rcases h3 with h3 | h3
  · exact Or.inl h3
  · right
    intro e he ha
    exact h3 e (hsup e he ha) ha

end Verif.Polylines
