import Verif.Travel.Spec
import Mathlib.Tactic.Ring
import Mathlib.Tactic.Linarith

/-! # Lemmas about plans -/

namespace Verif.Travel

variable {C M : Type}

theorem shorter_iff (q p : P2) (l : Int) : shorter (q.sub p) l = true ↔ Short q p l := by
  unfold shorter Short P2.sub
  dsimp only
  generalize q.x - p.x = a
  generalize q.y - p.y = b
  have hsq : ∀ c d : Int, c ^ 2 + d ^ 2 ≤ l ^ 2 → 0 ≤ l → c ≤ l ∧ -l ≤ c := by
    intro c d h hl
    constructor <;> nlinarith [sq_nonneg d]
  split
  · rename_i h
    constructor
    · intro h'; cases h'
    · rintro ⟨h1, h2⟩
      have := hsq a b h2 h1
      omega
  · split
    · rename_i _ h
      constructor
      · intro h'; cases h'
      · rintro ⟨h1, h2⟩
        have := hsq b a (by linarith) h1
        omega
    · rw [decide_eq_true_eq, pow_two, pow_two, pow_two]
      constructor
      · intro h; exact ⟨by omega, h⟩
      · intro h; exact h.2

/-! ## The points of comb paths -/

theorem addPoints_spec (env : Env C M) (res : Int) (cs : List P2) : ∀ (points : List P3) (distance : Int) (lastPoint : P2),
    ∃ detour : List P2, addPoints env res cs (points, distance, lastPoint) =
      (points ++ detour.map P2.up, (addPoints env res cs (points, distance, lastPoint)).2.1, (detour.getLast?).getD lastPoint) ∧ List.Sublist detour cs ∧
      (∀ p, (addPoints env res cs (points, distance, lastPoint)).2.1 + env.len (((detour.getLast?).getD lastPoint).sub p) =
        distance + routeLen env.len lastPoint detour p) ∧
      ∀ c ∈ cs, ∃ b ∈ points ++ detour.map P2.up, (b.x - c.x) ^ 2 + (b.y - c.y) ^ 2 + b.z ^ 2 ≤ res ^ 2 := by
  induction cs with
  | nil => intro points distance lastPoint; exact ⟨[], by simp [addPoints], by simp, fun p => by simp [addPoints, routeLen], by simp⟩
  | cons c cs ih =>
    intro points distance lastPoint
    rw [addPoints]
    split
    · obtain ⟨d, h1, h2, h3, h4⟩ := ih (points ++ [c.up]) (distance + env.len (lastPoint.sub c)) c
      have hg : (((c :: d).getLast?).getD lastPoint) = (d.getLast?).getD c := by
        cases d with
        | nil => rfl
        | cons a d => simp [List.getLast?_cons]
      refine ⟨c :: d, ?_, h2.cons_cons c, fun p => ?_, fun x hx => ?_⟩
      · rw [hg]
        conv_lhs => rw [h1]
        simp
      · rw [hg, h3 p, routeLen]
        ring
      · have hsplit : points ++ (c :: d).map P2.up = (points ++ [c.up]) ++ d.map P2.up := by simp
        rw [hsplit]
        rcases List.mem_cons.1 hx with rfl | hx
        · exact ⟨x.up, by simp, by simp only [P2.up, sub_self]; nlinarith [sq_nonneg res]⟩
        · exact h4 x hx
    · rename_i hc
      obtain ⟨d, h1, h2, h3, h4⟩ := ih points distance lastPoint
      refine ⟨d, h1, h2.cons c, h3, fun x hx => ?_⟩
      rcases List.mem_cons.1 hx with rfl | hx
      · unfold away at hc
        split at hc
        · exact absurd rfl hc
        · rename_i b hb
          rw [decide_eq_true_eq] at hc
          exact ⟨b, List.mem_append_left _ (List.mem_of_getLast? hb), by nlinarith⟩
      · exact h4 x hx

/-- What the comb paths add to a path. -/
theorem addComb_spec (env : Env C M) (s : Sets) (retract : Bool) (p : P2) (cs : List (List P2 × Bool)) : ∀ (path : Path C M) (distance : Int) (lastPoint : P2),
    ∃ (detour : List P2) (r : Bool), (addComb env s retract p cs (path, distance, lastPoint)).1 =
        { path with points := path.points ++ detour.map P2.up, retract := r } ∧
      List.Sublist detour (cs.flatMap (·.1)) ∧
      (∀ c ∈ cs.flatMap (·.1), ∃ b ∈ path.points ++ detour.map P2.up, (b.x - c.x) ^ 2 + (b.y - c.y) ^ 2 + b.z ^ 2 ≤ s.resolution ^ 2) ∧
      ((∀ c ∈ cs, c.1 = []) → r = path.retract) ∧
      ((∃ c ∈ cs, c.1 ≠ []) → retract = true → r = true) ∧
      ((∃ c ∈ cs, c.1 ≠ []) → s.enable = false → r = retract) ∧
      ∀ c, cs = [c] → c.1 ≠ [] → r = (retract || (decide (0 < s.maxComb ∧ s.maxComb < distance + routeLen env.len lastPoint detour p) && s.enable)) := by
  induction cs with
  | nil => intro path distance lastPoint; exact ⟨[], path.retract, by simp [addComb], by simp, by simp, by simp, by simp, by simp, by simp⟩
  | cons c cs ih =>
    intro path distance lastPoint
    rw [addComb]
    split
    · rename_i hc
      have hc : c.1 = [] := by simpa using hc
      obtain ⟨d, r, h1, h2, h3, h4, h5, h6, h7⟩ := ih path distance lastPoint
      have hne : (∃ x ∈ c :: cs, x.1 ≠ []) → ∃ x ∈ cs, x.1 ≠ [] := by
        rintro ⟨x, hx, hx'⟩
        rcases List.mem_cons.1 hx with rfl | hx
        · exact absurd hc hx'
        · exact ⟨x, hx, hx'⟩
      refine ⟨d, r, h1, by simpa [hc] using h2, by simpa [hc] using h3, fun h => h4 fun x hx => h x (List.mem_cons_of_mem _ hx),
        fun h => h5 (hne h), fun h => h6 (hne h), fun x hx hx' => ?_⟩
      simp only [List.cons.injEq] at hx
      exact absurd (hx.1 ▸ hc) hx'
    · rename_i hc
      have hc : c.1 ≠ [] := by simpa using hc
      obtain ⟨d0, g1, g2, g3, g4⟩ := addPoints_spec env s.resolution c.1 path.points distance lastPoint
      generalize hA : addPoints env s.resolution c.1 (path.points, distance, lastPoint) = A at g1 g3
      obtain ⟨A1, A2, A3⟩ := A
      simp only [Prod.mk.injEq] at g1
      obtain ⟨rfl, -, rfl⟩ := g1
      dsimp only at g3 ⊢
      rw [g3 p]
      obtain ⟨d, r, h1, h2, h3, h4, h5, h6, h7⟩ := ih
        { path with
          points := path.points ++ d0.map P2.up
          retract := retract || (decide (0 < s.maxComb ∧ s.maxComb < distance + routeLen env.len lastPoint d0 p) && s.enable) }
        (distance + routeLen env.len lastPoint d0 p) ((d0.getLast?).getD lastPoint)
      dsimp only at h1 h3 h4
      refine ⟨d0 ++ d, r, by rw [h1]; simp, ?_, ?_, fun h => absurd (h c (by simp)) hc, fun _ hr => ?_, fun _ he => ?_, fun x hx hx' => ?_⟩
      · simp only [List.flatMap_cons]
        exact g2.append h2
      · intro x hx
        simp only [List.flatMap_cons, List.mem_append] at hx
        have hsplit : path.points ++ (d0 ++ d).map P2.up = (path.points ++ d0.map P2.up) ++ d.map P2.up := by simp
        rw [hsplit]
        rcases hx with hx | hx
        · obtain ⟨b, hb, hb'⟩ := g4 x hx
          exact ⟨b, List.mem_append_left _ hb, hb'⟩
        · exact h3 x hx
      · by_cases hn : ∃ x ∈ cs, x.1 ≠ []
        · exact h5 hn hr
        · rw [h4 (fun x hx => by by_contra hh; exact hn ⟨x, hx, hh⟩), hr]
          rfl
      · by_cases hn : ∃ x ∈ cs, x.1 ≠ []
        · exact h6 hn he
        · rw [h4 (fun x hx => by by_contra hh; exact hn ⟨x, hx, hh⟩), he]
          simp
      · simp only [List.cons.injEq] at hx
        obtain ⟨rfl, rfl⟩ := hx
        have hd : d = [] := by simpa using h2
        subst hd
        rw [h4 (by simp)]
        simp

end Verif.Travel
