import Verif.SubDiv.Model
import Mathlib.Data.List.Perm.Basic
import Mathlib.Tactic.Ring
import Mathlib.Tactic.Linarith
import Mathlib.Tactic.SplitIfs

/-! # Lemmas on cubic subdivision -/

namespace Verif.SubDiv

open Spec

/-! ## The sides -/

theorem sidesLoop_get (max : Int) (n : Nat) (side : Int) (hs : 0 < side) (hn : max * 2 ≤ n + side) (i : Nat) (s : Int) :
    (sidesLoop max n side)[i]? = some s ↔ s = 2 ^ i * side ∧ s < max * 2 := by
  induction n generalizing side i with
  | zero =>
    simp only [sidesLoop, List.getElem?_nil]
    constructor
    · intro h; cases h
    · rintro ⟨h1, h2⟩
      have : (1 : Int) ≤ 2 ^ i := by exact_mod_cast Nat.one_le_two_pow
      push_cast at hn
      nlinarith
  | succ n ih =>
    rw [sidesLoop]
    split
    · rename_i hlt
      cases i with
      | zero =>
        simp only [List.getElem?_cons_zero, Option.some.injEq, pow_zero, one_mul]
        constructor
        · intro h; exact ⟨h.symm, h ▸ hlt⟩
        · intro h; exact h.1.symm
      | succ i =>
        rw [List.getElem?_cons_succ, ih (side * 2) (by omega) (by push_cast at hn; omega), pow_succ]
        have : (2 : Int) ^ i * (side * 2) = 2 ^ i * 2 * side := by ring
        rw [this]
    · rename_i hge
      simp only [List.getElem?_nil]
      constructor
      · intro h; cases h
      · rintro ⟨h1, h2⟩
        have : (1 : Int) ≤ 2 ^ i := by exact_mod_cast Nat.one_le_two_pow
        nlinarith

/-! ## Combining lines -/

theorem near_iff (p q : P2) : near p q = true ↔ Close p q := by simp [near, Close]

theorem removeAt_map {α β : Type} (f : α → β) (l : List α) (i : Nat) : (removeAt l i).map f = removeAt (l.map f) i := by
  rw [removeAt, removeAt, List.getLast?_map]
  cases l.getLast? with
  | none => rfl
  | some x =>
    simp only [Option.map_some, List.length_map]
    split <;> simp [List.map_set]

theorem removeAt_perm {α : Type} (l : List α) (i : Nat) (x : α) (h : l[i]? = some x) : l.Perm (x :: removeAt l i) := by
  obtain ⟨hi, hx⟩ := List.getElem?_eq_some_iff.1 h
  have hne : l ≠ [] := by
    intro e
    subst e
    simp at hi
  rw [removeAt, List.getLast?_eq_getLast_of_ne_nil hne]
  simp only
  obtain ⟨m, y, rfl⟩ : ∃ m y, l = m ++ [y] := ⟨l.dropLast, l.getLast hne, (List.dropLast_append_getLast hne).symm⟩
  simp only [List.getLast_append_singleton, List.length_append, List.length_singleton] at hi hx ⊢
  split
  · rename_i hlt
    have hm : i < m.length := by omega
    rw [List.set_append_left _ _ hm, List.dropLast_concat]
    have hx' : m[i] = x := by rw [← hx, List.getElem_append_left hm]
    have h1 : (m ++ [y]).Perm (y :: m) := List.perm_append_singleton y m
    refine h1.trans ?_
    have h2 : (m[i] :: m.set i y).Perm (y :: m) :=
      ((List.set_perm_cons_eraseIdx hm y).cons _).trans ((List.Perm.swap _ _ _).trans ((List.getElem_cons_eraseIdx_perm hm).cons y))
    exact hx' ▸ h2.symm
  · rename_i hge
    have : i = m.length := by omega
    subst this
    rw [List.dropLast_concat]
    have hx' : y = x := by simpa using hx
    subst hx'
    exact List.perm_append_singleton y m

theorem combineLoop_spec (n : Nat) (ps : List (List Line × Line)) (hp : ∀ p ∈ ps, Chain p.1 p.2) (i : Nat) (a b : P2) (cs : List Line) (hc : Chain cs (a, b)) :
    ∃ qs : List (List Line × Line), combineLoop n (ps.map (·.2)) i a b = qs.map (·.2) ∧ (∀ p ∈ qs, Chain p.1 p.2) ∧
      (qs.map (·.1)).flatten.Perm ((ps.map (·.1)).flatten ++ cs) := by
  have stop : ∀ (ps : List (List Line × Line)) (a b : P2) (cs : List Line), (∀ p ∈ ps, Chain p.1 p.2) → Chain cs (a, b) →
      ∃ qs : List (List Line × Line), ps.map (·.2) ++ [(a, b)] = qs.map (·.2) ∧ (∀ p ∈ qs, Chain p.1 p.2) ∧
      (qs.map (·.1)).flatten.Perm ((ps.map (·.1)).flatten ++ cs) := by
    intro ps a b cs hp hc
    refine ⟨ps ++ [(cs, (a, b))], by simp, ?_, by simp⟩
    intro p h
    rcases List.mem_append.1 h with h | h
    · exact hp p h
    · rw [List.mem_singleton] at h
      subst h
      exact hc
  induction n generalizing ps i a b cs with
  | zero => exact stop ps a b cs hp hc
  | succ n ih =>
    rw [combineLoop]
    cases hg : (ps.map (·.2))[i]? with
    | none => exact stop ps a b cs hp hc
    | some l =>
      simp only
      rw [List.getElem?_map, Option.map_eq_some_iff] at hg
      obtain ⟨p, p1, p2⟩ := hg
      have hperm := removeAt_perm ps i p p1
      have hfl : (ps.map (·.1)).flatten.Perm (p.1 ++ ((removeAt ps i).map (·.1)).flatten) := by
        have := (hperm.map (·.1)).flatten
        simpa using this
      have hp' : ∀ q ∈ removeAt ps i, Chain q.1 q.2 := fun q hq => hp q (hperm.symm.subset (List.mem_cons_of_mem _ hq))
      have hpc : Chain p.1 (l.1, l.2) := by
        have := hp p (hperm.symm.subset List.mem_cons_self)
        rwa [p2] at this
      rw [← removeAt_map]
      split
      · rename_i h1
        have hj : Chain (p.1 ++ cs) (l.1, b) := Chain.join hpc hc (by
          have := (near_iff _ _).1 h1
          refine ⟨?_, ?_⟩
          · have := this.1; omega
          · have := this.2; omega)
        obtain ⟨qs, e1, e2, e3⟩ := ih (removeAt ps i) hp' i l.1 b _ hj
        refine ⟨qs, e1, e2, e3.trans ?_⟩
        refine (List.perm_append_comm_assoc _ _ _).trans ?_
        rw [← List.append_assoc]
        exact List.Perm.append_right _ hfl.symm
      · split
        · rename_i h1
          have hj : Chain (cs ++ p.1) (a, l.2) := Chain.join hc hpc ((near_iff _ _).1 h1)
          obtain ⟨qs, e1, e2, e3⟩ := ih (removeAt ps i) hp' i a l.2 _ hj
          refine ⟨qs, e1, e2, e3.trans ?_⟩
          have h2 : (((removeAt ps i).map (·.1)).flatten ++ (cs ++ p.1)).Perm (((removeAt ps i).map (·.1)).flatten ++ (p.1 ++ cs)) :=
            List.Perm.append_left _ List.perm_append_comm
          refine h2.trans ((List.perm_append_comm_assoc _ _ _).trans ?_)
          rw [← List.append_assoc]
          exact List.Perm.append_right _ hfl.symm
        · exact ih ps hp (i + 1) a b cs hc

theorem fold_combine (ls given : List Line) (ps : List (List Line × Line)) (hp : ∀ p ∈ ps, Chain p.1 p.2) (hg : (ps.map (·.1)).flatten.Perm given) :
    ∃ qs : List (List Line × Line), ls.foldl combine (ps.map (·.2)) = qs.map (·.2) ∧ (∀ p ∈ qs, Chain p.1 p.2) ∧
      (qs.map (·.1)).flatten.Perm (given ++ ls) := by
  induction ls generalizing ps given with
  | nil => exact ⟨ps, rfl, hp, by simpa using hg⟩
  | cons l ls ih =>
    obtain ⟨qs, e1, e2, e3⟩ := combineLoop_spec (ps.map (·.2)).length ps hp 0 l.1 l.2 [l] (Chain.one l)
    obtain ⟨rs, f1, f2, f3⟩ := ih (given ++ [l]) qs e2 (e3.trans (List.Perm.append_right _ hg))
    refine ⟨rs, ?_, f2, by simpa using f3⟩
    rw [List.foldl_cons, combine, e1, f1]

theorem madeOf_fold (ls : List Line) : MadeOf ls (ls.foldl combine []) := by
  obtain ⟨qs, e0, e2, e3⟩ := fold_combine ls [] [] (by simp) (by simp)
  refine ⟨qs.map (·.1), ?_, by simpa using e3⟩
  have e1 : ls.foldl combine [] = qs.map (·.2) := by simpa using e0
  rw [e1]
  clear e3
  clear e1 e0
  revert e2
  induction qs with
  | nil => exact fun _ => List.Forall₂.nil
  | cons q qs ih => exact fun e2 => List.Forall₂.cons (e2 q List.mem_cons_self) (ih fun p hp => e2 p (List.mem_cons_of_mem _ hp))

/-! ## Which cubes there are -/

theorem mem_cubesList {c : Cube} {cs : List Cube} : c ∈ cubesList cs ↔ ∃ d ∈ cs, c ∈ cubes d := by
  induction cs with
  | nil => simp [cubesList]
  | cons d cs ih => simp [cubesList, ih]

/-! ## Leaving early -/

/-- What a cube contributes if nothing is left early. -/
def ownLine (steps : List Step) (ends : Step → P3 → Int → Line) (z : Int) (c : Cube) : Option Line :=
  match steps[c.depth]? with
  | none => none
  | some st => if ((z - c.center.z).natAbs : Int) < st.drawZ then some (ends st c.center z) else none

/-- Children of a cube in a tree are as they are built. -/
inductive Shaped (steps : List Step) : Cube → Prop where
  | node (d : Nat) (c : P3) (cs : List Cube) (h : ∀ k ∈ cs, k.depth + 1 = d ∧ ∀ st, steps[d]? = some st → ((k.center.z - c.z).natAbs : Int) ≤ st.height / 4 + 1)
      (hs : ∀ k ∈ cs, Shaped steps k) : Shaped steps (.node d c cs)

theorem height_ge {steps : List Step} {D : Nat} (hf : Fits steps D) {a0 : Step} (h0 : steps[0]? = some a0) (d : Nat) {a : Step} (h : steps[d]? = some a) :
    a0.height ≤ a.height := by
  have hpos := hf.first a0 h0
  induction d generalizing a with
  | zero => rw [h0] at h; cases h; exact le_refl _
  | succ d ih =>
    have hl : d < steps.length := by
      have := (List.getElem?_eq_some_iff.1 h).1
      omega
    have h1 := ih (List.getElem?_eq_getElem hl)
    have h2 := hf.double d _ _ (List.getElem?_eq_getElem hl) h
    omega

/-- How far the cubes below reach. -/
theorem reach {steps : List Step} {D : Nat} (hf : Fits steps D) {a0 : Step} (h0 : steps[0]? = some a0) {r : Cube} (hs : Shaped steps r) (hd : r.depth ≤ D) {c : Cube}
    (hc : c ∈ cubes r) {st sc : Step} (h1 : steps[r.depth]? = some st) (h2 : steps[c.depth]? = some sc) :
    6 * ((c.center.z - r.center.z).natAbs : Int) + 6 * sc.drawZ ≤ 3 * st.height + 6 * r.depth + 2 - a0.height := by
  induction hs generalizing st with
  | node d p cs h hk ih =>
    change d ≤ D at hd
    change steps[d]? = some st at h1
    change 6 * ((c.center.z - p.z).natAbs : Int) + 6 * sc.drawZ ≤ 3 * st.height + 6 * (d : Int) + 2 - a0.height
    rw [cubes, List.mem_cons] at hc
    rcases hc with hc | hc
    · subst hc
      simp only [Cube.depth, Cube.center] at h2 ⊢
      rw [h1] at h2
      cases h2
      have g1 := hf.draw d _ h1
      have g2 := height_ge hf h0 d h1
      omega
    · obtain ⟨k, k1, k2⟩ := mem_cubesList.1 hc
      obtain ⟨e1, e2⟩ := h k k1
      subst e1
      have e2 := e2 _ h1
      have hl : k.depth < steps.length := by
        have := hf.len
        omega
      have h3 := List.getElem?_eq_getElem hl
      have h4 := ih k k1 (by omega) k2 h3
      have h5 := hf.double _ _ _ h3 h1
      have h6 : st.height / 4 * 4 ≤ st.height := by omega
      omega

theorem drawn_nil {steps : List Step} {ends : Step → P3 → Int → Line} {z : Int} {D : Nat} (hf : Fits steps D) {r : Cube} (hs : Shaped steps r) (hd : r.depth ≤ D)
    {st : Step} (h1 : steps[r.depth]? = some st) (hz : st.height / 2 < (z - r.center.z).natAbs) : (cubes r).filterMap (ownLine steps ends z) = [] := by
  rw [List.filterMap_eq_nil_iff]
  intro c hc
  rw [ownLine]
  split
  · rfl
  · rename_i sc h2
    have hl : 0 < steps.length := by have := hf.len; omega
    have h0 := List.getElem?_eq_getElem hl
    have h3 := reach hf h0 hs hd hc h1 h2
    have h4 := hf.first _ h0
    rw [if_neg]
    omega

theorem drawn_spec {steps : List Step} {ends : Step → P3 → Int → Line} {z : Int} {D : Nat} (hf : Fits steps D) {r : Cube} (hs : Shaped steps r) (hd : r.depth ≤ D) :
    drawn steps ends z r = some ((cubes r).filterMap (ownLine steps ends z)) := by
  induction hs with
  | node d p cs h hk ih =>
    simp only [Cube.depth] at hd
    have hl : d < steps.length := by have := hf.len; omega
    have h1 := List.getElem?_eq_getElem hl
    have hlist : drawnList steps ends z cs = some ((cubesList cs).filterMap (ownLine steps ends z)) := by
      have key : ∀ ks : List Cube, (∀ k ∈ ks, k ∈ cs) → drawnList steps ends z ks = some ((cubesList ks).filterMap (ownLine steps ends z)) := by
        intro ks
        induction ks with
        | nil => intro _; simp [drawnList, cubesList]
        | cons k ks ihk =>
          intro hm
          have hkm := hm k List.mem_cons_self
          have := (h k hkm).1
          rw [drawnList, ih k hkm (by omega), ihk fun x hx => hm x (List.mem_cons_of_mem _ hx)]
          simp [cubesList]
      exact key cs fun _ h => h
    rw [drawn, h1]
    simp only
    by_cases hz : (steps[d].height / 2 < ((z - p.z).natAbs : Int))
    · rw [if_pos hz, drawn_nil hf (Shaped.node d p cs h hk) hd h1 hz]
    · rw [if_neg hz, hlist, Option.map_some, cubes, List.filterMap_cons]
      have : ownLine steps ends z (.node d p cs) = if ((z - p.z).natAbs : Int) < steps[d].drawZ then some (ends steps[d] p z) else none := by
        rw [ownLine]
        simp only [Cube.depth, Cube.center, h1]
        rfl
      rw [this]
      split <;> simp

theorem build_depth (steps : List Step) (rot : P3 → P3) (valid : P3 → Int → Bool) (add : Int) (c : P3) (d : Nat) :
    (build steps rot valid add c d).depth = d ∧ (build steps rot valid add c d).center = c := by
  cases d with
  | zero => exact ⟨rfl, rfl⟩
  | succ d =>
    rw [build]
    cases steps[d + 1]? <;> exact ⟨rfl, rfl⟩

theorem build_shaped {steps : List Step} {rot : P3 → P3} (valid : P3 → Int → Bool) (add : Int)
    (hrot : ∀ (i : Nat) (st : Step), steps[i]? = some st → ∀ r ∈ corners, ((rot (r.scale (st.side.tdiv 4))).z.natAbs : Int) ≤ st.height / 4 + 1) (c : P3) (d : Nat) :
    Shaped steps (build steps rot valid add c d) := by
  induction d generalizing c with
  | zero => exact Shaped.node _ _ _ (fun k hk => by cases hk) (fun k hk => by cases hk)
  | succ d ih =>
    rw [build]
    cases h : steps[d + 1]? with
    | none => exact Shaped.node _ _ _ (fun k hk => by cases hk) (fun k hk => by cases hk)
    | some st =>
      have key : ∀ k ∈ ((corners.map fun r => c.add (rot (r.scale (st.side.tdiv 4)))).filterMap fun c =>
          if valid c ((st.height + 4 * add).tdiv 4) then some (build steps rot valid add c d) else none),
          ∃ r ∈ corners, k = build steps rot valid add (c.add (rot (r.scale (st.side.tdiv 4)))) d := by
        intro k hk
        rw [List.mem_filterMap] at hk
        obtain ⟨x, x1, x2⟩ := hk
        obtain ⟨r, r1, r2⟩ := List.mem_map.1 x1
        split at x2
        · cases x2
          exact ⟨r, r1, by rw [r2]⟩
        · cases x2
      refine Shaped.node _ _ _ ?_ ?_
      · intro k hk
        obtain ⟨r, r1, rfl⟩ := key k hk
        refine ⟨by rw [(build_depth ..).1], ?_⟩
        intro st' h'
        rw [h] at h'
        cases h'
        rw [(build_depth ..).2]
        have := hrot _ _ h r r1
        simp only [P3.add]
        omega
      · intro k hk
        obtain ⟨r, r1, rfl⟩ := key k hk
        exact ih _

end Verif.SubDiv
