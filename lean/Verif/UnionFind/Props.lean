import Verif.UnionFind.Lemmas

/-! # Property theorems for the disjoint-set structure (C01, C02) -/

namespace Verif.UnionFind
open Verif

/-- One client command terminates without undefined behaviour, keeps the refinement invariant, and returns the
value that the specification prescribes. -/
theorem exec_inv {E : Type} [DecidableEq E] {s : State E} {t : Spec E} (i : Inv s t) (c : Cmd E)
    (wf : match c with
      | .unite a b => t.latest a ≠ none ∧ t.latest b ≠ none
      | _ => True) :
    ∃ s' o N, Inv s' (t.step c) ∧ (∀ fuel, N ≤ fuel → exec fuel s c = .ok (s', o)) ∧
      (match (generalizing := false) c with
       | .add _ => o = t.count
       | .find e => (t.latest e = none → o = npos) ∧
           ∀ h, t.latest e = some h → Root s'.parent h o
       | .findByHandle h => (t.count ≤ h → o = npos) ∧ (h < t.count → Root s'.parent h o)
       | .unite a b => ∀ h, (t.latest a = some h ∨ t.latest b = some h) → Root s'.parent h o) := by
  have findH : ∀ (s : State E), Inv s t → ∀ h, h < t.count → ∃ p' r N, Inv { s with parent := p' } t ∧
      Root p' h r ∧ (∀ a b, Root p' a b ↔ Root s.parent a b) ∧
      ∀ fuel, N ≤ fuel → findByHandle fuel s.parent h = .ok (p', r) := by
    intro s i h hh
    obtain ⟨r, hr⟩ := i.total h hh
    obtain ⟨p', N, hl, hR, hN⟩ := find_root hr
    exact ⟨p', r, N, inv_compress i hl hR, (hR _ _).2 hr, hR, hN⟩
  cases c with
  | add e => exact ⟨(add s e).1, (add s e).2, 0, inv_add i e, fun _ _ => rfl, i.len⟩
  | find e =>
    cases hl : t.latest e with
    | none =>
      refine ⟨s, npos, 0, i, ?_, fun _ => rfl, fun h hh => by rw [hl] at hh; cases hh⟩
      intro fuel _
      simp [exec, find, i.pos, hl]
    | some h =>
      obtain ⟨p', r, N, i', hr, _, hN⟩ := findH s i h (i.latest e h hl)
      refine ⟨{ s with parent := p' }, r, N, i', ?_, fun hh => (by rw [hl] at hh; cases hh), ?_⟩
      · intro fuel hf
        simp [exec, find, i.pos, hl, hN fuel hf]
      · intro h' hh'; rw [hl] at hh'; cases hh'; exact hr
  | findByHandle h =>
    by_cases hh : h < t.count
    · obtain ⟨p', r, N, i', hr, _, hN⟩ := findH s i h hh
      refine ⟨{ s with parent := p' }, r, N, i', ?_, fun hc => absurd hh (Nat.not_lt.2 hc), fun _ => hr⟩
      intro fuel hf
      simp [exec, hN fuel hf]
    · refine ⟨s, npos, 1, i, ?_, fun _ => rfl, fun hc => absurd hc hh⟩
      intro fuel hf
      obtain ⟨f, rfl⟩ : ∃ f, fuel = f + 1 := ⟨fuel - 1, by omega⟩
      have : s.parent.length ≤ h := by rw [i.len]; omega
      simp [exec, findByHandle, this]
  | unite a b =>
    simp only [] at wf
    obtain ⟨wa, wb⟩ := wf
    obtain ⟨ha, la⟩ := Option.ne_none_iff_exists'.1 wa
    obtain ⟨hb, lb⟩ := Option.ne_none_iff_exists'.1 wb
    obtain ⟨p1, ra, N1, i1, r1, R1, e1⟩ := findH s i ha (i.latest a ha la)
    obtain ⟨p2, rb, N2, i2, r2, R2, e2⟩ := findH _ i1 hb (i.latest b hb lb)
    simp only [] at R2 e2
    have r1' : Root p2 ha ra := (R2 _ _).2 r1
    have hra := r1'.isRoot
    have hrb := r2.isRoot
    obtain ⟨p3, N3, l3, R3, e3⟩ := find_root (.self hra : Root p2 ra ra)
    obtain ⟨p4, N4, l4, R4, e4⟩ := find_root ((R3 _ _).2 (.self hrb : Root p2 rb rb))
    have i3 : Inv { s with parent := p4 } t := by
      refine inv_compress i (by rw [l4, l3, i2.len, i.len]) ?_
      intro a b; rw [R4, R3, R2, R1]
    have q1 : Root p4 ha ra := by rw [R4, R3]; exact r1'
    have q2 : Root p4 hb rb := by rw [R4, R3]; exact r2
    have lra : ra < s.rank.length := by have := q1.lt'; rw [i.rank, ← i3.len]; exact this
    have lrb : rb < s.rank.length := by have := q2.lt'; rw [i.rank, ← i3.len]; exact this
    have k1 : Outcome.index s.rank ra = .ok s.rank[ra] := Outcome.index_eq_ok.2 (List.getElem?_eq_getElem lra)
    have k2 : Outcome.index s.rank rb = .ok s.rank[rb] := Outcome.index_eq_ok.2 (List.getElem?_eq_getElem lrb)
    have k3 : Outcome.index p4 ra = .ok ra := Outcome.index_eq_ok.2 q1.isRoot
    have k4 : Outcome.index p4 rb = .ok rb := Outcome.index_eq_ok.2 q2.isRoot
    have hstep : t.step (.unite a b) = { t with pairs := (ha, hb) :: t.pairs } := by
      simp [Spec.step, la, lb]
    have run : ∀ fuel, N1 + N2 + N3 + N4 ≤ fuel →
        exec fuel s (.unite a b) =
          if s.rank[ra] < s.rank[rb] then
            .ok ({ s with parent := p4.set ra rb, rank := s.rank.set rb (s.rank[rb] + s.rank[ra]) }, rb)
          else
            .ok ({ s with parent := p4.set rb ra, rank := s.rank.set ra (s.rank[ra] + s.rank[rb]) }, ra) := by
      intro fuel hf
      have pb : position { s with parent := p1 } b = some hb := by rw [← lb]; exact i.pos b
      simp only [exec, find, i.pos, la, pb, e1 fuel (by omega), e2 fuel (by omega), unite,
        e3 fuel (by omega), e4 fuel (by omega), Outcome.bind_ok, Outcome.pure_eq, k1, k2, k3, k4]
    have rel := fun (x y : Nat) (hx : p4[x]? = some x) (hy : p4[y]? = some y) => root_link hx hy
    by_cases hlt : s.rank[ra] < s.rank[rb]
    · refine ⟨{ s with parent := p4.set ra rb, rank := s.rank.set rb (s.rank[rb] + s.rank[ra]) }, rb, _, ?_,
        fun fuel hf => (run fuel hf).trans (if_pos hlt), ?_⟩
      · rw [hstep]
        exact inv_link i3 q1 q2 (by simp) (.inl ⟨rfl, rfl⟩)
      · intro h hh
        simp only []
        rw [rel _ _ q1.isRoot q2.isRoot]
        rw [la, lb] at hh
        rcases hh with hh | hh <;> cases hh
        · exact .inl ⟨q1, rfl⟩
        · by_cases e : rb = ra
          · subst e; exact .inl ⟨q2, rfl⟩
          · exact .inr ⟨q2, e⟩
    · refine ⟨{ s with parent := p4.set rb ra, rank := s.rank.set ra (s.rank[ra] + s.rank[rb]) }, ra, _, ?_,
        fun fuel hf => (run fuel hf).trans (if_neg hlt), ?_⟩
      · rw [hstep]
        exact inv_link i3 q1 q2 (by simp) (.inr ⟨rfl, rfl⟩)
      · intro h hh
        simp only []
        rw [rel _ _ q2.isRoot q1.isRoot]
        rw [la, lb] at hh
        rcases hh with hh | hh <;> cases hh
        · by_cases e : ra = rb
          · exact .inl ⟨e ▸ q1, rfl⟩
          · exact .inr ⟨q1, e⟩
        · exact .inl ⟨q2, rfl⟩

theorem run_inv {E : Type} [DecidableEq E] {s : State E} {t : Spec E} (i : Inv s t) (cs : List (Cmd E))
    (wf : WellFormed t cs) :
    ∃ s' os N, Inv s' (cs.foldl Spec.step t) ∧ ∀ fuel, N ≤ fuel → run fuel s cs = .ok (s', os) := by
  induction cs generalizing s t with
  | nil => exact ⟨s, [], 0, i, fun _ _ => rfl⟩
  | cons c cs ih =>
    obtain ⟨s', o, N, i', h, _⟩ := exec_inv i c wf.1
    obtain ⟨s'', os, N', i'', h'⟩ := ih i' wf.2
    refine ⟨s'', o :: os, N + N', i'', fun fuel hf => ?_⟩
    simp [run, h fuel (by omega), h' fuel (by omega)]

/-- **C01.** After any program that only unites added items (through their representatives), every `find`
terminates; an item that was never added is reported as not found; for two added items the two `find` results
are handles that were given out, and they are equal exactly when the items are connected by the united pairs. -/
theorem C01_find_iff_connected {E : Type} [DecidableEq E] (cs : List (Cmd E)) (wf : WellFormed Spec.init cs) :
    ∃ s os N, (∀ fuel, N ≤ fuel → run fuel init cs = .ok (s, os)) ∧
      (∀ e, (Spec.run cs).latest e = none → ∀ fuel, find fuel s e = .ok (s, npos)) ∧
      ∀ x y hx hy, (Spec.run cs).latest x = some hx → (Spec.run cs).latest y = some hy →
        ∃ s₁ s₂ rx ry M, ∀ fuel, M ≤ fuel →
          find fuel s x = .ok (s₁, rx) ∧ find fuel s₁ y = .ok (s₂, ry) ∧
          rx < (Spec.run cs).count ∧ ry < (Spec.run cs).count ∧
          (rx = ry ↔ Connected (Spec.run cs).pairs hx hy) := by
  obtain ⟨s, os, N, i, h⟩ := run_inv inv_init cs wf
  change Inv s (Spec.run cs) at i
  refine ⟨s, os, N, h, ?_, ?_⟩
  · intro e he fuel
    simp [find, i.pos, he]
  · intro x y hx hy lx ly
    obtain ⟨s₁, rx, N₁, i₁, h₁, o₁⟩ := exec_inv i (.find x) trivial
    obtain ⟨s₂, ry, N₂, i₂, h₂, o₂⟩ := exec_inv (s := s₁) i₁ (.find y) trivial
    have q1 := o₁.2 hx lx
    have q2 := o₂.2 hy ly
    simp only [Spec.step] at i₁ i₂
    -- the second find changes no root
    have q1' : Root s₂.parent hx rx := by
      obtain ⟨r, hr⟩ := i₁.total hy (i.latest y hy ly)
      obtain ⟨p', N₃, _, hR, hN⟩ := find_root hr
      have a := h₂ (N₂ + N₃) (by omega)
      have b := hN (N₂ + N₃) (by omega)
      simp only [exec, find, i₁.pos, ly, b, Outcome.bind_ok, Outcome.pure_eq, Outcome.ok.injEq, Prod.mk.injEq] at a
      rw [← a.1]
      exact (hR _ _).2 q1
    refine ⟨s₁, s₂, rx, ry, N₁ + N₂, fun fuel hf => ⟨h₁ fuel (by omega), h₂ fuel (by omega), ?_, ?_, ?_⟩⟩
    · rw [← i₁.len]; exact q1.lt'
    · rw [← i₂.len]; exact q2.lt'
    · exact i₂.conn hx hy rx ry q1' q2

/-- **C01.** Each command of such a program returns what it should: `add` returns a fresh handle, a lookup of an
unknown handle or item returns `npos`, and `unite` returns the representative which both items now have. -/
theorem C01_return_values {E : Type} [DecidableEq E] (cs : List (Cmd E)) (c : Cmd E)
    (wf : WellFormed Spec.init (cs ++ [c])) :
    ∃ s os s' o N, (∀ fuel, N ≤ fuel → run fuel init cs = .ok (s, os) ∧ exec fuel s c = .ok (s', o)) ∧
      (match (generalizing := false) c with
       | .add _ => o = (Spec.run cs).count
       | .find e => ((Spec.run cs).latest e = none → o = npos)
       | .findByHandle h => ((Spec.run cs).count ≤ h → o = npos) ∧ (h < (Spec.run cs).count → o < (Spec.run cs).count)
       | .unite a b => ∃ N', ∀ fuel, N' ≤ fuel →
           (∃ sa, find fuel s' a = .ok (sa, o)) ∧ (∃ sb, find fuel s' b = .ok (sb, o))) := by
  have wf2 : ∀ (t : Spec E) (cs : List (Cmd E)), WellFormed t (cs ++ [c]) →
      WellFormed t cs ∧ WellFormed (cs.foldl Spec.step t) [c] := by
    intro t cs
    induction cs generalizing t with
    | nil => intro h; exact ⟨trivial, h⟩
    | cons d ds ih => intro h; exact ⟨⟨h.1, (ih _ h.2).1⟩, (ih _ h.2).2⟩
  obtain ⟨wf, wfc⟩ := wf2 _ _ wf
  obtain ⟨s, os, N, i, h⟩ := run_inv inv_init cs wf
  obtain ⟨s', o, N', i', h', ho⟩ := exec_inv i c wfc.1
  refine ⟨s, os, s', o, N + N', fun fuel hf => ⟨h fuel (by omega), h' fuel (by omega)⟩, ?_⟩
  cases c with
  | add e => exact ho
  | find e => exact ho.1
  | findByHandle k =>
    refine ⟨ho.1, fun hk => ?_⟩
    have := (ho.2 hk).lt'
    rw [i'.len] at this
    exact this
  | unite a b =>
    have wa := wfc.1.1
    have wb := wfc.1.2
    obtain ⟨ha, la⟩ := Option.ne_none_iff_exists'.1 wa
    obtain ⟨hb, lb⟩ := Option.ne_none_iff_exists'.1 wb
    have q1 := ho ha (.inl la)
    have q2 := ho hb (.inr lb)
    obtain ⟨p1, M1, _, _, e1⟩ := find_root q1
    obtain ⟨p2, M2, _, _, e2⟩ := find_root q2
    have la' : (List.foldl Spec.step Spec.init cs |>.step (.unite a b)).latest a = some ha := by
      simp only [Spec.step, la, lb]
    have lb' : (List.foldl Spec.step Spec.init cs |>.step (.unite a b)).latest b = some hb := by
      simp only [Spec.step, la, lb]
    refine ⟨M1 + M2, fun fuel hf => ⟨⟨{ s' with parent := p1 }, ?_⟩, ⟨{ s' with parent := p2 }, ?_⟩⟩⟩
    · simp only [find, i'.pos, la', e1 fuel (by omega), Outcome.bind_ok, Outcome.pure_eq]
    · simp only [find, i'.pos, lb', e2 fuel (by omega), Outcome.bind_ok, Outcome.pure_eq]

/-- Non-vacuity: a program with adds, unions, repeated unions and lookups is well formed. -/
example : WellFormed (E := Nat) Spec.init
    [.add 10, .add 20, .add 30, .unite 10 20, .find 20, .findByHandle 7, .unite 20 10, .add 40, .unite 40 30] := by
  simp [WellFormed, Spec.step, Spec.init]

/-- Connectivity in that program is non-trivial: 10 and 20 are connected. -/
example : Connected (Spec.run (E := Nat) [.add 10, .add 20, .add 30, .unite 10 20]).pairs 0 1 :=
  .pair (by simp [Spec.run, Spec.step, Spec.init])

/-- **C02 (violated by the code).** Uniting a non-representative member with its own representative creates a
parent cycle: after `add a; add b; unite(0,1); unite(1,0)` — two valid member handles of one set — looking up
either handle never terminates. -/
theorem C02_unite_member_diverges :
    ∃ s₁ s₂ : State Nat,
      (∀ fuel, 2 ≤ fuel → unite fuel (add (add init 10).1 20).1 0 1 = .ok (s₁, 0)) ∧
      (∀ fuel, 2 ≤ fuel → unite fuel s₁ 1 0 = .ok (s₂, 1)) ∧
      ∀ fuel, find fuel s₂ 10 = .diverge ∧ find fuel s₂ 20 = .diverge := by
  refine ⟨{ items := [10, 20], pos := [(20, 1), (10, 0)], parent := [0, 0], rank := [2, 1] },
    { items := [10, 20], pos := [(20, 1), (10, 0)], parent := [1, 0], rank := [4, 1] }, ?_, ?_, ?_⟩
  · intro fuel hf
    obtain ⟨f, rfl⟩ : ∃ f, fuel = f + 2 := ⟨fuel - 2, by omega⟩
    rfl
  · intro fuel hf
    obtain ⟨f, rfl⟩ : ∃ f, fuel = f + 2 := ⟨fuel - 2, by omega⟩
    rfl
  · have key : ∀ fuel, findByHandle fuel [1, 0] 0 = .diverge ∧ findByHandle fuel [1, 0] 1 = .diverge := by
      intro fuel
      induction fuel with
      | zero => exact ⟨rfl, rfl⟩
      | succ n ih =>
        constructor
        · simp [findByHandle, Outcome.index, ih.2]
        · simp [findByHandle, Outcome.index, ih.1]
    intro fuel
    constructor
    · simp [find, position, (key fuel).1]
    · simp [find, position, (key fuel).2]

/-- **C02 (violated by the code).** Uniting two non-representative members need not merge their sets: with the
sets {0,1,2} and {3,4,5} (representatives 0 and 3), `unite(1,4)` moves only one element; afterwards handle 1 and
handle 4 agree but handle 0 (same set as 1 before) and handle 3 (same set as 4 before) still differ. -/
theorem C02_unite_members_not_merged :
    ∃ s : State Nat,
      (∀ fuel, 4 ≤ fuel → (do
        let s := (add (add (add (add (add (add init 0).1 1).1 2).1 3).1 4).1 5).1
        let (s, _) ← unite fuel s 0 1
        let (s, _) ← unite fuel s 0 2
        let (s, _) ← unite fuel s 3 4
        let (s, _) ← unite fuel s 3 5
        let (s, _) ← unite fuel s 1 4
        pure s) = .ok s) ∧
      ∀ fuel, 4 ≤ fuel →
        (∃ s', find fuel s 0 = .ok (s', 0)) ∧ (∃ s', find fuel s 3 = .ok (s', 3)) := by
  refine ⟨{ items := [0, 1, 2, 3, 4, 5], pos := [(5, 5), (4, 4), (3, 3), (2, 2), (1, 1), (0, 0)],
            parent := [0, 0, 0, 3, 1, 3], rank := [6, 1, 1, 3, 1, 1] }, ?_, ?_⟩
  · intro fuel hf
    obtain ⟨f, rfl⟩ : ∃ f, fuel = f + 4 := ⟨fuel - 4, by omega⟩
    rfl
  · intro fuel hf
    obtain ⟨f, rfl⟩ : ∃ f, fuel = f + 4 := ⟨fuel - 4, by omega⟩
    exact ⟨⟨_, rfl⟩, ⟨_, rfl⟩⟩

/-- **C02, the part that holds** (missing: arguments that are not representatives, for which the claim is false,
see the two theorems above). In any structure reached by a client that follows the representative discipline,
uniting two *representatives* terminates and merges exactly the two sets. -/
theorem C02_unite_representatives_partial {E : Type} [DecidableEq E] (cs : List (Cmd E)) (a b : E)
    (wf : WellFormed Spec.init (cs ++ [.unite a b])) :
    ∃ s os N, (∀ fuel, N ≤ fuel → run fuel init (cs ++ [.unite a b]) = .ok (s, os)) ∧
      ∀ x y hx hy, (Spec.run cs).latest x = some hx → (Spec.run cs).latest y = some hy →
        ∃ s₁ s₂ rx ry M, ∀ fuel, M ≤ fuel →
          find fuel s x = .ok (s₁, rx) ∧ find fuel s₁ y = .ok (s₂, ry) ∧
          (rx = ry ↔ Connected (Spec.run (cs ++ [.unite a b])).pairs hx hy) := by
  obtain ⟨s, os, N, h, _, h3⟩ := C01_find_iff_connected _ wf
  refine ⟨s, os, N, h, fun x y hx hy lx ly => ?_⟩
  have key : ∀ z, (Spec.run (cs ++ [.unite a b])).latest z = (Spec.run cs).latest z := by
    intro z
    simp only [Spec.run, List.foldl_append, List.foldl_cons, List.foldl_nil, Spec.step]
    split <;> rfl
  obtain ⟨s₁, s₂, rx, ry, M, hM⟩ := h3 x y hx hy ((key x).trans lx) ((key y).trans ly)
  exact ⟨s₁, s₂, rx, ry, M, fun fuel hf => ⟨(hM fuel hf).1, (hM fuel hf).2.1, (hM fuel hf).2.2.2.2⟩⟩

example : WellFormed (E := Nat) Spec.init ([.add 1, .add 2] ++ [.unite 1 2]) := by
  simp [WellFormed, Spec.step, Spec.init]

end Verif.UnionFind
