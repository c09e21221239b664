import Verif.UnionFind.Spec

/-! # Helper lemmas: the parent vector is a forest, and `findByHandle` keeps its roots -/

namespace Verif.UnionFind
open Verif

/-- `r` is the root reached from `h` by following parents. -/
inductive Root (p : List Nat) : Nat → Nat → Prop where
  | self {h : Nat} : p[h]? = some h → Root p h h
  | step {h k r : Nat} : p[h]? = some k → k ≠ h → Root p k r → Root p h r

theorem Root.isRoot {p : List Nat} {h r : Nat} (x : Root p h r) : p[r]? = some r := by
  induction x with
  | self hh => exact hh
  | step _ _ _ ih => exact ih

theorem Root.fun_ {p : List Nat} {h r r' : Nat} (x : Root p h r) (y : Root p h r') : r = r' := by
  induction x generalizing r' with
  | self hh =>
    cases y with
    | self _ => rfl
    | step h1 h2 _ => rw [hh] at h1; exact absurd (Option.some.inj h1).symm h2
  | step h1 h2 _ ih =>
    cases y with
    | self h3 => rw [h1] at h3; exact absurd (Option.some.inj h3) h2
    | step h3 _ h5 => rw [h1] at h3; cases Option.some.inj h3; exact ih h5

theorem Root.lt {p : List Nat} {h r : Nat} (x : Root p h r) : h < p.length := by
  cases x with
  | self hh => exact (List.getElem?_eq_some_iff.1 hh).1
  | step hh _ _ => exact (List.getElem?_eq_some_iff.1 hh).1

theorem Root.lt' {p : List Nat} {h r : Nat} (x : Root p h r) : r < p.length :=
  (List.getElem?_eq_some_iff.1 x.isRoot).1

/-- Pointing `h` directly to its root changes no root. -/
theorem root_set {p : List Nat} {h r : Nat} (x : Root p h r) (a b : Nat) :
    Root (p.set h r) a b ↔ Root p a b := by
  have key : ∀ {a b}, Root p a b → Root (p.set h r) a b := by
    intro a b y
    induction y with
    | @self c hc =>
      refine .self ?_
      by_cases e : h = c
      · subst e
        have := x.fun_ (.self hc); subst this
        rw [List.getElem?_set_self x.lt]
      · rw [List.getElem?_set_ne e]; exact hc
    | @step c k b h1 h2 h3 ih =>
      by_cases e : h = c
      · subst e
        have e2 : r = b := x.fun_ (.step h1 h2 h3)
        subst e2
        have hr := x.isRoot
        have hne : r ≠ h := by
          intro e3; subst e3; rw [hr] at h1; exact h2 (Option.some.inj h1).symm
        refine .step (k := r) (by rw [List.getElem?_set_self x.lt]) hne (.self ?_)
        rw [List.getElem?_set_ne hne.symm]; exact hr
      · exact .step (by rw [List.getElem?_set_ne e]; exact h1) h2 ih
  constructor
  · intro y
    induction y with
    | @self c hc =>
      by_cases e : h = c
      · subst e
        rw [List.getElem?_set_self x.lt] at hc
        cases Option.some.inj hc; exact x
      · rw [List.getElem?_set_ne e] at hc; exact .self hc
    | @step c k b h1 h2 h3 ih =>
      by_cases e : h = c
      · subst e
        rw [List.getElem?_set_self x.lt] at h1
        cases Option.some.inj h1
        have := ih.fun_ (.self x.isRoot)
        subst this; exact x
      · rw [List.getElem?_set_ne e] at h1; exact .step h1 h2 ih
  · exact key

/-- If `h` has a root, `findByHandle` terminates, returns it, and changes no root. -/
theorem find_root {p : List Nat} {h r : Nat} (x : Root p h r) :
    ∃ p' N, p'.length = p.length ∧ (∀ a b, Root p' a b ↔ Root p a b) ∧
      ∀ fuel, N ≤ fuel → findByHandle fuel p h = .ok (p', r) := by
  induction x with
  | @self h hh =>
    refine ⟨p, 1, rfl, fun _ _ => Iff.rfl, ?_⟩
    intro fuel hf
    obtain ⟨f, rfl⟩ : ∃ f, fuel = f + 1 := ⟨fuel - 1, by omega⟩
    have hlt := (List.getElem?_eq_some_iff.1 hh).1
    have : Outcome.index p h = .ok h := Outcome.index_eq_ok.2 hh
    simp [findByHandle, this, Nat.not_le.2 hlt]
  | @step h k r h1 h2 h3 ih =>
    obtain ⟨p', N, hl, hr, hN⟩ := ih
    have hx : Root p h r := .step h1 h2 h3
    have hx' : Root p' h r := (hr _ _).2 hx
    refine ⟨p'.set h r, N + 1, by simp [hl], ?_, ?_⟩
    · intro a b; rw [root_set hx', hr]
    · intro fuel hf
      obtain ⟨f, rfl⟩ : ∃ f, fuel = f + 1 := ⟨fuel - 1, by omega⟩
      have hlt := (List.getElem?_eq_some_iff.1 h1).1
      have e1 : Outcome.index p h = .ok k := Outcome.index_eq_ok.2 h1
      have e2 : Outcome.index (p'.set h r) h = .ok r :=
        Outcome.index_eq_ok.2 (by rw [List.getElem?_set_self (by omega)])
      simp [findByHandle, e1, Nat.not_le.2 hlt, h2, hN f (by omega), e2]

/-- Hanging root `a` under root `b`. -/
theorem root_link {p : List Nat} {a b : Nat} (ha : p[a]? = some a) (hb : p[b]? = some b) (x r : Nat) :
    Root (p.set a b) x r ↔ (Root p x a ∧ r = b) ∨ (Root p x r ∧ r ≠ a) := by
  have hal := (List.getElem?_eq_some_iff.1 ha).1
  by_cases hab : a = b
  · subst hab
    have e : p.set a a = p := by
      apply List.ext_getElem?
      intro i
      by_cases e : a = i
      · subst e; rw [List.getElem?_set_self hal, ha]
      · rw [List.getElem?_set_ne e]
    rw [e]
    constructor
    · intro h
      by_cases e : r = a
      · subst e; exact .inl ⟨h, rfl⟩
      · exact .inr ⟨h, e⟩
    · rintro (⟨h, rfl⟩ | ⟨h, _⟩) <;> exact h
  · have hbb : Root (p.set a b) b b := .self (by rw [List.getElem?_set_ne hab]; exact hb)
    have haa : Root (p.set a b) a b := .step (k := b) (by rw [List.getElem?_set_self hal]) (Ne.symm hab) hbb
    constructor
    · intro y
      induction y with
      | @self c hc =>
        by_cases e : a = c
        · subst e; rw [List.getElem?_set_self hal] at hc
          exact absurd (Option.some.inj hc).symm hab
        · rw [List.getElem?_set_ne e] at hc; exact .inr ⟨.self hc, fun h => e h.symm⟩
      | @step c k r h1 h2 h3 ih =>
        by_cases e : a = c
        · subst e
          rw [List.getElem?_set_self hal] at h1
          cases Option.some.inj h1
          have := h3.fun_ hbb; subst this
          exact .inl ⟨.self ha, rfl⟩
        · rw [List.getElem?_set_ne e] at h1
          rcases ih with ⟨i1, i2⟩ | ⟨i1, i2⟩
          · exact .inl ⟨.step h1 h2 i1, i2⟩
          · exact .inr ⟨.step h1 h2 i1, i2⟩
    · rintro (⟨y, rfl⟩ | ⟨y, hne⟩)
      · induction y with
        | @self c hc => exact haa
        | @step c k r h1 h2 h3 ih =>
          have hca : r ≠ c := by
            intro e; subst e; rw [ha] at h1; exact h2 (Option.some.inj h1).symm
          exact .step (by rw [List.getElem?_set_ne hca]; exact h1) h2 (ih ha hal hab hbb haa)
      · induction y with
        | @self c hc => exact .self (by rw [List.getElem?_set_ne (Ne.symm hne)]; exact hc)
        | @step c k r h1 h2 h3 ih =>
          have hca : a ≠ c := by
            intro e; subst e; rw [ha] at h1; exact h2 (Option.some.inj h1).symm
          exact .step (by rw [List.getElem?_set_ne hca]; exact h1) h2 (ih hne)

/-- Appending a fresh singleton. -/
theorem root_append {p : List Nat} (hp : ∀ h, h < p.length → ∃ r, Root p h r) (x r : Nat) :
    Root (p ++ [p.length]) x r ↔ Root p x r ∨ (x = p.length ∧ r = p.length) := by
  have new : Root (p ++ [p.length]) p.length p.length := .self (by simp)
  have old : ∀ {x r}, Root p x r → Root (p ++ [p.length]) x r := by
    intro x r y
    induction y with
    | @self c hc =>
      have := (List.getElem?_eq_some_iff.1 hc).1
      exact .self (by rw [List.getElem?_append_left this]; exact hc)
    | @step c k r h1 h2 h3 ih =>
      have := (List.getElem?_eq_some_iff.1 h1).1
      exact .step (by rw [List.getElem?_append_left this]; exact h1) h2 ih
  constructor
  · intro y
    have hl := y.lt
    simp at hl
    by_cases e : x = p.length
    · subst e; exact .inr ⟨rfl, y.fun_ new⟩
    · obtain ⟨r', hr'⟩ := hp x (by omega)
      rw [y.fun_ (old hr')]; exact .inl hr'
  · rintro (y | ⟨rfl, rfl⟩)
    · exact old y
    · exact new

/-- Refinement invariant between the structure and its specification. -/
structure Inv {E : Type} [DecidableEq E] (s : State E) (t : Spec E) : Prop where
  len : s.parent.length = t.count
  rank : s.rank.length = t.count
  pos : ∀ e, position s e = t.latest e
  latest : ∀ e h, t.latest e = some h → h < t.count
  pairs : ∀ a b, (a, b) ∈ t.pairs → a < t.count ∧ b < t.count
  total : ∀ h, h < t.count → ∃ r, Root s.parent h r
  conn : ∀ a b r r', Root s.parent a r → Root s.parent b r' → (r = r' ↔ Connected t.pairs a b)

theorem connected_append_of_old {ps : List (Nat × Nat)} {q : Nat × Nat} {a b : Nat}
    (h : Connected ps a b) : Connected (q :: ps) a b := by
  induction h with
  | refl => exact .refl _
  | pair h => exact .pair (List.mem_cons_of_mem _ h)
  | symm _ ih => exact .symm ih
  | trans _ _ ih1 ih2 => exact .trans ih1 ih2

/-- Connectivity stays within the handles given out. -/
theorem connected_bound {ps : List (Nat × Nat)} {n : Nat} (hp : ∀ a b, (a, b) ∈ ps → a < n ∧ b < n)
    {a b : Nat} (h : Connected ps a b) : a = b ∨ (a < n ∧ b < n) := by
  induction h with
  | refl => exact .inl rfl
  | pair h => exact .inr (hp _ _ h)
  | symm _ ih => rcases ih with ih | ih; exact .inl ih.symm; exact .inr ih.symm
  | trans _ _ ih1 ih2 =>
    rcases ih1 with rfl | h1
    · exact ih2
    · rcases ih2 with rfl | h2
      · exact .inr h1
      · exact .inr ⟨h1.1, h2.2⟩

/-- Connectivity after uniting `u` and `v`. -/
theorem connected_cons {ps : List (Nat × Nat)} {u v a b : Nat} (h : Connected ((u, v) :: ps) a b) :
    Connected ps a b ∨ (Connected ps a u ∧ Connected ps v b) ∨ (Connected ps a v ∧ Connected ps u b) := by
  induction h with
  | refl => exact .inl (.refl _)
  | pair h =>
    rcases List.mem_cons.1 h with h | h
    · cases h; exact .inr (.inl ⟨.refl _, .refl _⟩)
    · exact .inl (.pair h)
  | symm _ ih =>
    rcases ih with h | ⟨h1, h2⟩ | ⟨h1, h2⟩
    · exact .inl h.symm
    · exact .inr (.inr ⟨h2.symm, h1.symm⟩)
    · exact .inr (.inl ⟨h2.symm, h1.symm⟩)
  | trans _ _ ih1 ih2 =>
    rcases ih1 with h | ⟨h1, h2⟩ | ⟨h1, h2⟩ <;> rcases ih2 with g | ⟨g1, g2⟩ | ⟨g1, g2⟩
    · exact .inl (h.trans g)
    · exact .inr (.inl ⟨h.trans g1, g2⟩)
    · exact .inr (.inr ⟨h.trans g1, g2⟩)
    · exact .inr (.inl ⟨h1, h2.trans g⟩)
    · exact .inr (.inl ⟨h1, g2⟩)
    · exact .inl (h1.trans g2)
    · exact .inr (.inr ⟨h1, h2.trans g⟩)
    · exact .inl (h1.trans g2)
    · exact .inr (.inr ⟨h1, g2⟩)

theorem inv_init {E : Type} [DecidableEq E] : Inv (E := E) init Spec.init where
  len := rfl
  rank := rfl
  pos := fun e => rfl
  latest := by simp [Spec.init]
  pairs := by simp [Spec.init]
  total := by simp [Spec.init]
  conn := by intro a b r r' h; have := h.lt; simp [init] at this

theorem inv_add {E : Type} [DecidableEq E] {s : State E} {t : Spec E} (i : Inv s t) (e : E) :
    Inv (add s e).1 (t.step (.add e)) := by
  have tot : ∀ h, h < s.parent.length → ∃ r, Root s.parent h r := by rw [i.len]; exact i.total
  refine ⟨by simp [add, Spec.step, i.len], by simp [add, Spec.step, i.rank], ?_, ?_, ?_, ?_, ?_⟩
  · intro x
    simp only [position, add, Spec.step, List.find?_cons]
    by_cases hx : x = e
    · subst hx; simp [i.len]
    · have : ¬ (e = x) := fun h => hx h.symm
      simpa [this, hx, position] using i.pos x
  · intro x h; simp only [Spec.step]
    split
    · intro hh; cases hh; omega
    · intro hh; have := i.latest x h hh; omega
  · intro a b hab; simp only [Spec.step] at *; have := i.pairs a b hab; omega
  · intro h hh
    simp only [add, Spec.step] at *
    by_cases e : h = t.count
    · subst e; rw [← i.len]; exact ⟨_, (root_append tot _ _).2 (.inr ⟨rfl, rfl⟩)⟩
    · obtain ⟨r, hr⟩ := i.total h (by omega)
      exact ⟨r, (root_append tot _ _).2 (.inl hr)⟩
  · intro a b r r' ha hb
    simp only [add, Spec.step] at *
    rw [root_append tot] at ha hb
    rcases ha with ha | ⟨rfl, rfl⟩ <;> rcases hb with hb | ⟨rfl, rfl⟩
    · exact i.conn a b r r' ha hb
    · constructor
      · intro e; have := ha.lt'; omega
      · intro h
        rcases connected_bound i.pairs h with h | h
        · have := ha.lt; omega
        · have := i.len; omega
    · constructor
      · intro e; have := hb.lt'; omega
      · intro h
        rcases connected_bound i.pairs h with h | h
        · have := hb.lt; omega
        · have := i.len; omega
    · exact ⟨fun _ => .refl _, fun _ => rfl⟩

/-- Replacing the parent vector by one with the same roots keeps the invariant. -/
theorem inv_compress {E : Type} [DecidableEq E] {s : State E} {t : Spec E} (i : Inv s t) {p' : List Nat}
    (hl : p'.length = s.parent.length) (hr : ∀ a b, Root p' a b ↔ Root s.parent a b) :
    Inv { s with parent := p' } t where
  len := hl.trans i.len
  rank := i.rank
  pos := i.pos
  latest := i.latest
  pairs := i.pairs
  total := fun h hh => (i.total h hh).imp fun r => (hr h r).2
  conn := fun a b r r' ha hb => i.conn a b r r' ((hr _ _).1 ha) ((hr _ _).1 hb)

theorem inv_link {E : Type} [DecidableEq E] {s : State E} {t : Spec E} (i : Inv s t) {a b ha hb : Nat}
    (hha : Root s.parent ha a) (hhb : Root s.parent hb b) {rank' : List Nat}
    (hrk : rank'.length = s.rank.length) {x y : Nat} (hxy : (x = a ∧ y = b) ∨ (x = b ∧ y = a)) :
    Inv { s with parent := s.parent.set x y, rank := rank' } { t with pairs := (ha, hb) :: t.pairs } := by
  have ra := hha.isRoot
  have rb := hhb.isRoot
  have rx : s.parent[x]? = some x := by rcases hxy with ⟨rfl, _⟩ | ⟨rfl, _⟩ <;> assumption
  have ry : s.parent[y]? = some y := by rcases hxy with ⟨_, rfl⟩ | ⟨_, rfl⟩ <;> assumption
  refine ⟨by simp [i.len], by simp [hrk, i.rank], i.pos, i.latest, ?_, ?_, ?_⟩
  · intro c d hcd
    rcases List.mem_cons.1 hcd with h | h
    · cases h; have := hha.lt; have := hhb.lt; have := i.len; simp; omega
    · exact i.pairs c d h
  · intro h hh
    obtain ⟨r, hr⟩ := i.total h hh
    by_cases e : r = x
    · subst e; exact ⟨y, (root_link rx ry _ _).2 (.inl ⟨hr, rfl⟩)⟩
    · exact ⟨r, (root_link rx ry _ _).2 (.inr ⟨hr, e⟩)⟩
  · intro c d r r' hc hd
    simp only [] at hc hd ⊢
    rw [root_link rx ry] at hc hd
    have huv : Connected ((ha, hb) :: t.pairs) ha hb := .pair (List.mem_cons_self ..)
    -- old-root form
    obtain ⟨oc, hoc⟩ : ∃ oc, Root s.parent c oc ∧ (oc = r ∨ (oc = x ∧ r = y)) ∧ (oc = x → r = y) := by
      rcases hc with ⟨h, rfl⟩ | ⟨h, hne⟩
      · exact ⟨x, h, .inr ⟨rfl, rfl⟩, fun _ => rfl⟩
      · exact ⟨r, h, .inl rfl, fun e => absurd e hne⟩
    obtain ⟨od, hod⟩ : ∃ od, Root s.parent d od ∧ (od = r' ∨ (od = x ∧ r' = y)) ∧ (od = x → r' = y) := by
      rcases hd with ⟨h, rfl⟩ | ⟨h, hne⟩
      · exact ⟨x, h, .inr ⟨rfl, rfl⟩, fun _ => rfl⟩
      · exact ⟨r', h, .inl rfl, fun e => absurd e hne⟩
    obtain ⟨hc1, hc2, hc3⟩ := hoc
    obtain ⟨hd1, hd2, hd3⟩ := hod
    constructor
    · intro e
      subst e
      by_cases heq : oc = od
      · exact connected_append_of_old ((i.conn c d oc od hc1 hd1).1 heq)
      · -- one of them is x, the other y
        have hxy' : (oc = a ∧ od = b) ∨ (oc = b ∧ od = a) := by
          rcases hxy with ⟨rfl, rfl⟩ | ⟨rfl, rfl⟩ <;> omega
        rcases hxy' with ⟨rfl, rfl⟩ | ⟨rfl, rfl⟩
        · have h1 := (i.conn c ha _ _ hc1 hha).1 rfl
          have h2 := (i.conn d hb _ _ hd1 hhb).1 rfl
          exact (connected_append_of_old h1).trans (huv.trans (connected_append_of_old h2).symm)
        · have h1 := (i.conn c hb _ _ hc1 hhb).1 rfl
          have h2 := (i.conn d ha _ _ hd1 hha).1 rfl
          exact (connected_append_of_old h1).trans (huv.symm.trans (connected_append_of_old h2).symm)
    · intro h
      rcases connected_cons h with h | ⟨h1, h2⟩ | ⟨h1, h2⟩
      · have := (i.conn c d oc od hc1 hd1).2 h
        omega
      · have e1 := (i.conn c ha oc a hc1 hha).2 h1
        have e2 := (i.conn hb d b od hhb hd1).2 h2
        omega
      · have e1 := (i.conn c hb oc b hc1 hhb).2 h1
        have e2 := (i.conn ha d a od hha hd1).2 h2
        omega

end Verif.UnionFind
