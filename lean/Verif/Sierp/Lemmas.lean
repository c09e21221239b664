import Mathlib.Tactic.Linarith
import Mathlib.Tactic.Ring
import Mathlib.Tactic.FieldSimp
import Mathlib.Tactic.Positivity
import Mathlib.Tactic.SplitIfs
import Mathlib.Data.List.Basic
import Mathlib.Data.List.Induction
import Verif.Sierp.Model

/-! # Cross infill: lemmas -/

namespace Verif.Sierp

open Spec

/-! ## Triangles -/

/-- The next triangle is not larger. -/
def Down (l : List Tri) : Prop := l.IsChain fun t u => exitLevel t ≤ entryLevel u

/-- Only at the start is there a node of depth zero. -/
def Begun (l : List Tri) : Prop := l = [root] ∨ ∀ t ∈ l, 1 ≤ t.depth

theorem chain_replace {α : Type} {R : α → α → Prop} {A M M' B : List α} (h : (A ++ M ++ B).IsChain R) (h' : M'.IsChain R) (hn : M ≠ []) (hn' : M' ≠ [])
    (hl : ∀ x m m', A.getLast? = some x → M.head? = some m → M'.head? = some m' → R x m → R x m')
    (hr : ∀ y m m', B.head? = some y → M.getLast? = some m → M'.getLast? = some m' → R m y → R m' y) : (A ++ M' ++ B).IsChain R := by
  obtain ⟨m0, hm0⟩ : ∃ m, M.head? = some m := by cases M with
    | nil => exact absurd rfl hn
    | cons a l => exact ⟨a, rfl⟩
  obtain ⟨m1, hm1⟩ : ∃ m, M.getLast? = some m := by
    rw [List.getLast?_eq_some_getLast hn]; exact ⟨_, rfl⟩
  rw [List.isChain_append, List.isChain_append] at h ⊢
  obtain ⟨⟨hA, _, hAM⟩, hB, hMB⟩ := h
  refine ⟨⟨hA, h', ?_⟩, hB, ?_⟩
  · intro x hx y hy
    exact hl x m0 y hx hm0 hy (hAM x hx m0 hm0)
  · intro x hx y hy
    rw [List.getLast?_append_of_ne_nil _ hn'] at hx
    rw [List.getLast?_append_of_ne_nil _ hn] at hMB
    exact hr y m1 x hy hm1 hx (hMB m1 hm1 y hy)

theorem kids_split {env : Env} {t : Tri} (h1 : 1 ≤ t.depth) (hk : kids env t ≠ []) : kids env t = split t := by
  unfold kids at hk ⊢
  rw [if_neg (by omega)] at hk ⊢
  split_ifs at hk ⊢ with h
  · rfl
  · exact absurd rfl hk

theorem kids_ne {env : Env} {t : Tri} : kids env t ≠ [] ↔ t.depth = 0 ∨ t.depth < env.maxDepth := by
  unfold kids
  split_ifs with h0 h1
  · simp [halves, h0]
  · simp [split, h1]
  · simp [h0, h1]

theorem kids_depth {env : Env} {t u : Tri} (h : u ∈ kids env t) : u.depth = t.depth + 1 := by
  unfold kids at h
  split_ifs at h with h0 h1
  · simp [halves] at h; rcases h with rfl | rfl <;> simp [h0]
  · simp [split] at h; rcases h with rfl | rfl <;> rfl
  · cases h

/-- A range that is divided. -/
def Ranged (A r B : List Tri) : Prop :=
  (∃ e, r = [e] ∧ (e.dir = .abBc → A = []) ∧ (e.dir = .acAb → B = [])) ∨ ∃ p e, r = [p, e] ∧ e.dir = .abBc

theorem split_down {env : Env} {A r B : List Tri} (h : Down (A ++ r ++ B)) (hr : Ranged A r B) (hd : ∀ t ∈ r, 1 ≤ t.depth) (hk : ∀ t ∈ r, kids env t ≠ []) :
    Down (A ++ r.flatMap (kids env) ++ B) := by
  rcases hr with ⟨e, rfl, hA, hB⟩ | ⟨p, e, rfl, he⟩
  · have hs := kids_split (hd e (by simp)) (hk e (by simp))
    rw [List.flatMap_singleton, hs]
    refine chain_replace h ?_ (by simp) (by simp [split]) ?_ ?_
    · obtain ⟨c, a, b, dir, left, depth, second, id⟩ := e
      cases dir <;> simp [split, dirs, exitLevel, entryLevel]
    · intro x m m' hx hm hm' hxm
      simp only [List.head?_cons, Option.some.injEq] at hm
      subst hm
      simp only [split, List.head?_cons, Option.some.injEq] at hm'
      subst hm'
      obtain ⟨c, a, b, dir, left, depth, second, id⟩ := e
      cases dir <;> simp [dirs, entryLevel] at hxm hA ⊢ <;> omega
    · intro y m m' hy hm hm' hxm
      simp only [List.getLast?_singleton, Option.some.injEq] at hm
      subst hm
      simp only [split, List.getLast?_cons_cons, List.getLast?_singleton, Option.some.injEq] at hm'
      subst hm'
      obtain ⟨c, a, b, dir, left, depth, second, id⟩ := e
      cases dir <;> simp [dirs, exitLevel] at hxm hB ⊢ <;> first | omega | skip
      subst hB; cases hy
  · have hs := kids_split (hd e (by simp)) (hk e (by simp))
    have hs' := kids_split (hd p (by simp)) (hk p (by simp))
    have hpe : exitLevel p ≤ entryLevel e := by
      unfold Down at h
      rw [List.append_assoc, List.isChain_append] at h
      have := h.2.1
      simp only [List.cons_append, List.nil_append] at this
      exact (List.isChain_cons_cons.1 this).1
    have hf : [p, e].flatMap (kids env) = split p ++ split e := by simp [hs, hs']
    rw [hf]
    refine chain_replace h ?_ (by simp) (by simp [split]) ?_ ?_
    · obtain ⟨c, a, b, dir, left, depth, second, id⟩ := e
      obtain ⟨c', a', b', dir', left', depth', second', id'⟩ := p
      subst he
      cases dir' <;> simp [split, dirs, exitLevel, entryLevel] at hpe ⊢ <;> omega
    · intro x m m' hx hm hm' hxm
      simp only [List.head?_cons, Option.some.injEq] at hm
      subst hm
      simp only [split, List.cons_append, List.head?_cons, Option.some.injEq] at hm'
      subst hm'
      obtain ⟨c, a, b, dir, left, depth, second, id⟩ := p
      cases dir <;> simp [dirs, entryLevel] at hxm ⊢ <;> omega
    · intro y m m' hy hm hm' hxm
      simp only [List.getLast?_cons_cons, List.getLast?_singleton, Option.some.injEq] at hm
      subst hm
      simp only [split, List.cons_append, List.nil_append, List.getLast?_cons_cons, List.getLast?_singleton, Option.some.injEq] at hm'
      subst hm'
      obtain ⟨c, a, b, dir, left, depth, second, id⟩ := e
      subst he
      simp [dirs, exitLevel] at hxm ⊢
      omega

/-- The straight corner changes side with each division. -/
def Sided (l : List Tri) : Prop := ∀ t ∈ l, 1 ≤ t.depth → t.left = decide (t.depth % 2 = 0)

theorem split_connected {env : Env} {A r B : List Tri} (h : Connected (A ++ r ++ B)) (hw : Down (A ++ r ++ B)) (hs : Sided r) (hr : Ranged A r B)
    (he : ∀ p e, r = [p, e] → e.depth ≤ p.depth) (hd : ∀ t ∈ r, 1 ≤ t.depth) (hk : ∀ t ∈ r, kids env t ≠ []) : Connected (A ++ r.flatMap (kids env) ++ B) := by
  rcases hr with ⟨e, rfl, hA, hB⟩ | ⟨p, e, rfl, hdir⟩
  · have hs := kids_split (hd e (by simp)) (hk e (by simp))
    rw [List.flatMap_singleton, hs]
    refine chain_replace h ?_ (by simp) (by simp [split]) ?_ ?_
    · obtain ⟨c, a, b, dir, left, depth, second, id⟩ := e
      cases dir <;> cases left <;> simp [split, dirs, exitLevel, entryLevel, exitSide, entrySide]
    · intro x m m' hx hm hm' hxm
      simp only [List.head?_cons, Option.some.injEq] at hm
      subst hm
      simp only [split, List.head?_cons, Option.some.injEq] at hm'
      subst hm'
      obtain ⟨c, a, b, dir, left, depth, second, id⟩ := e
      cases dir
      · cases left <;> simpa [dirs, entryLevel, entrySide] using hxm
      · cases left <;> simpa [dirs, entryLevel, entrySide] using hxm
      · rw [hA rfl] at hx; cases hx
    · intro y m m' hy hm hm' hxm
      simp only [List.getLast?_singleton, Option.some.injEq] at hm
      subst hm
      simp only [split, List.getLast?_cons_cons, List.getLast?_singleton, Option.some.injEq] at hm'
      subst hm'
      obtain ⟨c, a, b, dir, left, depth, second, id⟩ := e
      cases dir
      · rw [hB rfl] at hy; cases hy
      · cases left <;> simpa [dirs, exitLevel, exitSide] using hxm
      · cases left <;> simpa [dirs, exitLevel, exitSide] using hxm
  · have hke := kids_split (hd e (by simp)) (hk e (by simp))
    have hkp := kids_split (hd p (by simp)) (hk p (by simp))
    have hmid : ∀ {R : Tri → Tri → Prop}, (A ++ [p, e] ++ B).IsChain R → R p e := by
      intro R h
      rw [List.append_assoc, List.isChain_append] at h
      have := h.2.1
      simp only [List.cons_append, List.nil_append] at this
      exact (List.isChain_cons_cons.1 this).1
    have hpe := hmid hw
    have hc := hmid h
    have hle := he p e rfl
    have hsp := hs p (by simp) (hd p (by simp))
    have hse := hs e (by simp) (hd e (by simp))
    have hf : [p, e].flatMap (kids env) = split p ++ split e := by simp [hke, hkp]
    rw [hf]
    have hpd : p.dir = .acAb := by
      by_contra hne
      simp only [exitLevel, entryLevel, hne, hdir, if_false, if_true] at hpe
      omega
    have hpd' : p.depth = e.depth := by
      simp only [exitLevel, entryLevel, hpd, hdir, if_true] at hpe
      omega
    refine chain_replace h ?_ (by simp) (by simp [split]) ?_ ?_
    · obtain ⟨c, a, b, dir, left, depth, second, id⟩ := e
      obtain ⟨c', a', b', dir', left', depth', second', id'⟩ := p
      subst hdir hpd hpd'
      simp only at hsp hse
      rw [← hse] at hsp
      subst hsp
      simp only [split, dirs, List.cons_append, List.nil_append, List.isChain_cons_cons, List.isChain_singleton, and_true]
      refine ⟨?_, ?_, ?_⟩
      · cases left' <;> simp [exitLevel, entryLevel, exitSide, entrySide]
      · intro hsec
        have := hc hsec
        cases left' <;> simp [exitLevel, entryLevel, exitSide, entrySide] at this ⊢
        · obtain ⟨rfl, rfl⟩ := this
          simp [Int.add_comm]
        · obtain ⟨rfl, rfl⟩ := this
          simp [Int.add_comm]
      · cases left' <;> simp [exitLevel, entryLevel, exitSide, entrySide]
    · intro x m m' hx hm hm' hxm
      simp only [List.head?_cons, Option.some.injEq] at hm
      subst hm
      simp only [split, List.cons_append, List.head?_cons, Option.some.injEq] at hm'
      subst hm'
      obtain ⟨c, a, b, dir, left, depth, second, id⟩ := p
      subst hpd
      cases left <;> simpa [dirs, entryLevel, entrySide] using hxm
    · intro y m m' hy hm hm' hxm
      simp only [List.getLast?_cons_cons, List.getLast?_singleton, Option.some.injEq] at hm
      subst hm
      simp only [split, List.cons_append, List.nil_append, List.getLast?_cons_cons, List.getLast?_singleton, Option.some.injEq] at hm'
      subst hm'
      obtain ⟨c, a, b, dir, left, depth, second, id⟩ := e
      subst hdir
      cases left <;> simpa [dirs, exitLevel, exitSide] using hxm

theorem split_sided {env : Env} {A r B : List Tri} (h : Sided (A ++ r ++ B)) (hd : ∀ t ∈ r, 1 ≤ t.depth) (hk : ∀ t ∈ r, kids env t ≠ []) :
    Sided (A ++ r.flatMap (kids env) ++ B) := by
  intro t ht h1
  simp only [List.mem_append, List.mem_flatMap] at ht
  rcases ht with (ht | ⟨u, hu, ht⟩) | ht
  · exact h t (by simp [ht]) h1
  · have hu' := h u (by simp [hu]) (hd u hu)
    rw [kids_split (hd u hu) (hk u hu)] at ht
    simp only [split, List.mem_cons, List.not_mem_nil, or_false] at ht
    rcases ht with rfl | rfl <;> simp only [hu'] <;> by_cases hp : u.depth % 2 = 0 <;> simp [hp] <;> omega
  · exact h t (by simp [ht]) h1

theorem divided_range {env : Env} {L : List Tri} : ∀ (r A B : List Tri), Divided (kids env) L (A ++ r ++ B) → (∀ t ∈ r, kids env t ≠ []) → Divided (kids env) L (A ++ r.flatMap (kids env) ++ B) := by
  intro r
  induction r with
  | nil => intro A B h _; simpa using h
  | cons t r ih =>
    intro A B h hk
    have h1 : Divided (kids env) L (A ++ t :: (r ++ B)) := by simpa using h
    have h2 := Divided.divide _ _ _ h1 (hk t (by simp))
    have h3 := ih (A ++ kids env t) B (by simpa using h2) fun u hu => hk u (by simp [hu])
    simpa using h3

theorem divided_req {env : Env} {S L : List Tri} (h : Divided (kids env) S L) : (L.map (req env)).sum = (S.map (req env)).sum := by
  induction h with
  | start => rfl
  | divide l r t _ hk ih =>
    rw [← ih]
    have : req env t = ((kids env t).map (req env)).sum := by
      have hd := kids_ne.1 hk
      have hn : env.maxDepth + 2 - t.depth = (env.maxDepth + 2 - (t.depth + 1)) + 1 := by omega
      have hc : (kids env t).map (req env) = (kids env t).map (reqFuel env (env.maxDepth + 2 - (t.depth + 1))) := by
        apply List.map_congr_left
        intro u hu
        rw [req, kids_depth hu]
      rw [hc, req, hn]
      generalize env.maxDepth + 2 - (t.depth + 1) = n
      rw [reqFuel.eq_def]
      dsimp only
      split
      · contradiction
      · rfl
    simp only [List.map_append, List.map_cons, List.sum_append, List.sum_cons, this]
    ring

/-! ## Errors -/

/-- What goes from node to node, from what comes in to what goes out. -/
def Flow (x : Rat) : List Entry → Rat → Prop
  | [], y => x = y
  | e :: es, y => e.el = x ∧ Flow (-e.er) es y

theorem flow_append {l r : List Entry} : ∀ {x y : Rat}, Flow x (l ++ r) y ↔ ∃ z, Flow x l z ∧ Flow z r y := by
  induction l with
  | nil => intro x y; simp [Flow]
  | cons e l ih => intro x y; simp [Flow, ih, and_assoc]

theorem flow_addRight {l : List Entry} (hn : l ≠ []) (d : Rat) : ∀ {x y : Rat}, Flow x l y → Flow x (addRight d l) (y - d) := by
  induction l with
  | nil => exact absurd rfl hn
  | cons e l ih =>
    intro x y h
    cases l with
    | nil =>
      obtain ⟨h1, h2⟩ := h
      simp only [Flow] at h2
      refine ⟨h1, ?_⟩
      simp only [Flow]
      linarith
    | cons f l => exact ⟨h.1, ih (by simp) h.2⟩

theorem flow_addLeft {l : List Entry} (hn : l ≠ []) (d : Rat) {x y : Rat} (h : Flow x l y) : Flow (x + d) (addLeft d l) y := by
  cases l with
  | nil => exact absurd rfl hn
  | cons e l => exact ⟨by simp only [h.1], h.2⟩

theorem addRight_zero (l : List Entry) : addRight 0 l = l := by
  induction l with
  | nil => rfl
  | cons e l ih =>
    cases l with
    | nil => simp [addRight]
    | cons f l => simp only [addRight]; rw [ih]

theorem addLeft_zero (l : List Entry) : addLeft 0 l = l := by
  cases l <;> simp [addLeft]

theorem flow_exchange {r : List Entry} {x y : Rat} (h : Flow x r y) : Flow x (exchange r) y := by
  cases r with
  | nil => exact h
  | cons e es =>
    simp only [exchange]
    induction es generalizing e x with
    | nil => exact h
    | cons f es ih =>
      simp only [exchangeFrom]
      refine ⟨h.1, ih _ ⟨?_, h.2.2⟩⟩
      have := h.2.1
      simp only
      rw [this]
      ring

theorem map_exchange (r : List Entry) : (exchange r).map Entry.t = r.map Entry.t := by
  cases r with
  | nil => rfl
  | cons e es =>
    simp only [exchange]
    induction es generalizing e with
    | nil => rfl
    | cons f es ih => simp only [exchangeFrom, List.map_cons]; rw [ih]; rfl

theorem map_addRight (d : Rat) (l : List Entry) : (addRight d l).map Entry.t = l.map Entry.t := by
  induction l with
  | nil => rfl
  | cons e l ih =>
    cases l with
    | nil => rfl
    | cons f l => simp only [addRight, List.map_cons] at ih ⊢; rw [ih]

theorem map_addLeft (d : Rat) (l : List Entry) : (addLeft d l).map Entry.t = l.map Entry.t := by
  cases l <;> rfl

theorem ne_of_map {l r : List Entry} (h : l.map Entry.t = r.map Entry.t) (hn : r ≠ []) : l ≠ [] := by
  rintro rfl
  cases r <;> simp at h hn

/-- What is asked of a list, and what it got. -/
theorem flow_sum {e' : Env} {l : List Entry} (g : Tri → Rat) : ∀ {x y : Rat}, Flow x l y → (l.map fun e => req e' e.t + (e.el + e.er) - g e.t).sum = (l.map fun e => req e' e.t - g e.t).sum + (x - y) := by
  induction l with
  | nil => intro x y h; simp [Flow] at h; simp [h]
  | cons e l ih =>
    intro x y h
    simp only [List.map_cons, List.sum_cons, ih h.2, h.1]
    ring

/-- What `redistribute` does. -/
theorem redistribute_eq (env : Env) (sub : Bool) (pre range post : List Entry) :
    ∃ dl dr : Rat, redistribute env sub pre range post = (addRight dl pre, addRight (-dr) (addLeft (-dl) (exchange range)), addLeft dr post) ∧
      0 ≤ dl ∧ 0 ≤ dr ∧ (pre = [] → dl = 0) ∧ (post = [] → dr = 0) ∧
      (dl + dr = 0 ∨ dl + dr ≤ ((exchange range).map fun e => if sub then subErr env e else valErr env e).sum) := by
  unfold redistribute
  dsimp only
  generalize ((exchange range).map fun e => if sub then subErr env e else valErr env e).sum = T
  generalize firstEl (exchange range) = l
  generalize lastEr (exchange range) = r
  have ha : (0 : Rat) < allowed := by unfold allowed; norm_num
  have hz : (pre, exchange range, post) = (addRight 0 pre, addRight (-0) (addLeft (-0) (exchange range)), addLeft 0 post) := by
    simp [addRight_zero, addLeft_zero]
  split_ifs with h1 h2 h3 h4
  · exact ⟨0, 0, hz, le_refl _, le_refl _, fun _ => rfl, fun _ => rfl, Or.inl (by norm_num)⟩
  · obtain ⟨h2a, h2b, h2c, h2d⟩ := h2
    have hT : 0 < T := by linarith
    have hl : 0 < l := lt_trans ha h2c
    have hr : 0 < r := lt_trans ha h2d
    have hs : 0 < l + r := by linarith
    have hm : 0 < min T (l + r) := lt_min hT hs
    refine ⟨_, _, rfl, by positivity, by positivity, fun h => absurd h h2a, fun h => absurd h h2b, Or.inr ?_⟩
    have : min T (l + r) * l / (l + r) + min T (l + r) * r / (l + r) = min T (l + r) := by
      rw [← add_div, ← mul_add, mul_div_assoc, div_self hs.ne', mul_one]
    rw [this]
    exact min_le_left _ _
  · refine ⟨min T l, 0, by simp [addRight_zero, addLeft_zero], ?_, le_refl _, fun h => absurd h h3.1, fun _ => rfl, Or.inr (by simp)⟩
    exact le_min (by linarith) (by linarith [h3.2])
  · refine ⟨0, min T r, by simp [addRight_zero, addLeft_zero], le_refl _, ?_, fun _ => rfl, fun h => absurd h h4.1, Or.inr (by simp)⟩
    exact le_min (by linarith) (by linarith [h4.2])
  · exact ⟨0, 0, hz, le_refl _, le_refl _, fun _ => rfl, fun _ => rfl, Or.inl (by norm_num)⟩

/-- Nothing is in the list without the value for it. -/
def Worth (env : Env) (l : List Entry) : Prop := ∀ e ∈ l, -(1 / 10000) ≤ valErr env e

theorem worth_append {env : Env} {l r : List Entry} : Worth env (l ++ r) ↔ Worth env l ∧ Worth env r := by
  simp only [Worth, List.mem_append]
  exact ⟨fun h => ⟨fun e he => h e (Or.inl he), fun e he => h e (Or.inr he)⟩, fun h e he => he.elim (h.1 e) (h.2 e)⟩

theorem worth_addRight {env : Env} {l : List Entry} {d : Rat} (hd : 0 ≤ d) (h : Worth env l) : Worth env (addRight d l) := by
  induction l with
  | nil => exact h
  | cons e l ih =>
    cases l with
    | nil =>
      intro f hf
      simp only [addRight, List.mem_singleton] at hf
      subst hf
      have := h e (by simp)
      simp only [valErr, errored] at this ⊢
      linarith
    | cons f l =>
      intro g hg
      simp only [addRight, List.mem_cons] at hg
      rcases hg with rfl | hg
      · exact h _ (by simp)
      · exact ih (fun k hk => h k (by simp [hk])) g hg

theorem worth_addLeft {env : Env} {l : List Entry} {d : Rat} (hd : 0 ≤ d) (h : Worth env l) : Worth env (addLeft d l) := by
  cases l with
  | nil => exact h
  | cons e l =>
    intro f hf
    simp only [addLeft, List.mem_cons] at hf
    rcases hf with rfl | hf
    · have := h e (by simp)
      simp only [valErr, errored] at this ⊢
      linarith
    · exact h f (by simp [hf])

/-! ## Balance -/

theorem map_pass (l : List (Entry × Rat)) : ∀ x : Rat, (pass x l).map Entry.t = l.map fun p => p.1.t := by
  induction l with
  | nil => intro x; rfl
  | cons p l ih => intro x; obtain ⟨e, d⟩ := p; simp only [pass, List.map_cons]; rw [ih]

theorem flow_pass (l : List (Entry × Rat)) : ∀ {x y u : Rat}, Flow x (l.map Prod.fst) y → Flow (x - u) (pass u l) (y - (u + (l.map Prod.snd).sum)) := by
  induction l with
  | nil => intro x y u h; simp only [List.map_nil, Flow] at h; simp [pass, Flow, h]
  | cons p l ih =>
    intro x y u h
    obtain ⟨e, d⟩ := p
    simp only [List.map_cons, Flow] at h
    simp only [pass, Flow, List.map_cons, List.sum_cons]
    refine ⟨by rw [h.1], ?_⟩
    have := ih (u := u + d) h.2
    rw [show -(e.er + (u + d)) = -e.er - (u + d) by ring, show y - (u + (d + (l.map Prod.snd).sum)) = y - (u + d + (l.map Prod.snd).sum) by ring]
    exact this

theorem mem_pass {env : Env} (l : List (Entry × Rat)) : ∀ {u : Rat} {f : Entry}, f ∈ pass u l → ∃ p ∈ l, valErr env f = valErr env p.1 + p.2 := by
  induction l with
  | nil => intro u f h; cases h
  | cons p l ih =>
    intro u f h
    obtain ⟨e, d⟩ := p
    simp only [pass, List.mem_cons] at h
    rcases h with rfl | h
    · exact ⟨(e, d), by simp, by simp only [valErr, errored]; ring⟩
    · obtain ⟨q, hq, h⟩ := ih h
      exact ⟨q, by simp [hq], h⟩

theorem sum_parts (l : List Rat) : (l.map fun v => if v < 0 then 0 else v).sum - (l.map fun v => if v < 0 then -v else 0).sum = l.sum := by
  induction l with
  | nil => simp
  | cons v l ih =>
    simp only [List.map_cons, List.sum_cons, ← ih]
    split_ifs <;> ring

theorem sum_nonneg' (l : List Rat) (f : Rat → Rat) (h : ∀ v, 0 ≤ f v) : 0 ≤ (l.map f).sum := by
  induction l with
  | nil => simp
  | cons v l ih => simp only [List.map_cons, List.sum_cons]; linarith [h v]

theorem le_sum' (l : List Rat) (f : Rat → Rat) (h : ∀ v, 0 ≤ f v) {v : Rat} (hv : v ∈ l) : f v ≤ (l.map f).sum := by
  induction l with
  | nil => cases hv
  | cons w l ih =>
    simp only [List.map_cons, List.sum_cons]
    rcases List.mem_cons.1 hv with rfl | hv
    · linarith [sum_nonneg' l f h]
    · linarith [ih hv, h w]

theorem sum_comp (l : List Rat) (a b : Rat) :
    (l.map fun v => if v < 0 then -v else -(a * v / b)).sum = (l.map fun v => if v < 0 then -v else 0).sum - a / b * (l.map fun v => if v < 0 then 0 else v).sum := by
  induction l with
  | nil => simp
  | cons v l ih =>
    simp only [List.map_cons, List.sum_cons, ih]
    split_ifs <;> ring

theorem balance_ok {env : Env} {l : List Entry} {x y : Rat} (h : Flow x l y) (hs : 0 ≤ (l.map (valErr env)).sum) :
    (balance env l).map Entry.t = l.map Entry.t ∧ Flow x (balance env l) y ∧ Worth env (balance env l) := by
  have hneg : (l.map fun e => if valErr env e < 0 then -valErr env e else 0) = (l.map (valErr env)).map fun v => if v < 0 then -v else 0 := by simp
  have hpos : (l.map fun e => if valErr env e < 0 then 0 else valErr env e) = (l.map (valErr env)).map fun v => if v < 0 then 0 else v := by simp
  have hn0 : ∀ v : Rat, 0 ≤ (fun v : Rat => if v < 0 then -v else 0) v := by intro v; simp only; split_ifs <;> linarith
  have hp0 : ∀ v : Rat, 0 ≤ (fun v : Rat => if v < 0 then 0 else v) v := by intro v; simp only; split_ifs <;> linarith
  have hparts := sum_parts (l.map (valErr env))
  have hadd0 := sum_nonneg' (l.map (valErr env)) _ hn0
  have hlow : ∀ e ∈ l, -valErr env e ≤ ((l.map (valErr env)).map fun v => if v < 0 then -v else 0).sum := by
    intro e he
    have := le_sum' (l.map (valErr env)) _ hn0 (List.mem_map_of_mem he)
    split_ifs at this <;> linarith
  have hcs := sum_comp (l.map (valErr env)) ((l.map (valErr env)).map fun v => if v < 0 then -v else 0).sum ((l.map (valErr env)).map fun v => if v < 0 then 0 else v).sum
  unfold balance
  dsimp only
  rw [hneg, hpos]
  have hcm : ∀ a b : Rat, ((l.map fun e => (e, if valErr env e < 0 then -valErr env e else -(a * valErr env e / b))).map Prod.snd)
      = (l.map (valErr env)).map fun v => if v < 0 then -v else -(a * v / b) := by intro a b; simp
  generalize hA : ((l.map (valErr env)).map fun v => if v < 0 then -v else 0).sum = added at *
  generalize hT : ((l.map (valErr env)).map fun v => if v < 0 then 0 else v).sum = rest at *
  split_ifs with h1 h2
  · refine ⟨rfl, h, fun e he => ?_⟩
    have := hlow e he
    rw [h1] at this
    linarith
  · refine ⟨rfl, h, fun e he => ?_⟩
    have := hlow e he
    have := le_abs_self rest
    linarith
  · have hr : 0 < rest := by
      have h0 : 0 ≤ rest := by linarith
      rcases lt_or_eq_of_le h0 with h | h
      · exact h
      · rw [← h] at h2; simp at h2
    refine ⟨by rw [map_pass]; simp, ?_, ?_⟩
    · have := flow_pass (l.map fun e => (e, if valErr env e < 0 then -valErr env e else -(added * valErr env e / rest))) (x := x) (y := y) (u := 0)
        (by simpa [Function.comp_def] using h)
      rw [hcm, hcs, div_mul_cancel₀ _ hr.ne'] at this
      simpa using this
    · intro f hf
      obtain ⟨p, hp, hv⟩ := mem_pass (env := env) _ hf
      obtain ⟨e, he, rfl⟩ := List.mem_map.1 hp
      rw [hv]
      split_ifs with hneg
      · linarith
      · have hle : added / rest ≤ 1 := by rw [div_le_one hr]; linarith
        have h3 : added * valErr env e / rest = added / rest * valErr env e := by ring
        have h4 : added / rest * valErr env e ≤ 1 * valErr env e := mul_le_mul_of_nonneg_right hle (by linarith)
        rw [h3]
        linarith

/-! ## Steps -/

/-- What holds of the triangles. -/
structure TriOk (env : Env) (l : List Tri) : Prop where
  divided : Divided (kids env) [root] l
  down : Down l
  begun : Begun l
  sided : Sided l

theorem tri_start (env : Env) : TriOk env [root] :=
  ⟨.start, List.isChain_singleton _, Or.inl rfl, fun t ht h => by
    simp only [List.mem_singleton] at ht
    subst ht
    simp [root] at h⟩

theorem tri_split {env : Env} {A r B : List Tri} (h : TriOk env (A ++ r ++ B)) (hr : Ranged A r B) (hk : ∀ t ∈ r, kids env t ≠ []) :
    TriOk env (A ++ r.flatMap (kids env) ++ B) := by
  have hdiv := divided_range r A B h.divided hk
  rcases h.begun with hb | hb
  · have hr' : A = [] ∧ r = [root] ∧ B = [] := by
      rcases hr with ⟨e, rfl, _⟩ | ⟨p, e, rfl, _⟩
      · have hl := congrArg List.length hb
        simp only [List.length_append, List.length_cons, List.length_nil] at hl
        have hA : A = [] := List.eq_nil_of_length_eq_zero (by omega)
        have hB : B = [] := List.eq_nil_of_length_eq_zero (by omega)
        subst hA hB
        simpa using hb
      · have hl := congrArg List.length hb
        simp only [List.length_append, List.length_cons, List.length_nil] at hl
        omega
    obtain ⟨rfl, rfl, rfl⟩ := hr'
    refine ⟨hdiv, ?_, Or.inr ?_, ?_⟩
    · simp [Down, kids, root, halves, exitLevel, entryLevel]
    · simp [kids, root, halves]
    · intro t ht _
      simp only [List.nil_append, List.flatMap_singleton, List.append_nil, kids, root, if_true, halves, List.mem_cons, List.not_mem_nil, or_false] at ht
      rcases ht with rfl | rfl <;> rfl
  · have hd : ∀ t ∈ r, 1 ≤ t.depth := fun t ht => hb t (by simp [ht])
    refine ⟨hdiv, split_down h.down hr hd hk, Or.inr ?_, split_sided h.sided hd hk⟩
    intro t ht
    simp only [List.mem_append, List.mem_flatMap] at ht
    rcases ht with (ht | ⟨u, hu, ht⟩) | ht
    · exact hb t (by simp [ht])
    · rw [kids_depth ht]; omega
    · exact hb t (by simp [ht])

/-- What holds of the list. -/
structure Ok (env : Env) (l : List Entry) : Prop where
  tri : TriOk env (l.map Entry.t)
  flow : Flow 0 l 0
  worth : Worth env l

theorem flow_first {l : List Entry} {x y : Rat} (h : Flow x l y) (hn : l ≠ []) : firstEl l = x := by
  cases l with
  | nil => exact absurd rfl hn
  | cons e l => simp [firstEl, h.1]

theorem flow_last {l : List Entry} (hn : l ≠ []) : ∀ {x y : Rat}, Flow x l y → lastEr l = -y := by
  induction l with
  | nil => exact absurd rfl hn
  | cons e l ih =>
    intro x y h
    cases l with
    | nil => simp only [Flow] at h; simp [lastEr, ← h.2]
    | cons f l =>
      have := ih (by simp) h.2
      simpa [lastEr] using this

theorem flow_fresh (l : List Tri) : Flow 0 (l.map fresh) 0 := by
  induction l with
  | nil => rfl
  | cons t l ih => exact ⟨rfl, by simpa [fresh] using ih⟩

theorem sum_kids (env : Env) (r : List Tri) (hk : ∀ t ∈ r, kids env t ≠ []) :
    ((r.flatMap (kids env)).map fun t => req env t - env.len t).sum = (r.map fun t => req env t - childLen env t).sum := by
  induction r with
  | nil => rfl
  | cons t r ih =>
    have h1 := divided_req (Divided.divide [] [] t (.start (parts := kids env) (start := [t])) (hk t (by simp)))
    simp only [List.nil_append, List.append_nil, List.map_cons, List.map_nil, List.sum_cons, List.sum_nil, add_zero] at h1
    have h2 : ∀ l : List Tri, (l.map fun t => req env t - env.len t).sum = (l.map (req env)).sum - (l.map env.len).sum := by
      intro l
      induction l with
      | nil => simp
      | cons u l ih => simp only [List.map_cons, List.sum_cons, ih]; ring
    simp only [List.flatMap_cons, List.map_append, List.sum_append, List.map_cons, List.sum_cons]
    rw [ih fun u hu => hk u (by simp [hu]), h2 (kids env t), h1, childLen]

theorem redistribute_ok {env : Env} {sub : Bool} {pre range post : List Entry} {x y : Rat} (hn : range ≠ []) (h1 : Flow 0 pre x) (h2 : Flow x range y) (h3 : Flow y post 0)
    (hw1 : Worth env pre) (hw3 : Worth env post) :
    ∃ pre' range' post' x' y', redistribute env sub pre range post = (pre', range', post') ∧ pre'.map Entry.t = pre.map Entry.t ∧ range'.map Entry.t = range.map Entry.t ∧
      post'.map Entry.t = post.map Entry.t ∧ Flow 0 pre' x' ∧ Flow x' range' y' ∧ Flow y' post' 0 ∧ Worth env pre' ∧ Worth env post' ∧
      (y' - x' = y - x ∨ y' - x' ≤ y - x + ((exchange range).map fun e => if sub then subErr env e else valErr env e).sum) := by
  obtain ⟨dl, dr, heq, hl, hr, hpl, hpr, hsum⟩ := redistribute_eq env sub pre range post
  have hx := flow_exchange h2
  have hxn := ne_of_map (map_exchange range) hn
  have h4 := flow_addLeft hxn (-dl) hx
  have hn4 := ne_of_map (map_addLeft (-dl) (exchange range)) hxn
  have h5 := flow_addRight hn4 (-dr) h4
  refine ⟨_, _, _, x - dl, y + dr, heq, map_addRight _ _, ?_, map_addLeft _ _, ?_, ?_, ?_, worth_addRight hl hw1, worth_addLeft hr hw3, ?_⟩
  · rw [map_addRight, map_addLeft, map_exchange]
  · by_cases hp : pre = []
    · rw [hpl hp, addRight_zero, sub_zero]; exact h1
    · exact flow_addRight hp dl h1
  · rw [show x - dl = x + -dl by ring, show y + dr = y - -dr by ring]; exact h5
  · by_cases hp : post = []
    · rw [hpr hp, addLeft_zero, add_zero]; exact h3
    · exact flow_addLeft hp dr h3
  · rcases hsum with h | h
    · left; linarith
    · right; linarith

theorem map_t_sum (g : Tri → Rat) {l r : List Entry} (h : l.map Entry.t = r.map Entry.t) : (l.map fun e => g e.t).sum = (r.map fun e => g e.t).sum := by
  have : ∀ l : List Entry, (l.map fun e => g e.t) = (l.map Entry.t).map g := by intro l; simp
  rw [this, this, h]

theorem subdivide_ok {env : Env} {pre range post : List Entry} (h : Ok env (pre ++ range ++ post)) (hr : Ranged (pre.map Entry.t) (range.map Entry.t) (post.map Entry.t))
    (hk : ∀ e ∈ range, kids env e.t ≠ []) (ht : 0 ≤ (range.map (subErr env)).sum) :
    ∃ out, subdivide env true pre range post = some out ∧ Ok env (out.1 ++ out.2) := by
  have hn : range ≠ [] := by
    rintro rfl
    rcases hr with ⟨e, h, _⟩ | ⟨p, e, h, _⟩ <;> simp at h
  obtain ⟨y, hxy, h3⟩ := flow_append.1 h.flow
  obtain ⟨x, h1, h2⟩ := flow_append.1 hxy
  obtain ⟨hw12, hw3⟩ := worth_append.1 h.worth
  obtain ⟨hw1, hw2⟩ := worth_append.1 hw12
  obtain ⟨pre', range', post', x', y', heq, hm1, hm2, hm3, f1, f2, f3, w1, w3, hd⟩ := redistribute_ok (env := env) (sub := true) hn h1 h2 h3 hw1 hw3
  have hany : range.any (fun e => (kids env e.t).isEmpty) = false := by
    rw [List.any_eq_false]
    intro e he
    simpa using hk e he
  have hn' : range' ≠ [] := ne_of_map hm2 hn
  have hkt : ∀ t ∈ range'.map Entry.t, kids env t ≠ [] := by
    rw [hm2]
    intro t ht
    obtain ⟨e, he, rfl⟩ := List.mem_map.1 ht
    exact hk e he
  have hch : (range'.flatMap fun e => (kids env e.t).map fresh) = ((range'.map Entry.t).flatMap (kids env)).map fresh := by
    rw [List.map_flatMap, List.flatMap_map]
  have hfr : ∀ l : List Tri, (l.map fresh).map Entry.t = l := by intro l; simp [Function.comp_def, fresh]
  have hcn : ((range'.map Entry.t).flatMap (kids env)).map fresh ≠ [] := by
    cases range' with
    | nil => exact absurd rfl hn'
    | cons e es =>
      have := hkt e.t (by simp)
      cases hc : kids env e.t with
      | nil => exact absurd hc this
      | cons u us => simp [hc]
  have g1 := flow_addLeft hcn (firstEl range') (flow_fresh ((range'.map Entry.t).flatMap (kids env)))
  have g2 := flow_addRight (ne_of_map (map_addLeft _ _) hcn) (lastEr range') g1
  rw [flow_first f2 hn', flow_last hn' f2, zero_add, zero_sub, neg_neg] at g2
  have hmap : (addRight (-y') (addLeft x' (((range'.map Entry.t).flatMap (kids env)).map fresh))).map Entry.t = (range.map Entry.t).flatMap (kids env) := by
    rw [map_addRight, map_addLeft, hfr, hm2]
  have hsum : 0 ≤ ((addRight (-y') (addLeft x' (((range'.map Entry.t).flatMap (kids env)).map fresh))).map (valErr env)).sum := by
    have e1 := flow_sum (e' := env) env.len g2
    have e2 : ((addRight (-y') (addLeft x' (((range'.map Entry.t).flatMap (kids env)).map fresh))).map fun e => req env e.t - env.len e.t).sum
        = ((range.map Entry.t).map fun t => req env t - childLen env t).sum := by
      rw [← sum_kids env _ (by rw [← hm2]; exact hkt), ← hmap, List.map_map]
      rfl
    have e3 := flow_sum (e' := env) (childLen env) h2
    have e4 := flow_sum (e' := env) (childLen env) (flow_exchange h2)
    have e5 := map_t_sum (fun t => req env t - childLen env t) (map_exchange range)
    rw [List.map_map] at e2
    have e6 : (range.map (subErr env)).sum = (range.map fun e => req env e.t + (e.el + e.er) - childLen env e.t).sum := rfl
    have e7 : ((exchange range).map fun e => if true = true then subErr env e else valErr env e).sum = ((exchange range).map fun e => req env e.t + (e.el + e.er) - childLen env e.t).sum := rfl
    have e8 : ((addRight (-y') (addLeft x' (((range'.map Entry.t).flatMap (kids env)).map fresh))).map (valErr env)).sum
      = ((addRight (-y') (addLeft x' (((range'.map Entry.t).flatMap (kids env)).map fresh))).map fun e => req env e.t + (e.el + e.er) - env.len e.t).sum := rfl
    have e9 : (range.map ((fun t => req env t - childLen env t) ∘ Entry.t)).sum = (range.map fun e => req env e.t - childLen env e.t).sum := rfl
    rw [e7] at hd
    rw [e8]
    rcases hd with hd | hd <;> linarith
  obtain ⟨b1, b2, b3⟩ := balance_ok (env := env) g2 hsum
  refine ⟨(pre' ++ balance env (addRight (-y') (addLeft x' (((range'.map Entry.t).flatMap (kids env)).map fresh))), post'), ?_, ?_, ?_, ?_⟩
  · unfold subdivide
    rw [hany]
    simp only [Bool.false_eq_true, if_false, if_true]
    rw [heq]
    dsimp only
    rw [hch, flow_first f2 hn', flow_last hn' f2]
  · dsimp only
    rw [List.map_append, List.map_append, b1, hmap, hm1, hm3]
    exact tri_split (by simpa [List.map_append] using h.tri) hr (by rw [← hm2]; exact hkt)
  · exact flow_append.2 ⟨y', flow_append.2 ⟨x', f1, b2⟩, f3⟩
  · exact worth_append.2 ⟨worth_append.2 ⟨w1, b3⟩, w3⟩

theorem range_eq (pre : List Entry) (e : Entry) :
    (range pre e = (pre, [e]) ∧ (e.t.dir = .abBc → pre = [])) ∨ ∃ before p, pre = before ++ [p] ∧ range pre e = (before, [p, e]) ∧ e.t.dir = .abBc := by
  unfold range
  split_ifs with h
  · right
    obtain ⟨h1, h2⟩ := h
    refine ⟨pre.dropLast, pre.getLast h2, (List.dropLast_append_getLast h2).symm, ?_, h1⟩
    rw [List.getLast?_eq_some_getLast h2]
    rfl
  · left
    exact ⟨rfl, fun hd => by by_contra hn; exact h ⟨hd, hn⟩⟩

/-- Either all is well, or it is not the end. -/
theorem walk_ok {σ : Type} {f : σ → List Entry → Entry → List Entry → Option (σ × List Entry × List Entry)} {P : List Entry → Prop}
    (hf : ∀ s pre e post, P (pre ++ e :: post) → ∃ out, f s pre e post = some out ∧ P (out.2.1 ++ out.2.2)) :
    ∀ n s pre rest, P (pre ++ rest) → ∃ out, walk f n s pre rest = some out ∧ P out.2 := by
  intro n
  induction n with
  | zero => intro s pre rest h; exact ⟨_, by rw [walk], h⟩
  | succ n ih =>
    intro s pre rest h
    cases rest with
    | nil => exact ⟨_, by rw [walk], by simpa using h⟩
    | cons e post =>
      obtain ⟨⟨s', pre', post'⟩, ho, hp⟩ := hf s pre e post h
      obtain ⟨out, h1, h2⟩ := ih s' pre' post' hp
      exact ⟨out, by rw [walk, ho]; exact h1, h2⟩

theorem depths_ok {σ : Type} {f : Nat → σ → List Entry → Entry → List Entry → Option (σ × List Entry × List Entry)} {P : List Entry → Prop}
    (hf : ∀ d s pre e post, P (pre ++ e :: post) → ∃ out, f d s pre e post = some out ∧ P (out.2.1 ++ out.2.2)) :
    ∀ ds s seq, P seq → ∃ out, depths f ds s seq = some out ∧ P out.2 := by
  intro ds
  induction ds with
  | nil => intro s seq h; exact ⟨_, by rw [depths], h⟩
  | cons d ds ih =>
    intro s seq h
    obtain ⟨⟨s', seq'⟩, h1, h2⟩ := walk_ok (hf d) seq.length s [] seq h
    obtain ⟨out, h3, h4⟩ := ih s' seq' h2
    exact ⟨out, by rw [depths, h1]; exact h3, h4⟩

/-- What is divided together. -/
theorem range_facts {env : Env} {pre post : List Entry} {e : Entry} (h : TriOk env ((pre ++ e :: post).map Entry.t)) (hc : ¬ (e.t.dir = .acAb ∧ post ≠ [])) (hk : kids env e.t ≠ []) :
    (range pre e).1 ++ (range pre e).2 = pre ++ [e] ∧ Ranged ((range pre e).1.map Entry.t) ((range pre e).2.map Entry.t) (post.map Entry.t) ∧
      (∀ b ∈ (range pre e).2, kids env b.t ≠ []) ∧ ∀ b ∈ (range pre e).2, b.t.depth ≤ e.t.depth := by
  rcases range_eq pre e with ⟨h1, h2⟩ | ⟨before, p, h1, h2, h3⟩
  · rw [h1]
    refine ⟨rfl, Or.inl ⟨e.t, rfl, fun hd => by rw [h2 hd]; rfl, fun hd => ?_⟩, by simpa using hk, by simp⟩
    by_contra hn
    exact hc ⟨hd, fun hp => hn (by rw [hp]; rfl)⟩
  · rw [h2]
    subst h1
    have hw := h.down
    unfold Down at hw
    have hpe : exitLevel p.t ≤ entryLevel e.t := by
      have : (before ++ [p] ++ e :: post).map Entry.t = before.map Entry.t ++ (p.t :: e.t :: post.map Entry.t) := by simp
      rw [this, List.isChain_append] at hw
      exact (List.isChain_cons_cons.1 hw.2.1).1
    have hle : p.t.depth ≤ e.t.depth := by
      simp only [exitLevel, entryLevel, h3, if_true] at hpe
      split_ifs at hpe <;> omega
    refine ⟨by simp, Or.inr ⟨p.t, e.t, rfl, h3⟩, ?_, ?_⟩
    · intro b hb
      simp only [List.mem_cons, List.not_mem_nil, or_false] at hb
      rcases hb with rfl | rfl
      · have := kids_ne.1 hk
        exact kids_ne.2 (by omega)
      · exact hk
    · intro b hb
      simp only [List.mem_cons, List.not_mem_nil, or_false] at hb
      rcases hb with rfl | rfl
      · exact hle
      · exact le_refl _

theorem allStep_ok (env : Env) (d : Nat) (s : Bool) (pre : List Entry) (e : Entry) (post : List Entry) (h : Ok env (pre ++ e :: post)) :
    ∃ out, allStep env d s pre e post = some out ∧ Ok env (out.2.1 ++ out.2.2) := by
  have hkeep : Ok env ((pre ++ [e]) ++ post) := by simpa using h
  unfold allStep
  dsimp only
  by_cases h1 : e.old = true ∧ e.t.depth = d
  · rw [if_neg (not_not.2 h1)]
    split_ifs with h2 h3 h4 h5
    · exact ⟨_, rfl, hkeep⟩
    · exact ⟨_, rfl, hkeep⟩
    · exfalso
      obtain ⟨_, _, _, h6⟩ := range_facts h.tri h2 h4.1
      rw [List.any_eq_true] at h5
      obtain ⟨b, hb, hb2⟩ := h5
      have := h6 b hb
      simp only [Bool.and_eq_true, decide_eq_true_eq] at hb2
      have hd : e.t.depth = d := h1.2
      omega
    · obtain ⟨h6, h7, h8, _⟩ := range_facts h.tri h2 h4.1
      obtain ⟨out, ho, hok⟩ := subdivide_ok (pre := (range pre e).1) (range := (range pre e).2) (post := post) (by rw [h6]; exact hkeep) h7 h8 h4.2.1
      rw [ho]
      exact ⟨_, rfl, hok⟩
    · exact ⟨_, rfl, hkeep⟩
  · rw [if_pos h1]
    exact ⟨_, rfl, hkeep⟩

theorem flow_mid {pre post : List Entry} {e : Entry} (h : Flow 0 (pre ++ e :: post) 0) : Flow 0 pre e.el ∧ Flow (-e.er) post 0 := by
  obtain ⟨z, h1, h2⟩ := flow_append.1 h
  obtain ⟨h2, h3⟩ := h2
  exact ⟨by rw [h2]; exact h1, h3⟩

theorem bubbleStep_ok (env : Env) (d : Nat) (s : Bool) (pre : List Entry) (e : Entry) (post : List Entry) (h : Ok env (pre ++ e :: post)) :
    ∃ out, bubbleStep env d s pre e post = some out ∧ Ok env (out.2.1 ++ out.2.2) := by
  have hkeep : Ok env ((pre ++ [e]) ++ post) := by simpa using h
  unfold bubbleStep
  dsimp only
  by_cases h1 : e.t.depth ≠ d
  · rw [if_pos h1]; exact ⟨_, rfl, hkeep⟩
  rw [if_neg h1]
  by_cases h2 : valErr env e > allowed ∧ (fwd e post = true ∨ back pre e = true)
  · rw [if_pos h2]
    refine ⟨_, rfl, ?_⟩
    dsimp only
    obtain ⟨hu, hfb⟩ := h2
    have ha : (0 : Rat) < allowed := by unfold allowed; norm_num
    obtain ⟨hf1, hf2⟩ := flow_mid h.flow
    obtain ⟨hw1, hw2⟩ := worth_append.1 h.worth
    have hw3 : Worth env post := fun f hf => hw2 f (by simp [hf])
    have hpre : back pre e = true → pre ≠ [] := by
      rintro h rfl
      simp [back] at h
    have hpost : fwd e post = true → post ≠ [] := by
      rintro h rfl
      simp [fwd] at h
    have hm1 : ∀ x : Rat, (if back pre e = true then addRight x pre else pre).map Entry.t = pre.map Entry.t := by
      intro x; split_ifs
      · exact map_addRight _ _
      · rfl
    have hm2 : ∀ x : Rat, (if fwd e post = true then addLeft x post else post).map Entry.t = post.map Entry.t := by
      intro x; split_ifs
      · exact map_addLeft _ _
      · rfl
    refine ⟨?_, ?_, ?_⟩
    · have := h.tri
      simpa [List.map_append, hm1, hm2] using this
    · rw [List.append_assoc]
      refine flow_append.2 ⟨e.el - (if back pre e = true then (if (fwd e post && back pre e) = true then valErr env e / 2 else valErr env e) else 0), ?_, rfl, ?_⟩
      · by_cases hb : back pre e = true
        · simp only [hb, if_true]; exact flow_addRight (hpre hb) _ hf1
        · simp only [hb, if_false]; simpa using hf1
      · by_cases hb : fwd e post = true
        · simp only [hb, if_true, Bool.true_and]
          rw [neg_sub, sub_eq_add_neg, add_comm]
          exact flow_addLeft (hpost hb) _ hf2
        · simp only [hb, if_false]; simpa using hf2
    · rw [List.append_assoc]
      refine worth_append.2 ⟨?_, ?_⟩
      · by_cases hb : back pre e = true
        · simp only [hb, if_true]
          exact worth_addRight (by split_ifs <;> linarith) hw1
        · simp only [hb, if_false]; exact hw1
      · refine worth_append.2 ⟨?_, ?_⟩
        · intro f hf
          simp only [List.mem_singleton] at hf
          subst hf
          have hv : valErr env e = req env e.t + (e.el + e.er) - env.len e.t := rfl
          simp only [valErr, errored] at hu ⊢
          by_cases hb : back pre e = true <;> by_cases hf : fwd e post = true <;> simp [hb, hf] at hfb ⊢ <;> linarith
        · by_cases hb : fwd e post = true
          · simp only [hb, if_true]
            exact worth_addLeft (by split_ifs <;> linarith) hw3
          · simp only [hb, if_false]; exact hw3
  · rw [if_neg h2]; exact ⟨_, rfl, hkeep⟩

theorem settleStep_ok (env : Env) (d : Nat) (s : Unit) (pre : List Entry) (e : Entry) (post : List Entry) (h : Ok env (pre ++ e :: post)) :
    ∃ out, settleStep env d s pre e post = some out ∧ Ok env (out.2.1 ++ out.2.2) := by
  have hkeep : Ok env ((pre ++ [e]) ++ post) := by simpa using h
  unfold settleStep
  split_ifs with h1
  · exact ⟨_, rfl, hkeep⟩
  · obtain ⟨hf1, hf2⟩ := flow_mid h.flow
    obtain ⟨hw1, hw2⟩ := worth_append.1 h.worth
    have hw3 : Worth env post := fun f hf => hw2 f (by simp [hf])
    obtain ⟨pre', range', post', x', y', heq, hm1, hm2, hm3, f1, f2, f3, w1, w3, hd⟩ :=
      redistribute_ok (env := env) (sub := false) (range := [e]) (by simp) hf1 (show Flow e.el [e] (-e.er) from ⟨rfl, rfl⟩) hf2 hw1 hw3
    rw [heq]
    refine ⟨_, rfl, ?_, ?_, ?_⟩
    · dsimp only
      have := h.tri
      simpa [hm1, hm2, hm3] using this
    · exact flow_append.2 ⟨y', flow_append.2 ⟨x', f1, f2⟩, f3⟩
    · refine worth_append.2 ⟨worth_append.2 ⟨w1, ?_⟩, w3⟩
      cases range' with
      | nil => simp at hm2
      | cons f fs =>
        cases fs with
        | cons g gs => simp at hm2
        | nil =>
          simp only [List.map_cons, List.map_nil, List.cons.injEq, and_true] at hm2
          intro k hk
          simp only [List.mem_singleton] at hk
          subst hk
          have he := hw2 e (by simp)
          obtain ⟨g1, g2⟩ := f2
          simp only [Flow] at g2
          simp only [exchange, exchangeFrom, List.map_cons, List.map_nil, List.sum_cons, List.sum_nil, Bool.false_eq_true, if_false] at hd
          simp only [valErr, errored] at he hd ⊢
          rw [hm2]
          rcases hd with hd | hd <;> linarith

theorem lowerLoop_ok (env : Env) (b : Bool) : ∀ n seq, Ok env seq → ∃ out, lowerLoop env b n seq = some out ∧ Ok env out := by
  intro n
  induction n with
  | zero => intro seq h; exact ⟨_, by rw [lowerLoop], h⟩
  | succ n ih =>
    intro seq h
    have h0 : Ok env (seq.map fun e => { e with old := true }) := by
      refine ⟨by simpa [Function.comp_def] using h.tri, ?_, ?_⟩
      · have hgen : ∀ (l : List Entry) (x y : Rat), Flow x l y → Flow x (l.map fun e => { e with old := true }) y := by
          intro l
          induction l with
          | nil => intro x y h; exact h
          | cons e l ih => intro x y h; exact ⟨h.1, ih _ _ h.2⟩
        exact hgen _ _ _ h.flow
      · intro f hf
        obtain ⟨e, he, rfl⟩ := List.mem_map.1 hf
        exact h.worth e he
    obtain ⟨⟨c, seq1⟩, h1, h2⟩ := depths_ok (allStep_ok env) (List.range env.maxDepth) false _ h0
    have h1' : subdivideAll env seq = some (c, seq1) := h1
    rw [lowerLoop, h1']
    dsimp only at h2 ⊢
    cases b with
    | true =>
      obtain ⟨⟨c', seq2⟩, h3, h4⟩ := depths_ok (bubbleStep_ok env) (List.range (env.maxDepth + 1)).reverse false _ h2
      have h3' : bubble env seq1 = some (c', seq2) := h3
      rw [if_pos rfl, h3']
      dsimp only at h4 ⊢
      split_ifs
      · exact ih _ h4
      · exact ⟨_, rfl, h4⟩
    | false =>
      rw [if_neg (by simp)]
      split_ifs
      · exact ih _ h2
      · exact ⟨_, rfl, h2⟩

/-- What is needed at the start: nothing is asked that is below zero. -/
theorem start_ok {env : Env} (h : env.len root ≤ req env root) : Ok env [fresh root] := by
  refine ⟨tri_start env, ⟨rfl, by simp [fresh, Flow]⟩, ?_⟩
  intro e he
  simp only [List.mem_singleton] at he
  subst he
  simp only [valErr, errored, fresh]
  linarith

theorem req_nonneg {env : Env} (h : ∀ t, 0 ≤ env.leaf t) (t : Tri) : 0 ≤ req env t := by
  have hgen : ∀ n t, 0 ≤ reqFuel env n t := by
    intro n
    induction n with
    | zero => intro t; exact h t
    | succ n ih =>
      intro t
      rw [reqFuel.eq_def]
      dsimp only
      split
      · exact h t
      · have : ∀ l : List Tri, 0 ≤ (l.map (reqFuel env n)).sum := by
          intro l
          induction l with
          | nil => simp
          | cons u l ih' => simp only [List.map_cons, List.sum_cons]; linarith [ih u]
        exact this _
  exact hgen _ t

theorem flow_fair {l : List Entry} : ∀ {x y : Rat}, Flow x l y → l.IsChain (fun e f => e.er + f.el = 0) ∧ (∀ e, l.head? = some e → e.el = x) ∧ ∀ e, l.getLast? = some e → e.er = -y := by
  induction l with
  | nil => intro x y h; simp
  | cons e l ih =>
    intro x y h
    obtain ⟨h1, h2, h3⟩ := ih h.2
    cases l with
    | nil =>
      simp only [Flow] at h
      simp [h.1, ← h.2]
    | cons f l =>
      refine ⟨List.isChain_cons_cons.2 ⟨?_, h1⟩, by simp [h.1], fun g hg => h3 g (by simpa using hg)⟩
      rw [h2 f rfl]
      ring

/-! ## Dithering -/

theorem ditherStep_ok (env : Env) (b : Bool) (s : Rat) (pre : List Entry) (e : Entry) (post : List Entry) (h : TriOk env ((pre ++ e :: post).map Entry.t)) :
    ∃ out, ditherStep env b s pre e post = some out ∧ TriOk env ((out.2.1 ++ out.2.2).map Entry.t) ∧
      (Connected ((pre ++ e :: post).map Entry.t) → Begun ((pre ++ e :: post).map Entry.t) → Connected ((out.2.1 ++ out.2.2).map Entry.t)) := by
  have heq : (pre ++ [e]) ++ post = pre ++ e :: post := by simp
  unfold ditherStep
  dsimp only
  split_ifs with h1 h2
  all_goals first | exact ⟨_, rfl, by rw [heq]; exact h, fun hc _ => by rw [heq]; exact hc⟩ | skip
  all_goals
    obtain ⟨hcon, _, hk⟩ := h2
    obtain ⟨h6, h7, h8, h9⟩ := range_facts h h1 hk
    have hany : (range pre e).2.any (fun e => (kids env e.t).isEmpty) = false := by
      rw [List.any_eq_false]
      intro e he
      simpa using h8 e he
    have hmap : ((pre ++ e :: post).map Entry.t) = (range pre e).1.map Entry.t ++ (range pre e).2.map Entry.t ++ post.map Entry.t := by
      rw [← List.map_append, h6, ← List.map_append, heq]
    have hkt : ∀ t ∈ (range pre e).2.map Entry.t, kids env t ≠ [] := by
      intro t ht
      obtain ⟨e, he, rfl⟩ := List.mem_map.1 ht
      exact h8 e he
    have hout : (((range pre e).1 ++ (range pre e).2.flatMap fun e => (kids env e.t).map fresh) ++ post).map Entry.t
        = (range pre e).1.map Entry.t ++ ((range pre e).2.map Entry.t).flatMap (kids env) ++ post.map Entry.t := by
      simp [List.map_flatMap, List.flatMap_map, Function.comp_def, fresh]
    unfold subdivide
    rw [hany]
    simp only [Bool.false_eq_true, if_false, Option.map_some]
    refine ⟨_, rfl, ?_, ?_⟩
    · dsimp only
      rw [hout]
      rw [hmap] at h
      exact tri_split h h7 hkt
    · intro hc hb
      dsimp only
      rw [hout]
      rw [hmap] at h hc
      rw [hmap] at hb
      rcases hb with hb | hb
      · have hr' : (range pre e).1.map Entry.t = [] ∧ (range pre e).2.map Entry.t = [root] ∧ post.map Entry.t = [] := by
          generalize (range pre e).1.map Entry.t = A at *
          generalize (range pre e).2.map Entry.t = r at *
          generalize post.map Entry.t = B at *
          rcases h7 with ⟨e, rfl, _⟩ | ⟨p, e, rfl, _⟩
          · have hl := congrArg List.length hb
            simp only [List.length_append, List.length_cons, List.length_nil] at hl
            have hA : A = [] := List.eq_nil_of_length_eq_zero (by omega)
            have hB : B = [] := List.eq_nil_of_length_eq_zero (by omega)
            subst hA hB
            simpa using hb
          · have hl := congrArg List.length hb
            simp only [List.length_append, List.length_cons, List.length_nil] at hl
            omega
        rw [hr'.1, hr'.2.1, hr'.2.2]
        simp [Connected, kids, root, halves]
      · refine split_connected hc h.down (fun t ht => h.sided t (by simp [ht])) h7 ?_ (fun t ht => hb t (by simp [ht])) hkt
        intro p q hpq
        rcases range_eq pre e with ⟨h10, _⟩ | ⟨before, p', h10, h11, h12⟩
        · rw [h10] at hpq; simp at hpq
        · rw [h11] at hpq hcon
          simp only [List.map_cons, List.map_nil, List.cons.injEq, and_true] at hpq
          obtain ⟨rfl, rfl⟩ := hpq
          simp only [List.length_cons, List.length_nil, Bool.or_eq_false_iff, Bool.and_eq_false_iff, decide_eq_false_iff_not] at hcon
          have hbk : back pre e = false := by
            rcases hcon.1.2 with h | h
            · exact absurd trivial h
            · exact h.2
          rw [h10] at hbk
          simp [back, h12] at hbk
          exact hbk

theorem dither_ok (env : Env) (b : Bool) (seq : List Entry) (h : TriOk env (seq.map Entry.t)) :
    ∃ out, dither env b seq = some out ∧ TriOk env (out.map Entry.t) ∧ (Connected (seq.map Entry.t) → Connected (out.map Entry.t)) := by
  obtain ⟨out, h1, h2, h3⟩ := walk_ok (f := ditherStep env b) (P := fun l => TriOk env (l.map Entry.t) ∧ (Connected (seq.map Entry.t) → Connected (l.map Entry.t)))
    (fun s pre e post hp => by
      obtain ⟨out, h1, h2, h3⟩ := ditherStep_ok env b s pre e post hp.1
      exact ⟨out, h1, h2, fun hc => h3 (hp.2 hc) hp.1.begun⟩) seq.length 0 [] seq ⟨h, fun hc => hc⟩
  exact ⟨out.2, by rw [dither, h1]; rfl, h2, h3⟩

/-! ## Area -/

/-- All corners are on a grid. -/
def OnGrid (n : Int) (t : Tri) : Prop := n ∣ t.a.1 ∧ n ∣ t.a.2 ∧ n ∣ t.b.1 ∧ n ∣ t.b.2 ∧ n ∣ t.c.1 ∧ n ∣ t.c.2

theorem half_dvd {n x y : Int} (hx : 2 * n ∣ x) (hy : 2 * n ∣ y) : ∃ m, (x + y).tdiv 2 = m ∧ x + y = 2 * m ∧ n ∣ m := by
  obtain ⟨p, rfl⟩ := hx
  obtain ⟨q, rfl⟩ := hy
  refine ⟨n * p + n * q, ?_, by ring, ⟨p + q, by ring⟩⟩
  rw [show 2 * n * p + 2 * n * q = 2 * (n * p + n * q) by ring, Int.mul_tdiv_cancel_left _ (by norm_num)]

theorem split_area {n : Int} {t : Tri} (h : OnGrid (2 * n) t) : ((split t).map area2).sum = area2 t ∧ ∀ u ∈ split t, OnGrid n u := by
  obtain ⟨h1, h2, h3, h4, h5, h6⟩ := h
  have hw : ∀ {z : Int}, 2 * n ∣ z → n ∣ z := fun h => Dvd.dvd.trans (Dvd.intro_left 2 rfl) h
  obtain ⟨m1, e1, f1, g1⟩ := half_dvd h1 h3
  obtain ⟨m2, e2, f2, g2⟩ := half_dvd h2 h4
  constructor
  · simp only [split, e1, e2, List.map_cons, List.map_nil, List.sum_cons, List.sum_nil, area2]
    have hb1 : t.b.1 = 2 * m1 - t.a.1 := by omega
    have hb2 : t.b.2 = 2 * m2 - t.a.2 := by omega
    rw [hb1, hb2]
    have k1 : (t.a.1 - m1) * (t.c.2 - m2) - (t.a.2 - m2) * (t.c.1 - m1) = (t.c.1 - m1) * (2 * m2 - t.a.2 - m2) - (t.c.2 - m2) * (2 * m1 - t.a.1 - m1) := by ring
    have k2 : (t.a.1 - t.c.1) * (2 * m2 - t.a.2 - t.c.2) - (t.a.2 - t.c.2) * (2 * m1 - t.a.1 - t.c.1)
        = -(2 * ((t.c.1 - m1) * (2 * m2 - t.a.2 - m2) - (t.c.2 - m2) * (2 * m1 - t.a.1 - m1))) := by ring
    rw [k1, k2, Int.natAbs_neg, Int.natAbs_mul]
    simp only [Int.reduceAbs]
    omega
  · intro u hu
    simp only [split, e1, e2, List.mem_cons, List.not_mem_nil, or_false] at hu
    rcases hu with rfl | rfl
    · exact ⟨hw h1, hw h2, hw h5, hw h6, g1, g2⟩
    · exact ⟨hw h5, hw h6, hw h3, hw h4, g1, g2⟩

theorem divided_area {env : Env} {L : List Tri} (h : Divided (kids env) [root] L)
    (hg : (2 : Int) ^ env.maxDepth ∣ env.lo.1 ∧ (2 : Int) ^ env.maxDepth ∣ env.lo.2 ∧ (2 : Int) ^ env.maxDepth ∣ env.hi.1 ∧ (2 : Int) ^ env.maxDepth ∣ env.hi.2) :
    L = [root] ∨ ((L.map area2).sum = 2 * ((env.hi.1 - env.lo.1) * (env.hi.2 - env.lo.2)).natAbs ∧ ∀ t ∈ L, 1 ≤ t.depth ∧ OnGrid (2 ^ (env.maxDepth - t.depth)) t) := by
  induction h with
  | start => exact Or.inl rfl
  | divide l r t _ hk ih =>
    right
    rcases ih with ih | ⟨ih, hL⟩
    · have hl := congrArg List.length ih
      simp only [List.length_append, List.length_cons, List.length_nil] at hl
      have hA : l = [] := List.eq_nil_of_length_eq_zero (by omega)
      have hB : r = [] := List.eq_nil_of_length_eq_zero (by omega)
      subst hA hB
      simp only [List.nil_append, List.cons.injEq, and_true] at ih
      subst ih
      obtain ⟨h1, h2, h3, h4⟩ := hg
      have hw : ∀ {z : Int}, (2 : Int) ^ env.maxDepth ∣ z → (2 : Int) ^ (env.maxDepth - 1) ∣ z := fun h => Dvd.dvd.trans (pow_dvd_pow 2 (by omega)) h
      constructor
      · simp only [List.nil_append, List.append_nil, kids, root, if_true, halves, List.map_cons, List.map_nil, List.sum_cons, List.sum_nil, area2]
        have k1 : (env.lo.1 - env.hi.1) * (env.hi.2 - env.lo.2) - (env.lo.2 - env.lo.2) * (env.hi.1 - env.hi.1) = -((env.hi.1 - env.lo.1) * (env.hi.2 - env.lo.2)) := by ring
        have k2 : (env.hi.1 - env.lo.1) * (env.lo.2 - env.hi.2) - (env.hi.2 - env.hi.2) * (env.lo.1 - env.lo.1) = -((env.hi.1 - env.lo.1) * (env.hi.2 - env.lo.2)) := by ring
        rw [k1, k2, Int.natAbs_neg]
        omega
      · intro t ht
        simp only [List.nil_append, List.append_nil, kids, root, if_true, halves, List.mem_cons, List.not_mem_nil, or_false] at ht
        rcases ht with rfl | rfl
        · exact ⟨le_refl _, hw h1, hw h2, hw h3, hw h4, hw h3, hw h2⟩
        · exact ⟨le_refl _, hw h3, hw h4, hw h1, hw h2, hw h1, hw h4⟩
    · obtain ⟨hd, hgr⟩ := hL t (by simp)
      have hlt : t.depth < env.maxDepth := by
        rcases kids_ne.1 hk with h | h
        · omega
        · exact h
      rw [kids_split hd hk]
      have hp : (2 : Int) ^ (env.maxDepth - t.depth) = 2 * 2 ^ (env.maxDepth - (t.depth + 1)) := by
        rw [show env.maxDepth - t.depth = (env.maxDepth - (t.depth + 1)) + 1 by omega, pow_succ]
        ring
      rw [hp] at hgr
      obtain ⟨hs1, hs2⟩ := split_area hgr
      constructor
      · simp only [List.map_append, List.sum_append, List.map_cons, List.sum_cons] at ih ⊢
        rw [hs1]
        omega
      · intro u hu
        simp only [List.mem_append] at hu
        rcases hu with (hu | hu) | hu
        · exact hL u (by simp [hu])
        · have hdu : u.depth = t.depth + 1 := kids_depth (env := env) (by rw [kids_split hd hk]; exact hu)
          rw [hdu]
          exact ⟨by omega, hs2 u hu⟩
        · exact hL u (by simp [hu])

end Verif.Sierp
