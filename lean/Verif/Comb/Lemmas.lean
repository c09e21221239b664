import Verif.Comb.Model
import Mathlib.Tactic.Linarith
import Mathlib.Tactic.SplitIfs
import Mathlib.Tactic.Ring
import Mathlib.Tactic.FieldSimp
import Mathlib.Tactic.ByContra
import Mathlib.Tactic.Tauto
import Mathlib.Data.List.Induction
import Mathlib.Data.List.Chain

/-! # Combing: lemmas -/

namespace Verif.Comb

open Spec

/-! ## Making the path shorter -/

section opt

variable (env : Env) (given : P2 → P2 → Prop)

abbrev fine (u v : P2) : Prop := Fine env.part (fun a b => env.hits a b = false) given u v

/-- A path in reverse order whose moves are all fine. -/
def Good (path : List P2) : Prop := path.IsChain fun v u => fine env given u v

variable {env given}

theorem fine_clear {u v : P2} (h : env.hits u v = false) : fine env given u v := ⟨u, v, .first, .last, .inl h⟩

theorem fine_given {u v : P2} (h : given u v) : fine env given u v := ⟨u, v, .first, .last, .inr h⟩

theorem good_drop {path : List P2} (h : Good env given path) (n : Nat) : Good env given (path.drop n) := h.drop n

theorem good_cons {p : P2} {path : List P2} (h : Good env given path) (ht : ∀ t, path.head? = some t → fine env given t p) : Good env given (p :: path) := by
  cases path with
  | nil => exact List.isChain_singleton _
  | cons t l => exact List.isChain_cons_cons.2 ⟨ht t rfl, h⟩

theorem shorten_ok (prev s : P2) (path : List P2) (hg : Good env given path) (ht : ∀ t, path.head? = some t → fine env given t prev) (hs : path.getLast? = some s) :
    ∀ fuel n, Good env given (shorten env prev path fuel n) ∧ (∀ t, (shorten env prev path fuel n).head? = some t → fine env given t prev) ∧ (shorten env prev path fuel n).getLast? = some s := by
  intro fuel
  induction fuel with
  | zero => intro n; exact ⟨hg, ht, hs⟩
  | succ k ih =>
    intro n
    rw [shorten]
    by_cases h0 : n = 0
    · rw [if_pos h0]; exact ⟨hg, ht, hs⟩
    · rw [if_neg h0]
      cases hq : path[n]? with
      | none => exact ih _
      | some q =>
        dsimp only
        by_cases hc : env.hits q prev = false
        · rw [if_pos hc]
          refine ⟨good_drop hg n, ?_, ?_⟩
          · intro t ht'
            rw [List.head?_drop, hq] at ht'
            cases ht'
            exact fine_clear hc
          · have hl : n < path.length := (List.getElem?_eq_some_iff.1 hq).1
            rw [List.getLast?_drop, if_neg (by omega)]
            exact hs
        · rw [if_neg hc]; exact ih _

theorem popWhile_ok (cur s : P2) (path : List P2) (hg : Good env given path) (ht : ∀ t, path.head? = some t → fine env given t cur) (hs : path.getLast? = some s) :
    Good env given (popWhile env cur path) ∧ (∀ t, (popWhile env cur path).head? = some t → fine env given t cur) ∧ (popWhile env cur path).getLast? = some s := by
  induction path with
  | nil => exact ⟨hg, ht, hs⟩
  | cons p l ih =>
    cases l with
    | nil => exact ⟨hg, ht, hs⟩
    | cons q l =>
      rw [popWhile]
      by_cases hc : env.hits q cur = true
      · rw [if_pos hc]; exact ⟨hg, ht, hs⟩
      · rw [if_neg hc]
        refine ih (List.isChain_cons_cons.1 hg).2 ?_ (by rw [List.getLast?_cons_cons] at hs; exact hs)
        intro t h
        cases h
        exact fine_clear (by simpa using hc)

theorem slideFirst_ok (goal c : P2) (fs : List Rat) (hf : ∀ f ∈ fs, 0 ≤ f ∧ f ≤ 1) :
    ∀ p best, On env.part c goal p → On env.part c goal best → fine env given env.start best →
      On env.part c goal (slideFirst env goal fs p best) ∧ fine env given env.start (slideFirst env goal fs p best) := by
  induction fs with
  | nil => intro p best _ h1 h2; exact ⟨h1, h2⟩
  | cons f fs ih =>
    intro p best hp h1 h2
    rw [slideFirst]
    have hq : On env.part c goal (env.part goal p f) := .between _ _ _ .last hp (hf f (by simp)).1 (hf f (by simp)).2
    by_cases hc : env.hits env.start (env.part goal p f) = false
    · rw [if_pos hc]
      exact ih (fun g hg => hf g (by simp [hg])) _ _ hq hq (fine_clear hc)
    · rw [if_neg hc]; exact ⟨h1, h2⟩

theorem slideLast_ok (before goal : P2) (fs : List Rat) (hf : ∀ f ∈ fs, 0 ≤ f ∧ f ≤ 1) :
    ∀ corner, fine env given before corner → fine env given corner goal →
      fine env given before (slideLast env before goal fs corner) ∧ fine env given (slideLast env before goal fs corner) goal := by
  induction fs with
  | nil => intro c h1 h2; exact ⟨h1, h2⟩
  | cons f fs ih =>
    intro c h1 h2
    rw [slideLast]
    by_cases hc : env.hits (env.part before c f) goal = false
    · rw [if_pos hc]
      refine ih (fun g hg => hf g (by simp [hg])) _ ?_ (fine_clear hc)
      obtain ⟨a, b, ha, hb, h⟩ := h1
      exact ⟨a, b, ha, .between _ _ _ ha hb (hf f (by simp)).1 (hf f (by simp)).2, h⟩
    · rw [if_neg hc]; exact ⟨h1, h2⟩

theorem fracs_ok : ∀ f ∈ ([9 / 10, 9 / 10, 7 / 10, 1 / 2] : List Rat), 0 ≤ f ∧ f ≤ 1 := by
  intro f hf
  simp only [List.mem_cons, List.not_mem_nil, or_false] at hf
  rcases hf with rfl | rfl | rfl | rfl <;> norm_num

/-- What is known after each point. -/
def Inv (env : Env) (given : P2 → P2 → Prop) (prev : P2) (path : List P2) : Prop :=
  Good env given path ∧ (∀ t, path.head? = some t → fine env given t prev) ∧ path.getLast? = some env.start

theorem optStep_ok (first : Bool) (prev cur : P2) (path : List P2) (flag : Bool) (hi : Inv env given prev path) (hgiv : given prev cur) (hfst : first = true → path = [env.start]) :
    Inv env given cur (optStep env first prev cur path flag).1 := by
  obtain ⟨hg, ht, hs⟩ := hi
  rw [optStep.eq_def]
  by_cases hcp : cur = prev
  · rw [if_pos hcp, hcp]; exact ⟨hg, ht, hs⟩
  · rw [if_neg hcp]
    cases path with
    | nil => simp at hs
    | cons top rest =>
      dsimp only
      by_cases hc : env.hits top cur = true
      · rw [if_pos hc]
        obtain ⟨s1, s2, s3⟩ := shorten_ok prev env.start (top :: rest) hg ht hs 9 (min 8 (top :: rest).length)
        have hne : shorten env prev (top :: rest) 9 (min 8 (top :: rest).length) ≠ [] := by
          intro h; rw [h] at s3; simp at s3
        by_cases hf : first = true
        · rw [if_pos hf]
          have hp := hfst hf
          rw [hp] at s1 s2 s3 hne ⊢
          have hsh : shorten env prev [env.start] 9 (min 8 [env.start].length) = [env.start] := by
            simp [shorten]
          simp only [show (8 : Nat) + 1 = 9 from rfl, hsh] at s2 ⊢
          obtain ⟨o1, o2⟩ := slideFirst_ok (given := given) cur prev _ fracs_ok prev prev .first .first (s2 _ rfl)
          refine ⟨good_cons (List.isChain_singleton _) ?_, ?_, by simp⟩
          · intro t h; cases h; exact o2
          · intro t h; cases h; exact ⟨prev, cur, o1, .last, .inr hgiv⟩
        · rw [if_neg hf]
          refine ⟨good_cons s1 s2, ?_, ?_⟩
          · intro t h; cases h; exact fine_given hgiv
          · show (prev :: shorten env prev (top :: rest) 9 (min 8 (top :: rest).length)).getLast? = _
            rw [show prev :: shorten env prev (top :: rest) 9 (min 8 (top :: rest).length) = [prev] ++ shorten env prev (top :: rest) 9 (min 8 (top :: rest).length) from rfl, List.getLast?_append_of_ne_nil _ hne, s3]
      · rw [if_neg hc]
        refine popWhile_ok cur env.start _ hg ?_ hs
        intro t h
        cases h
        exact fine_clear (by simpa using hc)

theorem optLoop_ok (rest : List P2) : ∀ (first : Bool) (prev : P2) (path : List P2) (flag : Bool), Inv env given prev path → (prev :: rest).IsChain given → (first = true → path = [env.start]) →
    Inv env given ((prev :: rest).getLast (by simp)) (optLoop env first prev rest path flag).1 := by
  induction rest with
  | nil => intro first prev path flag hi _ _; exact hi
  | cons c rest ih =>
    intro first prev path flag hi hc hf
    rw [optLoop]
    rw [List.isChain_cons_cons] at hc
    have := ih false c _ (optStep env first prev c path flag).2 (optStep_ok first prev c path flag hi hc.1 hf) hc.2 (by simp)
    rw [List.getLast_cons (by simp)]
    exact this

theorem finish_ok (last : P2) (path : List P2) (hi : Inv env given last path) :
    Good env given (finish env last path) ∧ (finish env last path).getLast? = some env.start ∧ (finish env last path).head? = some last := by
  obtain ⟨hg, ht, hs⟩ := hi
  cases path with
  | nil => simp at hs
  | cons p l =>
    cases l with
    | nil => exact ⟨good_cons hg ht, by simpa [finish] using hs, rfl⟩
    | cons q l =>
      rw [finish]
      by_cases hc : env.hits q last = false
      · rw [if_pos hc]
        refine ⟨good_cons (List.isChain_cons_cons.1 hg).2 ?_, by simpa using hs, rfl⟩
        intro t h
        cases h
        exact fine_clear hc
      · rw [if_neg hc]
        obtain ⟨h1, h2⟩ := slideLast_ok q last _ fracs_ok p (List.isChain_cons_cons.1 hg).1 (ht p rfl)
        refine ⟨good_cons (good_cons (List.isChain_cons_cons.1 hg).2 ?_) ?_, by simpa using hs, rfl⟩
        · intro t h; cases h; exact h1
        · intro t h; cases h; exact h2

theorem optimize_ok (comb : List P2) (hne : comb ≠ []) (hgiv : (env.start :: comb).IsChain given) :
    (optimize env comb).1.head? = some env.start ∧ (optimize env comb).1.getLast? = comb.getLast? ∧ (optimize env comb).1.IsChain (fine env given) := by
  cases comb with
  | nil => exact absurd rfl hne
  | cons c rest =>
    rw [List.isChain_cons_cons] at hgiv
    have hi : Inv env given c [env.start] := ⟨List.isChain_singleton _, by intro t h; cases h; exact fine_given hgiv.1, rfl⟩
    obtain ⟨f1, f2, f3⟩ := finish_ok _ _ (optLoop_ok rest true c [env.start] false hi hgiv.2 (fun _ => rfl))
    refine ⟨?_, ?_, ?_⟩
    · simp only [optimize, List.head?_reverse]; exact f2
    · simp only [optimize, List.getLast?_reverse, f3]
      rw [List.getLast?_eq_some_getLast (by simp)]
    · simp only [optimize]
      rw [List.isChain_reverse]
      exact f1

end opt

theorem chain_next (l : List P2) : l.IsChain (Next l) := by
  have key : ∀ (m pre : List P2), m.IsChain (Next (pre ++ m)) := by
    intro m
    induction m with
    | nil => intro pre; exact List.isChain_nil
    | cons a m ih =>
      intro pre
      cases m with
      | nil => exact List.isChain_singleton _
      | cons b m =>
        rw [List.isChain_cons_cons]
        refine ⟨⟨pre, m, rfl⟩, ?_⟩
        have := ih (pre ++ [a])
        simpa using this
  exact key l []

/-! ## Around a polygon -/

theorem fwdIdx_ok (n stop : Nat) (hs : stop < n) : ∀ (fuel i : Nat), i < n → (stop + n - i) % n < fuel → fwdIdx n stop fuel i = some (forward n i stop) := by
  intro fuel
  induction fuel with
  | zero => intro i _ h; omega
  | succ k ih =>
    intro i hi hf
    rw [fwdIdx]
    by_cases he : i = stop
    · rw [if_pos he, he]; simp [forward]
    · rw [if_neg he]
      by_cases hn : i < n - 1
      · rw [if_pos hn]
        have e : (stop + n - i) % n = (stop + n - (i + 1)) % n + 1 := by
          rcases lt_or_gt_of_ne he with h | h
          · rw [show stop + n - i = (stop - i) + n by omega, show stop + n - (i + 1) = (stop - (i + 1)) + n by omega, Nat.add_mod_right, Nat.add_mod_right, Nat.mod_eq_of_lt (by omega), Nat.mod_eq_of_lt (by omega)]; omega
          · rw [Nat.mod_eq_of_lt (by omega), Nat.mod_eq_of_lt (by omega)]; omega
        rw [ih (i + 1) (by omega) (by omega), forward, forward, e, List.range_succ_eq_map]
        simp only [Option.map_some, List.map_cons, List.map_map, Nat.add_zero, Nat.mod_eq_of_lt hi]
        congr 2
        apply List.map_congr_left
        intro a _
        simp only [Function.comp]
        congr 1
        omega
      · rw [if_neg hn]
        have hin : i = n - 1 := by omega
        subst hin
        have e1 : (stop + n - (n - 1)) % n = stop + 1 := by rw [show stop + n - (n - 1) = stop + 1 by omega]; exact Nat.mod_eq_of_lt (by omega)
        have e2 : (stop + n - 0) % n = stop := by rw [Nat.sub_zero, Nat.add_mod_right]; exact Nat.mod_eq_of_lt hs
        rw [ih 0 (by omega) (by omega), forward, forward, e1, e2, List.range_succ_eq_map]
        simp only [Option.map_some, List.map_cons, List.map_map, Nat.add_zero, Nat.mod_eq_of_lt hi]
        congr 2
        apply List.map_congr_left
        intro a _
        simp only [Function.comp]
        rw [show n - 1 + a.succ = (0 + a) + n by omega, Nat.add_mod_right]

/-- One index down. -/
def prevIdx (n i : Nat) : Nat := if i > 0 then i - 1 else n - 1

theorem backward_cons (n stop i : Nat) (hs : stop < n) (hi : i < n) (hne : i ≠ stop) :
    backward n i stop = prevIdx n i :: backward n (prevIdx n i) stop := by
  have e : (i + n - stop) % n = (prevIdx n i + n - stop) % n + 1 := by
    unfold prevIdx
    split_ifs with h
    · rcases lt_or_gt_of_ne hne with h' | h'
      · rw [Nat.mod_eq_of_lt (by omega), Nat.mod_eq_of_lt (by omega)]; omega
      · rw [show i + n - stop = (i - stop) + n by omega, show i - 1 + n - stop = (i - 1 - stop) + n by omega, Nat.add_mod_right, Nat.add_mod_right, Nat.mod_eq_of_lt (by omega), Nat.mod_eq_of_lt (by omega)]; omega
    · have : i = 0 := by omega
      subst this
      rw [show n - 1 + n - stop = (n - 1 - stop) + n by omega, Nat.add_mod_right, Nat.mod_eq_of_lt (by omega), Nat.mod_eq_of_lt (by omega)]; omega
  rw [backward, e, List.range_succ_eq_map, List.map_cons, List.map_map]
  congr 1
  · unfold prevIdx
    split_ifs with h
    · rw [show i + 2 * n - 1 - 0 = (i - 1) + n + n by omega, Nat.add_mod_right, Nat.add_mod_right, Nat.mod_eq_of_lt (by omega)]
    · have : i = 0 := by omega
      subst this
      rw [show 0 + 2 * n - 1 - 0 = (n - 1) + n by omega, Nat.add_mod_right, Nat.mod_eq_of_lt (by omega)]
  · apply List.map_congr_left
    intro a ha
    have ha' : a < n := by
      have := List.mem_range.1 ha
      exact lt_trans this (Nat.mod_lt _ (by omega))
    simp only [Function.comp]
    unfold prevIdx
    split_ifs with h
    · congr 1; omega
    · have : i = 0 := by omega
      subst this
      by_cases hz : a + 1 < n + n
      · rw [show n - 1 + 2 * n - 1 - a = (0 + 2 * n - 1 - a.succ) + n by omega, Nat.add_mod_right]
      · omega

theorem backward_self (n stop : Nat) : backward n stop stop = [] := by
  simp [backward]

/-- The points of the way back, up to where it is given up. -/
theorem revLoop_ok (env : Env) (poly n stop : Nat) (limit : Int) (hs : stop < n) (hsym : ∀ p q, env.len p q = env.len q p) :
    ∀ (fuel i : Nat) (prev : P2) (len : Int), i < n → (i + n - stop) % n < fuel → ∃ pts rl, revLoop env poly n (prevIdx n stop) limit fuel (prevIdx n i) prev len = some (pts, rl) ∧
      rl = len + wayLen env.len prev pts ∧ ((pts = (backward n i stop).map (env.off poly)) ∨ (rl > limit ∧ pts ≠ [] ∧ ∃ more, pts ++ more = (backward n i stop).map (env.off poly))) := by
  have hinj : ∀ i, i < n → (prevIdx n i = prevIdx n stop ↔ i = stop) := by
    intro i hi
    unfold prevIdx
    split_ifs <;> omega
  intro fuel
  induction fuel with
  | zero => intro i _ _ _ h; omega
  | succ k ih =>
    intro i prev len hi hf
    rw [revLoop]
    by_cases he : i = stop
    · rw [if_pos ((hinj i hi).2 he)]
      subst he
      exact ⟨[], len, rfl, by simp [wayLen], .inl (by rw [backward_self]; rfl)⟩
    · rw [if_neg (fun h => he ((hinj i hi).1 h))]
      dsimp only
      have hb := backward_cons n stop i hs hi he
      by_cases hlim : len + env.len (env.off poly (prevIdx n i)) prev > limit
      · rw [if_pos hlim]
        refine ⟨_, _, rfl, by simp [wayLen, hsym prev], .inr ⟨hlim, by simp, (backward n (prevIdx n i) stop).map (env.off poly), ?_⟩⟩
        rw [hb]; rfl
      · rw [if_neg hlim]
        have hlen : (backward n i stop).length = (backward n (prevIdx n i) stop).length + 1 := by rw [hb]; rfl
        simp only [backward, List.length_map, List.length_range] at hlen
        have hpi : prevIdx n i < n := by unfold prevIdx; split_ifs <;> omega
        obtain ⟨pts, rl, h1, h2, h3⟩ := ih (prevIdx n i) (env.off poly (prevIdx n i)) (len + env.len (env.off poly (prevIdx n i)) prev) hpi (by omega)
        have hfold : (if prevIdx n i > 0 then prevIdx n i - 1 else n - 1) = prevIdx n (prevIdx n i) := rfl
        rw [hfold, h1]
        refine ⟨_, _, rfl, ?_, ?_⟩
        · dsimp only; rw [h2, wayLen, hsym prev]; ring
        · rw [hb]
          rcases h3 with h3 | ⟨h3, _, more, h5⟩
          · left; rw [h3]; rfl
          · right; exact ⟨h3, by simp, more, by rw [List.map_cons, ← h5]; rfl⟩

theorem wayLen_append (len : P2 → P2 → Int) (l : List P2) (q : P2) : ∀ p, wayLen len p (l ++ [q]) = wayLen len p l + len (l.getLastD p) q := by
  induction l with
  | nil => intro p; simp [wayLen]
  | cons a l ih =>
    intro p
    simp only [List.cons_append, wayLen, ih a]
    rw [List.getLastD_cons]
    ring

theorem wayLen_prefix (len : P2 → P2 → Int) (hl : ∀ p q, 0 ≤ len p q) (l m : List P2) : ∀ p, wayLen len p l ≤ wayLen len p (l ++ m) := by
  induction l with
  | nil =>
    intro p
    have : ∀ (m : List P2) p, 0 ≤ wayLen len p m := by
      intro m
      induction m with
      | nil => intro p; simp [wayLen]
      | cons a m ih => intro p; rw [wayLen]; have := hl p a; have := ih a; omega
    simpa [wayLen] using this m p
  | cons a l ih => intro p; simp only [List.cons_append, wayLen]; have := ih a; omega

/-- The way around a polygon: one of the two, all of it, and not the longer one. -/
theorem around_ok (env : Env) (lo hi : Crossing) (poly : List P2) (hp : env.boundary[lo.poly]? = some poly) (h1 : lo.idx < poly.length) (h2 : hi.idx < poly.length)
    (hl : ∀ p q, 0 ≤ env.len p q) (hsym : ∀ p q, env.len p q = env.len q p) :
    ∃ way other, around env lo hi = some (env.unapply (lo.x - |env.dist|, (env.apply env.start).2) :: way ++ [env.unapply (hi.x + |env.dist|, (env.apply env.start).2)]) ∧
      ((way = (forward poly.length lo.idx hi.idx).map (env.off lo.poly) ∧ other = (backward poly.length lo.idx hi.idx).map (env.off lo.poly)) ∨
        (way = (backward poly.length lo.idx hi.idx).map (env.off lo.poly) ∧ other = (forward poly.length lo.idx hi.idx).map (env.off lo.poly))) ∧
      wayLen env.len (env.unapply (lo.x - |env.dist|, (env.apply env.start).2)) (way ++ [env.unapply (hi.x + |env.dist|, (env.apply env.start).2)]) ≤
        wayLen env.len (env.unapply (lo.x - |env.dist|, (env.apply env.start).2)) (other ++ [env.unapply (hi.x + |env.dist|, (env.apply env.start).2)]) := by
  rw [around, hp]
  dsimp only
  generalize env.unapply (lo.x - |env.dist|, (env.apply env.start).2) = first
  generalize env.unapply (hi.x + |env.dist|, (env.apply env.start).2) = last
  have hm : (hi.idx + poly.length - lo.idx) % poly.length < poly.length := Nat.mod_lt _ (by omega)
  have hm' : (lo.idx + poly.length - hi.idx) % poly.length < poly.length := Nat.mod_lt _ (by omega)
  rw [fwdIdx_ok poly.length hi.idx h2 _ _ h1 (by omega)]
  dsimp only
  have e1 : (if lo.idx = 0 then poly.length - 1 else lo.idx - 1) = prevIdx poly.length lo.idx := by unfold prevIdx; split_ifs <;> omega
  have e2 : (if hi.idx = 0 then poly.length - 1 else hi.idx - 1) = prevIdx poly.length hi.idx := by unfold prevIdx; split_ifs <;> omega
  rw [e1, e2]
  set fwd := (forward poly.length lo.idx hi.idx).map (env.off lo.poly) with hfwd
  set bwd := (backward poly.length lo.idx hi.idx).map (env.off lo.poly) with hbwd
  obtain ⟨pts, rl, h3, h4, h5⟩ := revLoop_ok env lo.poly poly.length hi.idx (fwdLen env first last fwd) h2 hsym (poly.length + 1) lo.idx first 0 h1 (by omega)
  rw [h3]
  dsimp only
  have hempty : fwd = [] ↔ bwd = [] := by
    rw [hfwd, hbwd]
    simp only [List.map_eq_nil_iff, forward, backward, List.range_eq_nil]
    constructor
    · intro h
      have : lo.idx = hi.idx := by
        by_contra hne
        rcases lt_or_gt_of_ne hne with h' | h'
        · rw [show hi.idx + poly.length - lo.idx = (hi.idx - lo.idx) + poly.length by omega, Nat.add_mod_right, Nat.mod_eq_of_lt (by omega)] at h; omega
        · rw [Nat.mod_eq_of_lt (by omega)] at h; omega
      rw [this]; simp
    · intro h
      have : lo.idx = hi.idx := by
        by_contra hne
        rcases lt_or_gt_of_ne hne with h' | h'
        · rw [Nat.mod_eq_of_lt (by omega)] at h; omega
        · rw [show lo.idx + poly.length - hi.idx = (lo.idx - hi.idx) + poly.length by omega, Nat.add_mod_right, Nat.mod_eq_of_lt (by omega)] at h; omega
      rw [this]; simp
  have hlast : ∀ l : List P2, l ≠ [] → ∀ p, wayLen env.len p (l ++ [last]) = wayLen env.len p l + env.len last (l.getLast?.getD p) := by
    intro l hne p
    rw [wayLen_append, hsym last, List.getLastD_eq_getLast?]
  have hfl : fwd ≠ [] → fwdLen env first last fwd = wayLen env.len first (fwd ++ [last]) := by
    intro hne
    rw [hlast fwd hne, fwdLen, List.getLast?_eq_some_getLast hne]
    rfl
  rw [← hbwd] at h5
  by_cases hf : fwd = []
  · have hb := hempty.1 hf
    have hpts : pts = [] := by
      rcases h5 with h | ⟨_, h, m, h'⟩
      · rw [h, hb]
      · rw [hb] at h'; simp at h'; exact absurd h'.1 h
    refine ⟨[], [], ?_, .inl ⟨hf.symm, hb.symm⟩, le_refl _⟩
    simp only [hf, hpts, ite_self]
  · have hb : bwd ≠ [] := fun h => hf (hempty.2 h)
    have hfl := hfl hf
    have hpne : pts ≠ [] := by
      rcases h5 with h | ⟨_, h, _⟩
      · rw [h]; exact hb
      · exact h
    rw [List.getLast?_eq_some_getLast hpne]
    dsimp only
    by_cases hlt : fwdLen env first last fwd < rl + env.len last (pts.getLast hpne)
    · rw [if_pos hlt]
      refine ⟨fwd, bwd, rfl, .inl ⟨rfl, rfl⟩, ?_⟩
      rw [← hfl]
      rcases h5 with h | ⟨h, _, more, h'⟩
      · have e := hlast pts hpne first
        rw [List.getLast?_eq_some_getLast hpne, Option.getD_some] at e
        rw [← h, e]
        omega
      · rw [← h', List.append_assoc]
        have := wayLen_prefix env.len hl pts (more ++ [last]) first
        omega
    · rw [if_neg hlt]
      rcases h5 with h | ⟨h, _⟩
      · refine ⟨bwd, fwd, by rw [h], .inr ⟨rfl, rfl⟩, ?_⟩
        have e := hlast pts hpne first
        rw [List.getLast?_eq_some_getLast hpne, Option.getD_some] at e
        rw [← hfl, ← h, e]
        omega
      · have := hl last (pts.getLast hpne)
        omega

/-! ## The crossings -/

/-- The sides, from a point on. -/
def sidesFrom (p0 : P2) (pts : List P2) : List (P2 × P2) := (p0 :: pts).zip pts

/-- What the code asks of a side. -/
def Hit (env : Env) (s : P2 × P2) : Prop :=
  Passes (env.apply env.start).2 s ∧ (env.apply env.start).1 ≤ meet (env.apply env.start).2 s.1 s.2 ∧ meet (env.apply env.start).2 s.1 s.2 ≤ (env.apply env.stop).1

instance (env : Env) (s : P2 × P2) : Decidable (Hit env s) := by unfold Hit; infer_instance

theorem scan_cons (env : Env) (poly : Nat) (p0 q : P2) (i : Nat) (rest : List P2) :
    scan env poly p0 i (q :: rest) = (if Hit env (p0, env.apply q) then [⟨poly, meet (env.apply env.start).2 p0 (env.apply q), i⟩] else []) ++ scan env poly (env.apply q) (i + 1) rest := by
  rw [scan]
  have hh : Hit env (p0, env.apply q) ↔ ¬ ((env.apply env.start).2 ≤ p0.2 ↔ (env.apply env.start).2 ≤ (env.apply q).2) ∧
      (env.apply env.start).1 ≤ meet (env.apply env.start).2 p0 (env.apply q) ∧ meet (env.apply env.start).2 p0 (env.apply q) ≤ (env.apply env.stop).1 := Iff.rfl
  dsimp only at *
  generalize env.apply q = p1 at hh ⊢
  generalize (env.apply env.start).2 = y at hh ⊢
  generalize scan env poly p1 (i + 1) rest = more
  by_cases h : ¬ (y ≤ p0.2 ↔ y ≤ p1.2)
  · have h1 : (p0.2 ≥ y ∧ p1.2 ≤ y) ∨ (p1.2 ≥ y ∧ p0.2 ≤ y) := by omega
    have h2 : ¬ p1.2 = p0.2 := by intro e; apply h; rw [e]
    have h3 : ¬ ((p1.2 = y ∧ p1.2 < p0.2) ∨ (p0.2 = y ∧ p0.2 < p1.2)) := by omega
    rw [if_pos h1, if_neg h2]
    by_cases hx : meet y p0 p1 ≥ (env.apply env.start).1 ∧ meet y p0 p1 ≤ (env.apply env.stop).1
    · rw [if_pos hx, if_pos h3, if_pos (hh.2 ⟨h, hx⟩)]; rfl
    · rw [if_neg hx, if_neg (fun c => hx (hh.1 c).2)]; rfl
  · rw [if_neg (fun c => h (hh.1 c).1)]
    by_cases h1 : (p0.2 ≥ y ∧ p1.2 ≤ y) ∨ (p1.2 ≥ y ∧ p0.2 ≤ y)
    · rw [if_pos h1]
      by_cases h2 : p1.2 = p0.2
      · rw [if_pos h2]; rfl
      · rw [if_neg h2]
        have h3 : ¬ ¬ ((p1.2 = y ∧ p1.2 < p0.2) ∨ (p0.2 = y ∧ p0.2 < p1.2)) := by omega
        rw [if_neg h3]
        split_ifs <;> rfl
    · rw [if_neg h1]; rfl

theorem scan_length (env : Env) (poly : Nat) (pts : List P2) : ∀ p0 i, (scan env poly p0 i pts).length = ((sidesFrom p0 (pts.map env.apply)).filter fun s => decide (Hit env s)).length := by
  induction pts with
  | nil => intro p0 i; rfl
  | cons q rest ih =>
    intro p0 i
    rw [scan_cons, List.length_append, ih]
    simp only [List.map_cons, sidesFrom, List.zip_cons_cons, List.filter_cons]
    by_cases h : Hit env (p0, env.apply q)
    · simp [h]; omega
    · simp [h]

theorem scan_mem (env : Env) (poly : Nat) (pts : List P2) : ∀ p0 i c, c ∈ scan env poly p0 i pts ↔
    c.poly = poly ∧ ∃ k, c.idx = i + k ∧ ∃ s, (sidesFrom p0 (pts.map env.apply))[k]? = some s ∧ Hit env s ∧ c.x = meet (env.apply env.start).2 s.1 s.2 := by
  induction pts with
  | nil => intro p0 i c; simp [scan, sidesFrom]
  | cons q rest ih =>
    intro p0 i c
    rw [scan_cons, List.mem_append, ih]
    have hz : sidesFrom p0 ((q :: rest).map env.apply) = (p0, env.apply q) :: sidesFrom (env.apply q) (rest.map env.apply) := rfl
    rw [hz]
    constructor
    · rintro (h | ⟨h, k, hk, s, h1, h2, h3⟩)
      · split_ifs at h with hh
        · rw [List.mem_singleton] at h
          subst h
          exact ⟨rfl, 0, rfl, _, rfl, hh, rfl⟩
        · simp at h
      · exact ⟨h, k + 1, by omega, s, h1, h2, h3⟩
    · rintro ⟨h, k, hk, s, h1, h2, h3⟩
      cases k with
      | zero =>
        left
        simp only [List.getElem?_cons_zero, Option.some.injEq] at h1
        subst h1
        rw [if_pos h2, List.mem_singleton]
        cases c
        simp_all
      | succ k => exact .inr ⟨h, k, by omega, s, h1, h2, h3⟩

theorem scan_nodup (env : Env) (poly : Nat) (pts : List P2) : ∀ p0 i, (scan env poly p0 i pts).Nodup := by
  induction pts with
  | nil => intro p0 i; exact List.nodup_nil
  | cons q rest ih =>
    intro p0 i
    rw [scan_cons]
    split_ifs
    · refine List.nodup_cons.2 ⟨?_, ih _ _⟩
      intro h
      obtain ⟨_, k, hk, _⟩ := (scan_mem env poly rest _ _ _).1 h
      dsimp only at hk
      omega
    · exact ih _ _

theorem sides_eq (env : Env) (poly : List P2) (last : P2) (h : poly.getLast? = some last) : sides (poly.map env.apply) = sidesFrom (env.apply last) (poly.map env.apply) := by
  rw [sides, List.getLast?_map, h]; rfl

/-- Of one polygon. -/
def scanPoly (env : Env) (i : Nat) (poly : List P2) : List Crossing :=
  match poly.getLast? with
  | none => []
  | some last => scan env i (env.apply last) 0 poly

/-- Of all of them. -/
def scanEach (env : Env) : Nat → List (List P2) → List Crossing
  | _, [] => []
  | i, poly :: rest => scanPoly env i poly ++ scanEach env (i + 1) rest

theorem scanPoly_mem (env : Env) (i : Nat) (poly : List P2) (c : Crossing) : c ∈ scanPoly env i poly ↔
    c.poly = i ∧ ∃ s, (sides (poly.map env.apply))[c.idx]? = some s ∧ Hit env s ∧ c.x = meet (env.apply env.start).2 s.1 s.2 := by
  unfold scanPoly
  cases h : poly.getLast? with
  | none =>
    rw [List.getLast?_eq_none_iff] at h
    subst h
    simp [sides]
  | some last =>
    dsimp only
    rw [scan_mem, sides_eq env poly last h]
    constructor
    · rintro ⟨h1, k, hk, r⟩
      rw [Nat.zero_add] at hk
      rw [hk]
      exact ⟨h1, r⟩
    · rintro ⟨h1, r⟩
      exact ⟨h1, c.idx, by omega, r⟩

theorem scanPoly_length (env : Env) (i : Nat) (poly : List P2) : (scanPoly env i poly).length = ((sides (poly.map env.apply)).filter fun s => decide (Hit env s)).length := by
  unfold scanPoly
  cases h : poly.getLast? with
  | none =>
    rw [List.getLast?_eq_none_iff] at h
    subst h
    simp [sides]
  | some last =>
    dsimp only
    rw [scan_length, sides_eq env poly last h]

theorem scanEach_mem (env : Env) (c : Crossing) : ∀ (l : List (List P2)) (i : Nat), c ∈ scanEach env i l ↔
    ∃ k poly, l[k]? = some poly ∧ c.poly = i + k ∧ ∃ s, (sides (poly.map env.apply))[c.idx]? = some s ∧ Hit env s ∧ c.x = meet (env.apply env.start).2 s.1 s.2 := by
  intro l
  induction l with
  | nil => intro i; simp [scanEach]
  | cons poly rest ih =>
    intro i
    rw [scanEach, List.mem_append, scanPoly_mem, ih]
    constructor
    · rintro (⟨h, r⟩ | ⟨k, p, hk, h, r⟩)
      · exact ⟨0, poly, rfl, by omega, r⟩
      · exact ⟨k + 1, p, hk, by omega, r⟩
    · rintro ⟨k, p, hk, h, r⟩
      cases k with
      | zero =>
        simp only [List.getElem?_cons_zero, Option.some.injEq] at hk
        subst hk
        exact .inl ⟨h, r⟩
      | succ k => exact .inr ⟨k, p, hk, by omega, r⟩

theorem scanEach_nodup (env : Env) : ∀ (l : List (List P2)) (i : Nat), (scanEach env i l).Nodup := by
  intro l
  induction l with
  | nil => intro i; exact List.nodup_nil
  | cons poly rest ih =>
    intro i
    rw [scanEach, List.nodup_append]
    refine ⟨?_, ih _, ?_⟩
    · unfold scanPoly
      split
      · exact List.nodup_nil
      · exact scan_nodup _ _ _ _ _
    · intro a ha b hb hab
      subst hab
      have h1 := ((scanPoly_mem env i poly a).1 ha).1
      obtain ⟨k, _, _, h2, _⟩ := (scanEach_mem env a rest (i + 1)).1 hb
      omega

theorem scanAll_ok (env : Env) (fail : Bool) : ∀ (l : List (List P2)) (i : Nat) (acc : List Crossing), (∀ poly ∈ l, poly ≠ []) → acc.length % 2 = 0 ∨ fail = false →
    (scanAll env fail i l acc = some none ∧ fail = true ∧ ∃ poly ∈ l, (scanPoly env 0 poly).length % 2 = 1) ∨
    (scanAll env fail i l acc = some (some (acc ++ scanEach env i l)) ∧ (fail = true → ∀ poly ∈ l, (scanPoly env 0 poly).length % 2 = 0)) := by
  intro l
  induction l with
  | nil => intro i acc _ _; right; simp [scanAll, scanEach]
  | cons poly rest ih =>
    intro i acc hne hacc
    rw [scanAll]
    cases h : poly.getLast? with
    | none => rw [List.getLast?_eq_none_iff] at h; exact absurd h (hne poly (by simp))
    | some last =>
      dsimp only
      have hs : scanPoly env i poly = scan env i (env.apply last) 0 poly := by rw [scanPoly, h]
      have hlen : (scanPoly env i poly).length = (scanPoly env 0 poly).length := by rw [scanPoly_length, scanPoly_length]
      rw [← hs]
      by_cases hc : fail = true ∧ (acc ++ scanPoly env i poly).length % 2 = 1
      · rw [if_pos hc]
        left
        refine ⟨rfl, hc.1, poly, by simp, ?_⟩
        rcases hacc with hacc | hacc
        · have := hc.2; rw [List.length_append] at this; omega
        · simp [hacc] at hc
      · rw [if_neg hc]
        have hacc' : (acc ++ scanPoly env i poly).length % 2 = 0 ∨ fail = false := by
          cases fail
          · exact .inr rfl
          · left; simp only [true_and] at hc; omega
        rcases ih (i + 1) (acc ++ scanPoly env i poly) (fun p hp => hne p (by simp [hp])) hacc' with ⟨h1, h2, p, hp, h3⟩ | ⟨h1, h2⟩
        · exact .inl ⟨h1, h2, p, by simp [hp], h3⟩
        · right
          refine ⟨by rw [h1, scanEach, List.append_assoc], ?_⟩
          intro hf p hp
          rcases List.mem_cons.1 hp with rfl | hp
          · simp only [hf, true_and, List.length_append] at hc
            rcases hacc with hacc | hacc
            · omega
            · simp [hf] at hacc
          · exact h2 hf p hp

theorem scanAll_ne (env : Env) (fail : Bool) : ∀ (l : List (List P2)) (i : Nat) (acc r : List Crossing), scanAll env fail i l acc = some (some r) → ∀ poly ∈ l, poly ≠ [] := by
  intro l
  induction l with
  | nil => intro i acc r _ poly h; simp at h
  | cons p rest ih =>
    intro i acc r h poly hp
    rw [scanAll] at h
    cases hl : p.getLast? with
    | none => simp [hl] at h
    | some last =>
      simp only [hl] at h
      by_cases hc : fail = true ∧ (acc ++ scan env i (env.apply last) 0 p).length % 2 = 1
      · rw [if_pos hc] at h; simp at h
      rw [if_neg hc] at h
      rcases List.mem_cons.1 hp with rfl | hp
      · intro e; rw [e] at hl; simp at hl
      · exact ih _ _ _ h poly hp

theorem touches_iff (env : Env) (pts : List P2) : ∀ p0, touches env p0 pts = true ↔ ∃ s ∈ sidesFrom p0 (pts.map env.apply), s.2.2 ≠ s.1.2 ∧
    ((s.1.2 ≥ (env.apply env.start).2 ∧ s.2.2 ≤ (env.apply env.start).2) ∨ (s.2.2 ≥ (env.apply env.start).2 ∧ s.1.2 ≤ (env.apply env.start).2)) ∧
    meet (env.apply env.start).2 s.1 s.2 > (env.apply env.start).1 ∧ meet (env.apply env.start).2 s.1 s.2 < (env.apply env.stop).1 := by
  induction pts with
  | nil => intro p0; simp [touches, sidesFrom]
  | cons q rest ih =>
    intro p0
    have hz : sidesFrom p0 ((q :: rest).map env.apply) = (p0, env.apply q) :: sidesFrom (env.apply q) (rest.map env.apply) := rfl
    rw [touches, hz]
    simp only [List.exists_mem_cons_iff]
    rw [← ih]
    split_ifs with h
    · simp only [true_iff]; exact .inl h
    · constructor
      · exact .inr
      · rintro (h' | h')
        · exact absurd h' h
        · exact h'

theorem collides_iff (env : Env) : ∀ (l : List (List P2)), (∀ poly ∈ l, poly ≠ []) → ∃ b, collides env l = some b ∧ (b = true ↔ ∃ poly ∈ l, ∃ s ∈ sides (poly.map env.apply), s.2.2 ≠ s.1.2 ∧
    ((s.1.2 ≥ (env.apply env.start).2 ∧ s.2.2 ≤ (env.apply env.start).2) ∨ (s.2.2 ≥ (env.apply env.start).2 ∧ s.1.2 ≤ (env.apply env.start).2)) ∧
    meet (env.apply env.start).2 s.1 s.2 > (env.apply env.start).1 ∧ meet (env.apply env.start).2 s.1 s.2 < (env.apply env.stop).1) := by
  intro l
  induction l with
  | nil => intro _; exact ⟨false, rfl, by simp⟩
  | cons poly rest ih =>
    intro hne
    rw [collides]
    cases h : poly.getLast? with
    | none => rw [List.getLast?_eq_none_iff] at h; exact absurd h (hne poly (by simp))
    | some last =>
      dsimp only
      obtain ⟨b, hb, hb'⟩ := ih (fun p hp => hne p (by simp [hp]))
      have ht := touches_iff env poly (env.apply last)
      rw [← sides_eq env poly last h] at ht
      by_cases hc : touches env (env.apply last) poly = true
      · rw [if_pos hc]
        refine ⟨true, rfl, ?_⟩
        simp only [List.exists_mem_cons_iff, true_iff]
        exact .inl (ht.1 hc)
      · rw [if_neg hc]
        refine ⟨b, hb, ?_⟩
        rw [hb', List.exists_mem_cons_iff]
        constructor
        · exact .inr
        · rintro (h' | h')
          · exact absurd (ht.2 h') hc
          · exact h'

/-! ## Rounding -/

theorem meet_near (y : Int) (s : P2 × P2) (hs : s.2.2 ≠ s.1.2) : |(meet y s.1 s.2 : Rat) - passX y s| < 1 := by
  unfold meet passX
  have hb : (s.2.2 - s.1.2 : Int) ≠ 0 := by omega
  have e := Int.mul_tdiv_add_tmod ((s.2.1 - s.1.1) * (y - s.1.2)) (s.2.2 - s.1.2)
  have hm : |((s.2.1 - s.1.1) * (y - s.1.2)).tmod (s.2.2 - s.1.2)| < |s.2.2 - s.1.2| := by
    have h1 := Int.natAbs_tmod ((s.2.1 - s.1.1) * (y - s.1.2)) (s.2.2 - s.1.2)
    have h2 := Nat.mod_lt ((s.2.1 - s.1.1) * (y - s.1.2)).natAbs (Int.natAbs_pos.2 hb)
    rw [← h1] at h2
    rw [Int.abs_eq_natAbs, Int.abs_eq_natAbs]
    exact_mod_cast h2
  generalize ((s.2.1 - s.1.1) * (y - s.1.2)).tmod (s.2.2 - s.1.2) = r at e hm
  generalize ((s.2.1 - s.1.1) * (y - s.1.2)).tdiv (s.2.2 - s.1.2) = q at e ⊢
  have e' : ((s.2.2 : Rat) - s.1.2) * q + r = (s.2.1 - s.1.1) * (y - s.1.2) := by exact_mod_cast e
  have hb' : ((s.2.2 : Rat) - s.1.2) ≠ 0 := by
    have : ((s.2.2 - s.1.2 : Int) : Rat) ≠ 0 := by exact_mod_cast hb
    push_cast at this
    exact this
  have hm' : |(r : Rat)| < |(s.2.2 : Rat) - s.1.2| := by exact_mod_cast hm
  rw [← e']
  push_cast
  have : (s.1.1 : Rat) + q - (s.1.1 + ((s.2.2 - s.1.2) * q + r) / (s.2.2 - s.1.2)) = - (r / (s.2.2 - s.1.2)) := by
    field_simp
    ring
  rw [this, abs_neg, abs_div]
  exact (div_lt_one (abs_pos.2 hb')).2 hm'

theorem passes_ne {y : Int} {s : P2 × P2} (h : Passes y s) : s.2.2 ≠ s.1.2 := by
  intro e; apply h; rw [e]

theorem filter_parity (l : List (P2 × P2)) (A B : P2 × P2 → Bool) (hBA : ∀ s ∈ l, B s = true → A s = true) :
    (l.filter A).length = (l.filter B).length + (l.filter fun s => A s && !B s).length := by
  induction l with
  | nil => rfl
  | cons s l ih =>
    have := ih (fun t ht => hBA t (by simp [ht]))
    have h := hBA s (by simp)
    simp only [List.filter_cons]
    cases hA : A s <;> cases hB : B s <;> simp_all <;> omega

/-- The two ends are on different sides of the polygon: the number of crossings is odd. -/
theorem parity (env : Env) (poly : List P2) (hy : (env.apply env.stop).2 = (env.apply env.start).2) (hx : (env.apply env.start).1 ≤ (env.apply env.stop).1)
    (hfar : ∀ s ∈ sides (poly.map env.apply), Passes (env.apply env.start).2 s → 1 ≤ |passX (env.apply env.start).2 s - (env.apply env.start).1| ∧ 1 ≤ |passX (env.apply env.start).2 s - (env.apply env.stop).1|) :
    (scanPoly env 0 poly).length % 2 = 1 ↔ ¬ (Inside (poly.map env.apply) (env.apply env.start) ↔ Inside (poly.map env.apply) (env.apply env.stop)) := by
  rw [scanPoly_length]
  unfold Inside
  rw [hy]
  have key := filter_parity (sides (poly.map env.apply)) (fun s => decide (Passes (env.apply env.start).2 s ∧ ((env.apply env.start).1 : Rat) < passX (env.apply env.start).2 s))
    (fun s => decide (Passes (env.apply env.start).2 s ∧ ((env.apply env.stop).1 : Rat) < passX (env.apply env.start).2 s)) (by
      intro s _ h
      simp only [decide_eq_true_eq] at h ⊢
      have : ((env.apply env.start).1 : Rat) ≤ (env.apply env.stop).1 := by exact_mod_cast hx
      exact ⟨h.1, lt_of_le_of_lt this h.2⟩)
  have hsame : ((sides (poly.map env.apply)).filter fun s => decide (Hit env s)) = (sides (poly.map env.apply)).filter fun s =>
      (decide (Passes (env.apply env.start).2 s ∧ ((env.apply env.start).1 : Rat) < passX (env.apply env.start).2 s)) &&
        !(decide (Passes (env.apply env.start).2 s ∧ ((env.apply env.stop).1 : Rat) < passX (env.apply env.start).2 s)) := by
    apply List.filter_congr
    intro s hs
    by_cases hp : Passes (env.apply env.start).2 s
    · obtain ⟨f1, f2⟩ := hfar s hs hp
      have hn := abs_lt.1 (meet_near (env.apply env.start).2 s (passes_ne hp))
      unfold Hit
      have g1 : (env.apply env.start).1 ≤ meet (env.apply env.start).2 s.1 s.2 ↔ ((env.apply env.start).1 : Rat) < passX (env.apply env.start).2 s := by
        rw [← Int.cast_le (R := Rat)]
        constructor
        · intro h
          rcases le_abs.1 f1 with f | f <;> linarith [hn.1, hn.2]
        · intro h
          rcases le_abs.1 f1 with f | f <;> linarith [hn.1, hn.2]
      have g2 : meet (env.apply env.start).2 s.1 s.2 ≤ (env.apply env.stop).1 ↔ ¬ ((env.apply env.stop).1 : Rat) < passX (env.apply env.start).2 s := by
        rw [← Int.cast_le (R := Rat)]
        constructor
        · intro h h'
          rcases le_abs.1 f2 with f | f <;> linarith [hn.1, hn.2]
        · intro h
          rcases le_abs.1 f2 with f | f <;> linarith [hn.1, hn.2]
      simp only [hp, true_and, g1, g2]
      by_cases c1 : ((env.apply env.start).1 : Rat) < passX (env.apply env.start).2 s <;> by_cases c2 : ((env.apply env.stop).1 : Rat) < passX (env.apply env.start).2 s <;> simp [c1, c2]
    · simp [Hit, hp]
  rw [hsame]
  omega

theorem collides_false (env : Env) : ∀ (l : List (List P2)), collides env l = some false → ∀ poly ∈ l, poly ≠ [] := by
  intro l
  induction l with
  | nil => intro _ poly h; simp at h
  | cons p rest ih =>
    intro h poly hp
    rw [collides] at h
    cases hl : p.getLast? with
    | none => simp [hl] at h
    | some last =>
      simp only [hl] at h
      by_cases hc : touches env (env.apply last) p = true
      · rw [if_pos hc] at h; simp at h
      rw [if_neg hc] at h
      rcases List.mem_cons.1 hp with rfl | hp
      · intro e; rw [e] at hl; simp at hl
      · exact ih h poly hp

theorem collides_clear (env : Env) (h : collides env env.boundary = some false) :
    ∀ poly ∈ env.boundary, ∀ s ∈ sides (poly.map env.apply), Passes (env.apply env.start).2 s →
      passX (env.apply env.start).2 s < (env.apply env.start).1 + 1 ∨ (env.apply env.stop).1 - 1 < passX (env.apply env.start).2 s := by
  obtain ⟨b, hb, hiff⟩ := collides_iff env env.boundary (collides_false env _ h)
  rw [h] at hb
  cases hb
  intro poly hp s hs hpass
  by_contra hc
  rw [not_or, not_lt, not_lt] at hc
  have hn := abs_lt.1 (meet_near (env.apply env.start).2 s (passes_ne hpass))
  have : false = true := hiff.2 ⟨poly, hp, s, hs, passes_ne hpass, by unfold Passes at hpass; omega, by
    rw [gt_iff_lt, ← Int.cast_lt (R := Rat)]; linarith [hn.1, hc.1], by
    rw [← Int.cast_lt (R := Rat)]; linarith [hn.2, hc.2]⟩
  exact absurd this (by simp)

theorem odd_hits (env : Env) (poly : List P2) (hfar : ∀ s ∈ sides (poly.map env.apply), Passes (env.apply env.start).2 s →
      1 ≤ |passX (env.apply env.start).2 s - (env.apply env.start).1| ∧ 1 ≤ |passX (env.apply env.start).2 s - (env.apply env.stop).1|)
    (h : (scanPoly env 0 poly).length % 2 = 1) : ∃ s ∈ sides (poly.map env.apply), Passes (env.apply env.start).2 s ∧
      (env.apply env.start).1 + 1 ≤ passX (env.apply env.start).2 s ∧ passX (env.apply env.start).2 s ≤ (env.apply env.stop).1 - 1 := by
  rw [scanPoly_length] at h
  have hne : ((sides (poly.map env.apply)).filter fun s => decide (Hit env s)) ≠ [] := by
    intro e; rw [e] at h; simp at h
  obtain ⟨s, hs⟩ := List.exists_mem_of_ne_nil _ hne
  rw [List.mem_filter, decide_eq_true_eq] at hs
  obtain ⟨hs, h1, h2, h3⟩ := hs
  obtain ⟨f1, f2⟩ := hfar s hs h1
  have hn := abs_lt.1 (meet_near (env.apply env.start).2 s (passes_ne h1))
  rw [← Int.cast_le (R := Rat)] at h2 h3
  refine ⟨s, hs, h1, ?_, ?_⟩
  · rcases le_abs.1 f1 with f | f <;> linarith [hn.1, hn.2]
  · rcases le_abs.1 f2 with f | f <;> linarith [hn.1, hn.2]

/-! ## The basic path -/

theorem partner_none (poly : Nat) (cs : List Crossing) (h : partner poly cs = none) : ∀ d ∈ cs, d.poly ≠ poly := by
  induction cs with
  | nil => simp
  | cons c cs ih =>
    rw [partner] at h
    split_ifs at h with hc
    intro d hd
    rcases List.mem_cons.1 hd with rfl | hd
    · exact hc
    · exact ih h d hd

theorem partner_some (poly : Nat) (cs : List Crossing) (d : Crossing) (rest : List Crossing) (h : partner poly cs = some (d, rest)) :
    ∃ m, cs = m ++ d :: rest ∧ d.poly = poly ∧ ∀ e ∈ m, e.poly ≠ poly := by
  induction cs with
  | nil => simp [partner] at h
  | cons c cs ih =>
    rw [partner] at h
    split_ifs at h with hc
    · cases h; exact ⟨[], rfl, hc, by simp⟩
    · obtain ⟨m, rfl, h2, h3⟩ := ih h
      refine ⟨c :: m, rfl, h2, ?_⟩
      intro e he
      rcases List.mem_cons.1 he with rfl | he
      · exact hc
      · exact h3 e he

theorem basic_some (env : Env) (A : Crossing → Prop) (hA : ∀ c d, A c → A d → d.poly = c.poly → ∃ w, around env c d = some w) :
    ∀ (n : Nat) (cs : List Crossing), cs.length ≤ n → (∀ c ∈ cs, A c) → ∃ pairs ways, basic env n cs = some (ways.flatten ++ [env.stop]) ∧ Paired cs pairs ∧
      List.Forall₂ (fun p w => around env p.1 p.2 = some w ∧ A p.1 ∧ A p.2 ∧ p.2.poly = p.1.poly) pairs ways := by
  intro n
  induction n with
  | zero =>
    intro cs h _
    have : cs = [] := List.length_eq_zero_iff.1 (by omega)
    subst this
    exact ⟨[], [], rfl, .done, .nil⟩
  | succ k ih =>
    intro cs h hall
    cases cs with
    | nil => exact ⟨[], [], rfl, .done, .nil⟩
    | cons c cs =>
      rw [basic]
      cases hp : partner c.poly cs with
      | none =>
        dsimp only
        obtain ⟨pairs, ways, h1, h2, h3⟩ := ih cs (by simpa using h) (fun d hd => hall d (by simp [hd]))
        exact ⟨pairs, ways, h1, .alone _ _ _ (partner_none _ _ hp) h2, h3⟩
      | some r =>
        obtain ⟨d, rest⟩ := r
        obtain ⟨m, rfl, hd, hm⟩ := partner_some _ _ _ _ hp
        dsimp only
        obtain ⟨pairs, ways, h1, h2, h3⟩ := ih rest (by simp at h; omega) (fun e he => hall e (by simp [he]))
        have ac := hall c (by simp)
        have ad := hall d (by simp)
        obtain ⟨w, hw⟩ := hA c d ac ad hd
        refine ⟨(c, d) :: pairs, w :: ways, ?_, ?_, .cons ⟨hw, ac, ad, hd⟩ h3⟩
        · simp [hw, h1]
        · exact .pair c d m rest pairs hd hm h2

end Verif.Comb
