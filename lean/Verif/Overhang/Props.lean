import Verif.Overhang.Lemmas
import Mathlib.Tactic.FieldSimp

/-! # Slowing down over overhangs: the properties -/

namespace Verif.Overhang

open Spec

/-- The moves are always found: the loop ends and stays within the regions (for all regions and crossings, also if they are not consistent). -/
theorem C128_done (last : Option P3) (p : P3) (factor : ℚ) (ms : List Reg) : ∃ moves, add last p factor ms = some moves := by
  unfold add
  cases last with
  | none => exact ⟨_, rfl⟩
  | some a =>
    dsimp only
    by_cases he : ms.isEmpty = true
    · rw [if_pos he]; exact ⟨_, rfl⟩
    · rw [if_neg he]
      have hne : ms ≠ [] := fun h => he (by rw [h]; rfl)
      have hlt := startRegion_lt hne
      have hlen : (crossings ms).length = ms.length - 1 := by unfold crossings; rw [List.length_map, List.length_dropLast]
      obtain ⟨l, hl, _⟩ := walk_isSome (rounds (crossings ms)) (crossings ms) (startRegion ms) (by omega) (by unfold rounds; omega)
      unfold pieces
      rw [hl]
      exact ⟨_, rfl⟩

/-- Without regions, or without a position before, there is one move with the given factor. -/
theorem C128_plain (last : Option P3) (p : P3) (factor : ℚ) (ms : List Reg) (h : last = none ∨ ms = []) : add last p factor ms = some [⟨1, p, factor⟩] := by
  unfold add
  cases last with
  | none => rfl
  | some a =>
    rcases h with h | h
    · cases h
    · rw [h]; rfl

/-- The moves lead straight from the position before to the end: they are on the line, in order, and the last one ends where it should. Two consecutive ones have different factors. -/
theorem C128_route (a p : P3) (factor : ℚ) (hf : factor ≠ 0) (ms : List Reg) (hcuts : ∀ i r, i + 1 < ms.length → ms[i]? = some r → ∀ c ∈ r.cuts, 0 ≤ c ∧ c ≤ 1)
    (moves : List Move) (h : add (some a) p factor ms = some moves) :
    (∀ m ∈ moves, 0 ≤ m.param ∧ m.param ≤ 1 ∧ m.position = along a p m.param)
    ∧ moves.Pairwise (fun m n => m.param ≤ n.param)
    ∧ (moves.getLast?.map Move.position) = some p
    ∧ (moves.map Move.factor).IsChain (· ≠ ·) := by
  unfold add at h
  dsimp only at h
  by_cases he : ms.isEmpty = true
  · rw [if_pos he] at h
    cases h
    refine ⟨?_, by simp, rfl, by simp⟩
    intro m hm
    have : m = ⟨1, p, factor⟩ := by simpa using hm
    rw [this]
    exact ⟨by norm_num, le_refl _, (along_one a p).symm⟩
  · rw [if_neg he] at h
    have hne : ms ≠ [] := fun h => he (by rw [h]; rfl)
    unfold pieces at h
    cases hw : walk (rounds (crossings ms)) (crossings ms) (startRegion ms) with
    | none => rw [hw] at h; cases h
    | some l =>
      rw [hw] at h
      cases h
      obtain ⟨hasc', hpos⟩ := walk_asc hcuts _ (-1) _ _ l (by norm_num)
        (left_start hne fun i r hi hr c hc => by linarith [(hcuts i r hi hr c hc).1]) (startRegion_lt hne) hw
      have hasc : Asc 0 l := ⟨hasc'.1, fun m hm => ⟨hpos m hm, (hasc'.2.1 m hm).2⟩, hasc'.2.2⟩
      have hfa := filter_asc (pos := along a p) hasc
      cases hfm : filterMoves (along a p) l with
      | nil =>
        rw [hfm] at hfa
        obtain ⟨_, _, b, k, hb⟩ := hfa
        simp at hb
      | cons m k =>
        rw [hfm] at hfa
        beta_reduce
        rw [merge]
        obtain ⟨⟨g1, g2, b, j, g3⟩, g4, _⟩ := mergeFrom_asc (speedOf ms) m k 0 hfa
        refine ⟨?_, ?_, ?_, ?_⟩
        · intro x hx
          obtain ⟨y, hy, he⟩ := List.mem_map.1 hx
          rw [← he]
          exact ⟨(g2 y hy).1, (g2 y hy).2, rfl⟩
        · rw [List.pairwise_map]
          exact g1
        · rw [g3]
          simp [along_one]
        · rw [List.map_map, show (Move.factor ∘ fun m : ℚ × Nat => (⟨m.1, along a p m.1, factor * speedOf ms m.2⟩ : Move)) = (fun x => factor * x) ∘ fun x : ℚ × Nat => speedOf ms x.2 from rfl,
            ← List.map_map, List.isChain_map]
          exact g4.imp fun x y hxy he => hxy (mul_left_cancel₀ hf he)

theorem factorAt_map (a p : P3) (factor : ℚ) (ms : List Reg) (l : List (ℚ × Nat)) (t : ℚ) :
    factorAt (l.map fun m => ⟨m.1, along a p m.1, factor * speedOf ms m.2⟩) t = (lookup l t).map fun i => factor * speedOf ms i := by
  unfold factorAt lookup
  induction l with
  | nil => rfl
  | cons m l ih =>
    rw [List.map_cons, List.find?_cons, List.find?_cons]
    by_cases h : t ≤ m.1
    · simp [h]
    · simp only [h, decide_false]
      exact ih

/-- Each point of the line is printed with the speed of its region, if it is not within 5 micrometres of border crossings: whenever there is an interval of the line around it that no border crosses and whose ends are that far apart. -/
theorem C128_speed_partial (a p : P3) (factor : ℚ) (ms : List Reg) (hr : Regions ms) (moves : List Move) (h : add (some a) p factor ms = some moves)
    (t s e : ℚ) (hs : 0 ≤ s) (hst : s < t) (hte : t < e) (he : e ≤ 1) (hclear : Clear ms s e) (hd : dist2 (along a p e) (along a p s) ≥ 25) :
    ∃ i r, InRegion ms t i ∧ ms[i]? = some r ∧ factorAt moves t = some (factor * r.speed) := by
  unfold add at h
  dsimp only at h
  have hne := hr.nonempty
  rw [if_neg (by simpa using hne)] at h
  unfold pieces at h
  cases hw : walk (rounds (crossings ms)) (crossings ms) (startRegion ms) with
  | none => rw [hw] at h; cases h
  | some l =>
    rw [hw] at h
    cases h
    have hleft := left_start hne (τ := 0) fun i r hi hr' c hc => ((hr.faithful i r hi hr').inner c hc).1
    have hchain := walk_chain hr _ 0 _ _ l (le_refl 0) hleft (startRegion_lt hne) (after_start hr) hw
    obtain ⟨hasc, _⟩ := walk_asc (fun i r hi hr' c hc => ⟨le_of_lt ((hr.faithful i r hi hr').inner c hc).1, le_of_lt ((hr.faithful i r hi hr').inner c hc).2⟩) _ 0 _ _ l (by norm_num) hleft (startRegion_lt hne) hw
    have hnc : ∀ c, s < c → c < e → ¬ IsCut ms c := by
      rintro c h1 h2 ⟨i, r, hi, hr', hc⟩
      exact hclear i r hi hr' c hc ⟨h1, h2⟩
    obtain ⟨pre, c, i, q, s', e1, e2, e3, e4, e5, e6, e7, e8, e9⟩ := chain_piece hchain (by linarith) (by linarith) (hnc t hst hte)
    have hs' : s' ≤ s := by
      rcases e5 with e5 | e5
      · rw [e5]; exact hs
      · by_contra hlt
        exact hnc s' (not_le.1 hlt) (by linarith) e5
    have hc' : e ≤ c := by
      rcases e6 with ⟨_, e6⟩ | e6
      · rw [e6]; exact he
      · by_contra hlt
        exact hnc c (by linarith) (not_le.1 hlt) e6
    have hd' : dist2 (along a p c) (along a p s') ≥ 25 := le_trans hd (dist2_mono a p hs' (by linarith) hc')
    have hlk := lookup_filter (pos := along a p) e1 e2 e3 e4 e8 hd' (by linarith) hasc.2.2
    have hfa := filter_asc (pos := along a p) hasc
    obtain ⟨r, hri, hrest⟩ := e7
    refine ⟨i, r, ⟨r, hri, hrest⟩, hri, ?_⟩
    rw [factorAt_map]
    have hm : (lookup (merge (speedOf ms) (filterMoves (along a p) l)) t).map (speedOf ms) = (lookup (filterMoves (along a p) l) t).map (speedOf ms) := by
      cases hfm : filterMoves (along a p) l with
      | nil => rfl
      | cons m k =>
        rw [hfm] at hfa
        exact mergeFrom_lookup (speedOf ms) m k t hfa.1
    rw [hlk, Option.map_some] at hm
    cases hlm : lookup (merge (speedOf ms) (filterMoves (along a p) l)) t with
    | none => rw [hlm] at hm; cases hm
    | some j =>
      rw [hlm, Option.map_some] at hm
      rw [Option.map_some, Option.some.inj hm]
      unfold speedOf
      rw [hri]
      rfl

/-- The regions and speeds are those of the settings: a point that is supported at the angle of the setting has full speed, others that of the first angle at which they are supported, and the last speed if there is none. Angles are spread evenly up to 90 degrees. (`supported`: at which angles the point counts as supported.) -/
theorem C128_regions (first : ℚ) (factors : List ℚ) (hf : factors ≠ []) (h90 : first < 90) (supported : ℚ → Prop)
    (hmono : ∀ a b, a ≤ b → b < 90 → supported a → supported b) (hno : ∀ a, 90 ≤ a → ¬ supported a) :
    speedAt supported first ((List.range factors.length).map fun (k : Nat) => (first + ((k : ℚ) + 1) * ((90 - first) / factors.length), factors.getD k 1)) (factors.getLast hf)
      (pointSpeed supported (regionAngles first factors)) := by
  classical
  have hn : 0 < factors.length := List.length_pos_iff.2 hf
  have hnq : (0 : ℚ) < factors.length := by exact_mod_cast hn
  have hstep : 0 < (90 - first) / factors.length := div_pos (by linarith) hnq
  have hlastD : factors.getLastD 1 = factors.getLast hf := by
    rw [List.getLastD_eq_getLast?, List.getLast?_eq_some_getLast hf]; rfl
  set A : List (ℚ × ℚ) := (List.range factors.length).map fun (k : Nat) => (first + ((k : ℚ) + 1) * ((90 - first) / factors.length), factors.getD k 1) with hA
  set B : List (ℚ × ℚ × Bool) := (List.range factors.length).map fun (k : Nat) => (first + ((k : ℚ) + 1) * ((90 - first) / factors.length), factors.getD k 1, true) with hB
  have hle : ∀ k : Nat, k < factors.length → first + ((k : ℚ) + 1) * ((90 - first) / factors.length) ≤ 90 := by
    intro k hk
    have hkq : (k : ℚ) + 1 ≤ factors.length := by exact_mod_cast hk
    have : ((k : ℚ) + 1) * ((90 - first) / factors.length) ≤ factors.length * ((90 - first) / factors.length) := mul_le_mul_of_nonneg_right hkq (le_of_lt hstep)
    rw [mul_div_cancel₀ _ (ne_of_gt hnq)] at this
    linarith
  have hsorted : ((first, (1 : ℚ), false) :: (B ++ [(90, factors.getLastD 1, true)])).Pairwise (fun a b => a.1 ≤ b.1) := by
    rw [List.pairwise_cons]
    constructor
    · intro y hy
      rcases List.mem_append.1 hy with hy | hy
      · obtain ⟨k, hk, he⟩ := List.mem_map.1 hy
        rw [← he]
        dsimp only
        have : 0 < ((k : ℚ) + 1) * ((90 - first) / factors.length) := mul_pos (by positivity) hstep
        linarith
      · have : y = (90, factors.getLastD 1, true) := by simpa using hy
        rw [this]; exact le_of_lt h90
    · rw [List.pairwise_append]
      refine ⟨?_, by simp, ?_⟩
      · rw [hB, List.pairwise_map]
        refine List.pairwise_lt_range.imp ?_
        intro a b hab
        have : ((a : ℚ) + 1) ≤ (b : ℚ) + 1 := by have : (a : ℚ) < b := by exact_mod_cast hab
                                                 linarith
        have := mul_le_mul_of_nonneg_right this (le_of_lt hstep)
        dsimp only
        linarith
      · intro x hx y hy
        obtain ⟨k, hk, he⟩ := List.mem_map.1 hx
        have : y = (90, factors.getLastD 1, true) := by simpa using hy
        rw [← he, this]
        exact hle k (List.mem_range.1 hk)
  have hL : ∀ y ∈ (first, (1 : ℚ), false) :: (B ++ [(90, factors.getLastD 1, true)]), 90 ≤ y.1 → y.2.1 = factors.getLast hf := by
    intro y hy h
    rcases List.mem_cons.1 hy with hy | hy
    · rw [hy] at h; exact absurd h (not_le.2 h90)
    · rcases List.mem_append.1 hy with hy | hy
      · obtain ⟨k, hk, he⟩ := List.mem_map.1 hy
        rw [← he] at h ⊢
        dsimp only at h ⊢
        have hk' := List.mem_range.1 hk
        have hk1 : k + 1 = factors.length := by
          by_contra hne
          have hlt : k + 2 ≤ factors.length := by omega
          have hkq : (k : ℚ) + 1 < factors.length := by
            have : ((k + 2 : Nat) : ℚ) ≤ factors.length := by exact_mod_cast hlt
            push_cast at this
            linarith
          have := mul_lt_mul_of_pos_right hkq hstep
          rw [mul_div_cancel₀ _ (ne_of_gt hnq)] at this
          linarith
        rw [List.getD_eq_getElem?_getD, List.getElem?_eq_getElem hk', Option.getD_some, List.getLast_eq_getElem]
        congr 1
        omega
      · have : y = (90, factors.getLastD 1, true) := by simpa using hy
        rw [this]; exact hlastD
  have hregs : regionAngles first factors = lastOfChunks (first, (1 : ℚ), false) (B ++ [(90, factors.getLastD 1, true)]) := by
    unfold regionAngles
    rw [if_pos ⟨hn, h90⟩]
    have hraw : rawRegions first factors = (first, (1 : ℚ), false) :: (B ++ [(90, factors.getLastD 1, true)]) := rfl
    rw [hraw]
    dsimp only
    apply if_pos
    obtain ⟨x, xs, hx⟩ : ∃ x xs, B ++ [(90, factors.getLastD 1, true)] = x :: xs := by
      cases B with
      | nil => exact ⟨_, _, rfl⟩
      | cons y ys => exact ⟨_, _, rfl⟩
    rw [hx, lastOfChunks, if_neg (by simp)]
    obtain ⟨z, zs, hz⟩ := lastOfChunks_ne x xs
    rw [hz]
    simp
  rw [hregs, pointSpeed_chunks hmono hno _ _ hsorted hL]
  have hmap : ((first, (1 : ℚ), false) :: (B ++ [(90, factors.getLastD 1, true)])).map (fun x => (x.1, x.2.1)) = ((first, 1) :: A) ++ [(90, factors.getLast hf)] := by
    rw [List.map_cons, List.map_append, hB, List.map_map, hA, ← hlastD]
    rfl
  rw [hmap]
  unfold speedAt
  by_cases h1 : supported first
  · left
    refine ⟨h1, ?_⟩
    rw [List.cons_append]
    obtain ⟨y, ys, hy⟩ : ∃ y ys, A ++ [(90, factors.getLast hf)] = y :: ys := by
      cases A with
      | nil => exact ⟨_, _, rfl⟩
      | cons y ys => exact ⟨_, _, rfl⟩
    rw [hy, pointSpeed, if_pos h1]
  · have hskip : pointSpeed supported ((first, 1) :: A ++ [(90, factors.getLast hf)]) = pointSpeed supported (A ++ [(90, factors.getLast hf)]) := by
      rw [List.cons_append]
      obtain ⟨y, ys, hy⟩ : ∃ y ys, A ++ [(90, factors.getLast hf)] = y :: ys := by
        cases A with
        | nil => exact ⟨_, _, rfl⟩
        | cons y ys => exact ⟨_, _, rfl⟩
      rw [hy, pointSpeed, if_neg h1]
    rw [hskip]
    rcases pointSpeed_append (supported := supported) A (90, factors.getLast hf) with ⟨b, a, f, c, e1, e2, e3, e4⟩ | ⟨e1, e2⟩
    · exact Or.inr (Or.inl ⟨h1, b, a, f, c, e1, e2, e3, e4⟩)
    · exact Or.inr (Or.inr ⟨h1, e1, e2⟩)

/-- If the last wall of the layer does not overhang (or there is none), the measured length is that of the longest overhang. -/
theorem C129_ended_partial (ms : List (Nat × Bool)) (h : ∀ m, ms.getLast? = some m → m.2 = false) : measured ms = longest ms := by
  unfold measured longest
  obtain ⟨h1, h2⟩ := foldl_update ms ⟨false, 0, 0⟩ (fun _ => rfl)
  have hnow : (ms.foldl update ⟨false, 0, 0⟩).now = false := by
    rcases List.eq_nil_or_concat ms with he | ⟨b, m, he⟩
    · rw [he]; rfl
    · have := h m (by rw [he]; simp)
      rw [he, List.concat_eq_append, List.foldl_append, List.foldl_cons, List.foldl_nil]
      simp only [update]
      exact this
  rw [h1 hnow] at h2
  simpa using h2

theorem foldl_over (r : List (Nat × Bool)) (hr : ∀ m ∈ r, m.2 = true) : ∀ s : Track, (s.now = false → s.cur = 0) → (r.foldl update s).max = s.max := by
  induction r with
  | nil => intro s _; rfl
  | cons m r ih =>
    intro s hs
    rw [List.foldl_cons]
    have hm : m.2 = true := hr m (by simp)
    have hnow : (update s m).now = true := by simp only [update]; exact hm
    rw [ih (fun x hx => hr x (by simp [hx])) (update s m) (fun h => by rw [hnow] at h; cases h)]
    obtain ⟨now, cur, mx⟩ := s
    obtain ⟨l, o⟩ := m
    dsimp only at hm
    subst hm
    cases now
    · have h0 : cur = 0 := hs rfl
      subst h0
      simp [update]
    · simp [update]

/-- Otherwise the overhang at the end of the layer is left out, however long it is. -/
theorem C129_not_ended (b r : List (Nat × Bool)) (hb : ∀ m, b.getLast? = some m → m.2 = false) (hr : ∀ m ∈ r, m.2 = true) : measured (b ++ r) = longest b := by
  rw [← C129_ended_partial b hb]
  unfold measured
  rw [List.foldl_append]
  exact foldl_over r hr _ (foldl_update b ⟨false, 0, 0⟩ (fun _ => rfl)).1

/-- So the measured length is not always that of the longest overhang: a layer of which all walls overhang has none. -/
theorem C129_counterexample : ¬ ∀ ms, measured ms = longest ms := by
  intro h
  exact absurd (h [(10000, true), (10000, true)]) (by decide)

/-- If the line begins on the border of a region and goes into it, the regions are exchanged: here the line is in the first region up to the middle, and then in the second one; the factors are the other way round. -/
theorem C128_border_counterexample : ¬ ∀ (a p : P3) (r q : Reg) (moves : List Move),
    (∀ t, 0 ≤ t → t ≤ 1 → (r.has t = true ↔ t ≤ 1 / 2)) → r.cuts = [0, 1 / 2] → add (some a) p 1 [r, q] = some moves →
    factorAt moves (1 / 4) = some r.speed := by
  intro h
  have hrun : add (some ⟨0, 0, 0⟩) ⟨1000, 0, 0⟩ 1 [⟨fun t => decide (t ≤ 1 / 2), [0, 1 / 2], 1⟩, ⟨fun _ => true, [], 1 / 2⟩]
      = some [⟨1 / 2, ⟨500, 0, 0⟩, 1 / 2⟩, ⟨1, ⟨1000, 0, 0⟩, 1⟩] := by decide +kernel
  have := h ⟨0, 0, 0⟩ ⟨1000, 0, 0⟩ ⟨fun t => decide (t ≤ 1 / 2), [0, 1 / 2], 1⟩ ⟨fun _ => true, [], 1 / 2⟩ _ (fun t _ _ => by simp) rfl hrun
  revert this
  decide +kernel

end Verif.Overhang
