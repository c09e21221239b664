import Verif.Sierp.Lemmas

/-! # Cross infill: the theorems -/

namespace Verif.Sierp

open Spec

/-- The example: a square of 64, five divisions, length wanted at two places only. -/
def exEnv : Env where
  lo := (0, 0)
  hi := (64, 64)
  maxDepth := 5
  len := fun t =>
    if t.depth = 0 then 0
    else
      let short : Rat := if t.depth = 1 then 10 else if t.depth = 2 then 7 else if t.depth = 3 then 5 else if t.depth = 4 then 7 / 2 else 5 / 2
      let long : Rat := if t.depth = 1 then 14 else if t.depth = 2 then 10 else if t.depth = 3 then 7 else if t.depth = 4 then 5 else 7 / 2
      if t.dir = .acBc then long else short
  leaf := fun t => if t.id = 37 then 30 else if t.id = 59 then 20 else 0

/-- **C122.** Whatever density is asked for, the curve is made, without going beyond the list or the tree, and it goes through the triangles of the square, each time with a triangle replaced by its two parts. -/
theorem C122_triangles (env : Env) (dithering : Bool) (h0 : env.len root = 0) (hl : ∀ t, 0 ≤ env.leaf t) :
    ∃ seq, fill env dithering = some seq ∧ Divided (kids env) [root] (seq.map Entry.t) := by
  obtain ⟨low, h1, h2⟩ := lowerLoop_ok env dithering 999 _ (start_ok (by rw [h0]; exact req_nonneg hl root))
  obtain ⟨st, h3, h4⟩ := depths_ok (settleStep_ok env) (List.range env.maxDepth) () _ h2
  obtain ⟨out, h5, h6, _⟩ := dither_ok env dithering st.2 h4.tri
  refine ⟨out, ?_, h6.divided⟩
  have h1' : lower env dithering = some low := h1
  have h3' : settle env low = some st.2 := by rw [settle, h3]; rfl
  simp only [fill, h1', h3', h5]

/-- **C122.** Together the triangles of the curve have the area of the square, if its sides can be halved that often. -/
theorem C122_area (env : Env) (dithering : Bool) (seq : List Entry) (h0 : env.len root = 0) (hl : ∀ t, 0 ≤ env.leaf t) (h : fill env dithering = some seq) (hr : seq.map Entry.t ≠ [root])
    (hg : (2 : Int) ^ env.maxDepth ∣ env.lo.1 ∧ (2 : Int) ^ env.maxDepth ∣ env.lo.2 ∧ (2 : Int) ^ env.maxDepth ∣ env.hi.1 ∧ (2 : Int) ^ env.maxDepth ∣ env.hi.2) :
    ((seq.map Entry.t).map area2).sum = 2 * ((env.hi.1 - env.lo.1) * (env.hi.2 - env.lo.2)).natAbs := by
  obtain ⟨seq', h1, h2⟩ := C122_triangles env dithering h0 hl
  rw [h, Option.some.injEq] at h1
  subst h1
  rcases divided_area h2 hg with h | h
  · exact absurd h hr
  · exact h.1

/-- **C122.** Before dithering, length is only exchanged with neighbours, so that no length is lost: the sum is that of all leaves. -/
theorem C122_length (env : Env) (dithering : Bool) (h0 : env.len root = 0) (hl : ∀ t, 0 ≤ env.leaf t) :
    ∃ low settled, lower env dithering = some low ∧ settle env low = some settled ∧ Fair low ∧ Fair settled ∧
      (low.map fun e => req env e.t + (e.el + e.er)).sum = req env root ∧ (settled.map fun e => req env e.t + (e.el + e.er)).sum = req env root := by
  obtain ⟨low, h1, h2⟩ := lowerLoop_ok env dithering 999 _ (start_ok (by rw [h0]; exact req_nonneg hl root))
  obtain ⟨st, h3, h4⟩ := depths_ok (settleStep_ok env) (List.range env.maxDepth) () _ h2
  have hfair : ∀ l, Ok env l → Fair l ∧ (l.map fun e => req env e.t + (e.el + e.er)).sum = req env root := by
    intro l hok
    obtain ⟨f1, f2, f3⟩ := flow_fair hok.flow
    refine ⟨⟨f2, fun e he => by rw [f3 e he]; norm_num, f1⟩, ?_⟩
    have s1 := flow_sum (e' := env) (fun _ => 0) hok.flow
    have s2 := divided_req hok.tri.divided
    simp only [sub_zero, add_zero, List.map_map, List.map_cons, List.map_nil, List.sum_cons, List.sum_nil] at s1 s2
    rw [s1, ← s2]
    rfl
  refine ⟨low, st.2, h1, by rw [settle, h3]; rfl, (hfair _ h2).1, (hfair _ h4).1, (hfair _ h2).2, (hfair _ h4).2⟩

/-- **C122.** Before dithering, no triangle is in the curve without the length for it, but for a ten-thousandth, and the curve is not longer than what is asked for. -/
theorem C122_value (env : Env) (dithering : Bool) (h0 : env.len root = 0) (hl : ∀ t, 0 ≤ env.leaf t) :
    ∃ low settled, lower env dithering = some low ∧ settle env low = some settled ∧
      (∀ e ∈ low, env.len e.t ≤ req env e.t + (e.el + e.er) + 1 / 10000) ∧ (∀ e ∈ settled, env.len e.t ≤ req env e.t + (e.el + e.er) + 1 / 10000) ∧
      (settled.map fun e => env.len e.t).sum ≤ req env root + settled.length / 10000 := by
  obtain ⟨low, h1, h2⟩ := lowerLoop_ok env dithering 999 _ (start_ok (by rw [h0]; exact req_nonneg hl root))
  obtain ⟨st, h3, h4⟩ := depths_ok (settleStep_ok env) (List.range env.maxDepth) () _ h2
  have hw : ∀ l, Ok env l → ∀ e ∈ l, env.len e.t ≤ req env e.t + (e.el + e.er) + 1 / 10000 := by
    intro l hok e he
    have := hok.worth e he
    simp only [valErr, errored] at this
    linarith
  refine ⟨low, st.2, h1, by rw [settle, h3]; rfl, hw _ h2, hw _ h4, ?_⟩
  have s1 := flow_sum (e' := env) (fun _ => 0) h4.flow
  have s2 := divided_req h4.tri.divided
  simp only [sub_zero, add_zero, List.map_map, List.map_cons, List.map_nil, List.sum_cons, List.sum_nil] at s1 s2
  have s3 : ∀ l : List Entry, (∀ e ∈ l, env.len e.t ≤ req env e.t + (e.el + e.er) + 1 / 10000) →
      (l.map fun e => env.len e.t).sum ≤ (l.map fun e => req env e.t + (e.el + e.er)).sum + l.length / 10000 := by
    intro l
    induction l with
    | nil => intro _; simp
    | cons e l ih =>
      intro h
      have a := h e (by simp)
      have b := ih fun f hf => h f (by simp [hf])
      simp only [List.map_cons, List.sum_cons, List.length_cons, Nat.cast_add, Nat.cast_one]
      linarith
  have s4 := s3 _ (hw _ h4)
  rw [s1] at s4
  have s5 : (st.2.map (req env ∘ Entry.t)).sum = (st.2.map fun e => req env e.t).sum := rfl
  linarith

/-- **C122, partial.** If the curve is connected before dithering, then it is after it. Missing: `subdivideAll` divides two triangles of different size together, see the counterexample. -/
theorem C122_connected_partial (env : Env) (dithering : Bool) (h0 : env.len root = 0) (hl : ∀ t, 0 ≤ env.leaf t) :
    ∃ low seq, lower env dithering = some low ∧ fill env dithering = some seq ∧ (Connected (low.map Entry.t) → Connected (seq.map Entry.t)) := by
  obtain ⟨low, h1, h2⟩ := lowerLoop_ok env dithering 999 _ (start_ok (by rw [h0]; exact req_nonneg hl root))
  have hmap : ∀ d s pre e post, (Ok env (pre ++ e :: post) ∧ (pre ++ e :: post).map Entry.t = low.map Entry.t) →
      ∃ out, settleStep env d s pre e post = some out ∧ Ok env (out.2.1 ++ out.2.2) ∧ (out.2.1 ++ out.2.2).map Entry.t = low.map Entry.t := by
    intro d s pre e post ⟨h, hm⟩
    obtain ⟨out, ho, hok⟩ := settleStep_ok env d s pre e post h
    refine ⟨out, ho, hok, ?_⟩
    rw [← hm]
    unfold settleStep at ho
    by_cases hd : e.t.depth ≠ d
    swap
    · rw [if_neg hd] at ho
      obtain ⟨dl, dr, heq, _⟩ := redistribute_eq env false pre [e] post
      rw [heq] at ho
      simp only [Option.some.injEq] at ho
      subst ho
      simp [map_addRight, map_addLeft, map_exchange]
    · rw [if_pos hd] at ho
      simp only [Option.some.injEq] at ho
      subst ho
      simp
  obtain ⟨st, h3, h4, h5⟩ := depths_ok (P := fun l => Ok env l ∧ l.map Entry.t = low.map Entry.t) hmap (List.range env.maxDepth) () low ⟨h2, rfl⟩
  obtain ⟨out, h6, _, h7⟩ := dither_ok env dithering st.2 h4.tri
  have h1' : lower env dithering = some low := h1
  have h3' : settle env low = some st.2 := by rw [settle, h3]; rfl
  refine ⟨low, out, h1, by simp only [fill, h1', h3', h6], fun hc => h7 ?_⟩
  rw [h5]
  exact hc

/-- **C122.** Each point of the curve is in the middle of the side through which it leaves the triangle. -/
theorem C122_points (seq : List Entry) : cross seq = seq.map fun e => middle (exitSide e.t) := by
  unfold cross
  apply List.map_congr_left
  intro e _
  obtain ⟨⟨c, a, b, dir, left, depth, second, id⟩, el, er, old⟩ := e
  cases dir <;> cases left <;> simp only [middle, exitSide] <;> congr 2 <;> ring

/-- **C122.** When the pattern changes with the height, the points are taken on the sides through which the curve comes in and goes out, with left and right as they are. -/
theorem C122_edges (t : Tri) : fromEdge t = entrySide t ∧ toEdge t = exitSide t := by
  obtain ⟨c, a, b, dir, left, depth, second, id⟩ := t
  cases dir <;> cases left <;> exact ⟨rfl, rfl⟩

/-- **C122, counterexample.** The curve need not be connected: a triangle and a smaller one are divided together. -/
theorem C122_counterexample : ∃ seq, fill exEnv true = some seq ∧ ¬ Connected (seq.map Entry.t) ∧
    ∃ l t u r, seq.map Entry.t = l ++ t :: u :: r ∧ t.second = u.second ∧ exitSide t ≠ entrySide u ∧ exitSide t ≠ (entrySide u).swap := by
  have h : (fill exEnv true).map (fun seq => match (seq.map Entry.t).drop 5 with
      | t :: u :: _ => decide (t.second = u.second ∧ exitSide t ≠ entrySide u ∧ exitSide t ≠ (entrySide u).swap)
      | _ => false) = some true := by decide +kernel
  rw [Option.map_eq_some_iff] at h
  obtain ⟨seq, h1, h2⟩ := h
  split at h2
  · next t u r heq =>
    have h3 := of_decide_eq_true h2
    have h4 : seq.map Entry.t = (seq.map Entry.t).take 5 ++ t :: u :: r := by rw [← heq, List.take_append_drop]
    refine ⟨seq, h1, fun hc => ?_, _, t, u, r, h4, h3.1, h3.2.1, h3.2.2⟩
    unfold Connected at hc
    rw [h4, List.isChain_append] at hc
    exact h3.2.1 ((List.isChain_cons_cons.1 hc.2.1).1 h3.1).1
  · simp at h2

/-- **C122, counterexample.** In the middle, from one half of the square to the other, the curve leaves through the diagonal and comes in through the upper side. -/
theorem C122_middle_counterexample (env : Env) (h : env.lo.1 ≠ env.hi.1) (h' : env.lo.2 ≠ env.hi.2) :
    ∃ t u, kids env root = [t, u] ∧ exitSide t = (env.lo, env.hi) ∧ entrySide u = (env.hi, (env.lo.1, env.hi.2)) ∧ exitSide t ≠ entrySide u ∧ exitSide t ≠ (entrySide u).swap := by
  refine ⟨_, _, rfl, rfl, rfl, fun hc => ?_, fun hc => ?_⟩
  · have := congrArg (fun p : P2 × P2 => p.1.1) hc
    exact h this
  · have := congrArg (fun p : P2 × P2 => p.1.2) hc
    exact h' this

end Verif.Sierp
