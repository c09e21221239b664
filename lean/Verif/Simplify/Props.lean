import Verif.Simplify.LoopLemmas
import Verif.Simplify.PathLemmas

/-! # Simplification of polygons and lines: properties (C98, C99) -/

namespace Verif.Simplify
open Relation
section
variable {V : Type}

theorem small_iff (P : Params V) (closed : Bool) (l : List V) : small P (fewest closed) l = true ↔ Degenerate P closed l := by
  unfold small Degenerate
  have z : ∀ v : V, size2 (P.pos v) (P.pos v) < 5 * 5 := by intro v; unfold size2; simp
  cases closed with
  | false =>
    rw [show fewest false = 2 from rfl]
    rcases l with _ | ⟨a, _ | ⟨b, _ | ⟨c, l⟩⟩⟩
    · simp
    · simp
    · simp only [List.length_cons, List.length_nil, tiny2, size2_comm (P.pos b) (P.pos a)]
      simp [size2_comm (P.pos b) (P.pos a)]
      intro h _
      exact ⟨z a, h⟩
    · simp
  | true =>
    rw [show fewest true = 3 from rfl]
    rcases l with _ | ⟨a, _ | ⟨b, _ | ⟨c, _ | ⟨d, l⟩⟩⟩⟩
    · simp
    · simp
    · simp
    · simp [tiny2, size2_comm (P.pos b) (P.pos a), size2_comm (P.pos c) (P.pos a), size2_comm (P.pos c) (P.pos b), z]
      tauto
    · simp

theorem path_start (v : V) (l : List V) : path l.length ⟨fun i => l.getD i v, fun _ => false⟩ = numbered l := by
  unfold path numbered alive lab
  simp only [Bool.not_false, List.filter_true]
  apply List.ext_getElem
  · simp
  · intro i h1 h2
    simp at h1
    simp [h1]

theorem path_values {n : Nat} (s : St V) : (path n s).map (·.2) = (alive n s).map s.poly := by
  unfold path
  rw [List.map_map]
  rfl

/-- **C98.** Simplifying a polygon or a line always ends. The result comes about by steps, each of which is allowed as the path is at
that moment: it takes out one vertex, and may move one of its neighbours. The steps go on until nothing can be simplified or only as many
vertices are left as are necessary. The result is empty if what is left is degenerate. -/
theorem C98_steps (P : Params V) (closed : Bool) (l : List V) (hdev : P.maxDev * P.maxDev < 2 ^ 63 - 1) :
    ∃ path, ReflTransGen (Step P closed) (numbered l) path ∧ (path.length ≤ fewest closed ∨ Simple P closed path) ∧
      ((Degenerate P closed (path.map (·.2)) ∧ simplify P closed l = some []) ∨
       (¬ Degenerate P closed (path.map (·.2)) ∧ simplify P closed l = some (path.map (·.2)))) := by
  unfold simplify
  rw [show (if closed then 3 else 2) = fewest closed from rfl]
  dsimp only
  by_cases hs : small P (fewest closed) l = true
  · rw [if_pos hs]
    refine ⟨numbered l, .refl, .inl ?_, .inl ⟨by rw [numbered_values, ← small_iff]; exact hs, rfl⟩⟩
    rw [small_iff] at hs
    have : (numbered l).length = l.length := by rw [← List.length_map (f := (·.2)), numbered_values]
    unfold Degenerate at hs
    omega
  · rw [if_neg hs]
    have hlen : (numbered l).length = l.length := by rw [← List.length_map (f := (·.2)), numbered_values]
    by_cases he : l.length = fewest closed
    · rw [if_pos he]
      exact ⟨numbered l, .refl, .inl (by omega), .inr ⟨by rw [numbered_values, ← small_iff]; exact hs, by rw [numbered_values]⟩⟩
    · rw [if_neg he]
      have hgt : l.length > fewest closed := by
        rw [small_iff] at hs
        unfold Degenerate at hs
        omega
      cases l with
      | nil => simp at hgt
      | cons v rest =>
        dsimp only
        obtain ⟨s', h1, h2, h3, h4⟩ := rounds_spec hdev (fewest closed) hgt ((v :: rest).length + 1)
          ⟨fun i => (v :: rest).getD i v, fun _ => false⟩ (fun _ => ⟨rfl, rfl⟩) (by
            have := alive_length (n := (v :: rest).length) (⟨fun i => (v :: rest).getD i v, fun _ => false⟩ : St V)
            omega)
        rw [h1, Option.map_some]
        rw [path_start] at h2
        refine ⟨_, h2, ?_, ?_⟩
        · rcases h4 with h | h
          · left
            unfold path
            rw [List.length_map]
            exact h
          · exact .inr h
        · rw [path_values]
          by_cases hs' : small P (fewest closed) ((alive (v :: rest).length s').map s'.poly) = true
          · left
            rw [if_pos hs']
            exact ⟨(small_iff ..).mp hs', rfl⟩
          · right
            rw [if_neg hs']
            exact ⟨fun h => hs' ((small_iff ..).mpr h), rfl⟩

/-- The vertices that are left are in the order of the original. -/
theorem C98_order (P : Params V) (closed : Bool) (l : List V) (path : Path V) (h : ReflTransGen (Step P closed) (numbered l) path) :
    (path.map (·.1)).Sublist (List.range l.length) := by
  rw [← numbered_labels]
  exact steps_labels h

/-- Unless a line becomes empty, it begins and ends with the same vertices as before. -/
theorem C98_ends (P : Params V) (l r : List V) (hdev : P.maxDev * P.maxDev < 2 ^ 63 - 1) (h : simplify P false l = some r) (hr : r ≠ []) :
    r.head? = l.head? ∧ r.getLast? = l.getLast? := by
  obtain ⟨path, h1, -, h3⟩ := C98_steps P false l hdev
  rcases h3 with ⟨-, h3⟩ | ⟨-, h3⟩
  · rw [h3] at h
    exact absurd (Option.some.inj h).symm hr
  · rw [h3] at h
    obtain ⟨e1, e2⟩ := steps_ends (by rw [numbered_labels]; exact List.nodup_range) h1
    have e := numbered_values l
    rw [← Option.some.inj h, ← e, List.head?_map, List.head?_map, List.getLast?_map, List.getLast?_map, e1, e2]
    exact ⟨rfl, rfl⟩

/-- The result has no more vertices than the original. -/
theorem C98_no_longer (P : Params V) (closed : Bool) (l r : List V) (hdev : P.maxDev * P.maxDev < 2 ^ 63 - 1)
    (h : simplify P closed l = some r) : r.length ≤ l.length := by
  obtain ⟨path, h1, -, h3⟩ := C98_steps P closed l hdev
  rcases h3 with ⟨-, h3⟩ | ⟨-, h3⟩
  · rw [h3] at h
    rw [← Option.some.inj h]
    simp
  · rw [h3] at h
    have := (C98_order P closed l path h1).length_le
    rw [List.length_map, List.length_range] at this
    rw [← Option.some.inj h, List.length_map]
    exact this

/-! ## Promises of the documentation -/

theorem corner_path {closed : Bool} {path : Path V} {b v a : V} (h : Corner closed (path.map (·.2)) b v a) :
    ∃ l x r, At closed path l x r ∧ x.2 = v ∧ (prevOf l x r).2 = b ∧ (nextOf l x r).2 = a := by
  obtain ⟨l, r, h1, h2, h3, h4⟩ := h
  rw [List.map_eq_append_iff] at h1
  obtain ⟨L, R', rfl, rfl, h5⟩ := h1
  rw [List.map_eq_cons_iff] at h5
  obtain ⟨x, R, rfl, rfl, rfl⟩ := h5
  refine ⟨L, x, R, ⟨rfl, fun hc => ⟨fun e => (h2 hc).1 (by rw [e]; rfl), fun e => (h2 hc).2 (by rw [e]; rfl)⟩⟩, rfl, ?_, ?_⟩
  · unfold prevOf
    rw [← List.map_append, List.getLast?_map, Option.map_eq_some_iff] at h3
    obtain ⟨y, hy, rfl⟩ := h3
    rw [List.getLastD_eq_getLast?, hy, Option.getD_some]
  · unfold nextOf
    rw [← List.map_append, List.head?_map, Option.map_eq_some_iff] at h4
    obtain ⟨y, hy, rfl⟩ := h4
    rw [List.headD_eq_head?_getD, hy, Option.getD_some]

/-- **C99.** If more vertices are left than are necessary, then each of them is more than 5 micron (as distances are measured) from the
line through its neighbours, and if both its segments are short, more than the maximum deviation, unless removing it would change the
width too much. -/
theorem C99_corners_partial (P : Params V) (closed : Bool) (l r : List V) (hdev : P.maxDev * P.maxDev < 2 ^ 63 - 1) (h5 : 5 ≤ P.maxDev)
    (h : simplify P closed l = some r) (hr : fewest closed < r.length) (b v a : V) (hc : Corner closed r b v a) :
    P.maxArea < P.area b v a ∨
    (5 * 5 < dist2 (P.pos v) (P.pos b) (P.pos a) ∧
      (Short P v b → Short P v a → P.maxDev * P.maxDev < dist2 (P.pos v) (P.pos b) (P.pos a))) := by
  obtain ⟨path, h1, h2, h3⟩ := C98_steps P closed l hdev
  rcases h3 with ⟨-, h3⟩ | ⟨-, h3⟩
  · rw [h3] at h
    rw [← Option.some.inj h] at hr
    simp at hr
  · rw [h3] at h
    have e := Option.some.inj h
    subst e
    rw [List.length_map] at hr
    have hsimple : Simple P closed path := h2.resolve_left (by omega)
    obtain ⟨L, x, R, hat, rfl, rfl, rfl⟩ := corner_path hc
    by_cases harea : P.maxArea < P.area (prevOf L x R).2 x.2 (nextOf L x R).2
    · exact .inl harea
    · right
      have h25 : (5 * 5 : Int) ≤ P.maxDev * P.maxDev := by nlinarith
      constructor
      · by_contra hd
        exact hsimple _ (.drop hat ⟨by omega, by omega⟩ (.inl (by unfold Straight tiny2; omega)))
      · intro s1 s2
        by_contra hd
        exact hsimple _ (.drop hat ⟨by omega, by omega⟩ (.inr ⟨s1, s2⟩))

end

/-- If more vertices are left than are necessary, no segment is shorter than 5 micron. -/
theorem C99_no_tiny_partial (meet : Pt → Pt → Pt → Pt → Option Pt) (res dev area : Int) (closed : Bool) (l r : List Pt)
    (hdev : dev * dev < 2 ^ 63 - 1) (h6 : 6 ≤ dev) (hres : 6 ≤ res) (harea : 0 ≤ area)
    (h : simplify (points meet res dev area) closed l = some r) (hr : fewest closed < r.length) (v w : Pt) (hj : Joined closed r v w) :
    5 * 5 ≤ size2 v w := by
  by_contra hlt
  have hcor := C99_corners_partial (points meet res dev area) closed l r hdev (by show 5 ≤ dev; omega) h hr
  have h36 : (36 : Int) ≤ dev * dev := by nlinarith
  have hr36 : (36 : Int) ≤ res * res := by nlinarith
  have one : ∀ b, ¬ Corner closed r b v w := by
    intro b hc
    rcases hcor b v w hc with h1 | ⟨h1, h2⟩
    · exact absurd h1 (by show ¬ area < 0; omega)
    · have h1 : 5 * 5 < dist2 v b w := h1
      have h2 : size2 v b ≤ res * res → size2 v w ≤ res * res → dev * dev < dist2 v b w := h2
      rcases short_close b v w (by omega) with h3 | ⟨h3, h4⟩
      · omega
      · have := h2 (by omega) (by omega)
        omega
  have two : ∀ a, ¬ Corner closed r v w a := by
    intro a hc
    have hlt' : size2 w v < 25 := by rw [size2_comm]; omega
    rcases hcor v w a hc with h1 | ⟨h1, h2⟩
    · exact absurd h1 (by show ¬ area < 0; omega)
    · have h1 : 5 * 5 < dist2 w v a := h1
      have h2 : size2 w v ≤ res * res → size2 w a ≤ res * res → dev * dev < dist2 w v a := h2
      rcases short_close' v w a hlt' with h3 | ⟨h3, h4⟩
      · omega
      · have := h2 (by omega) (by omega)
        omega
  rcases hj with ⟨L, R, e⟩ | ⟨hcl, m, e⟩
  · cases closed with
    | true =>
      obtain ⟨b, hb⟩ : ∃ b, (w :: R ++ L).getLast? = some b := by
        obtain ⟨m, b, e⟩ := exists_concat (l := w :: R ++ L) (by simp)
        exact ⟨b, by rw [e, List.getLast?_concat]⟩
      exact one b ⟨L, w :: R, e, by simp, hb, rfl⟩
    | false =>
      by_cases hL : L = []
      · subst hL
        cases R with
        | nil =>
          rw [e] at hr
          simp [fewest] at hr
        | cons a R =>
          exact two a ⟨[v], a :: R, e, fun _ => ⟨by simp, by simp⟩, by rw [List.getLast?_concat], rfl⟩
      · obtain ⟨m, b, rfl⟩ := exists_concat hL
        exact one b ⟨m ++ [b], w :: R, e, fun _ => ⟨by simp, by simp⟩, by rw [← List.append_assoc, List.getLast?_concat], rfl⟩
  · subst hcl
    obtain ⟨b, hb⟩ : ∃ b, ([] ++ (w :: m)).getLast? = some b := by
      obtain ⟨m', b, e⟩ := exists_concat (l := w :: m) (by simp)
      exact ⟨b, by rw [List.nil_append, e, List.getLast?_concat]⟩
    exact one b ⟨w :: m, [], e, by simp, hb, rfl⟩

/-! ## What the documentation promises and does not hold -/

/-- A spike of a line, of any length, is removed: only the distance to the infinite line through the neighbours counts. Here 9.9 mm are
lost, with a maximum deviation of 50 micron. -/
theorem C99_spike_counterexample :
    simplify (points exactMeet 500 50 0) false [(0, 0), (10000, 0), (100, 0)] = some [(0, 0), (100, 0)] ∧
      Off 9800 (10000, 0) [(0, 0), (100, 0)] := by
  refine ⟨by decide +kernel, ?_⟩
  intro l a b r e t h0 h1
  rcases l with _ | ⟨x, _ | ⟨y, _ | ⟨z, l⟩⟩⟩ <;> simp at e
  obtain ⟨rfl, rfl, rfl⟩ := e
  push_cast
  nlinarith

/-- Deviations add up, here without spikes: a vertex ends up more than 80 micron from the line. -/
theorem C99_drift_counterexample :
    simplify (points exactMeet 500 50 0) false [(0, 159), (410, 13), (537, 85), (831, 85), (1389, 251), (1632, 7)] =
        some [(0, 159), (491, -16), (1389, 251), (1632, 7)] ∧
      Off 80 (537, 85) [(0, 159), (491, -16), (1389, 251), (1632, 7)] := by
  refine ⟨by decide +kernel, ?_⟩
  intro l a b r e t h0 h1
  rcases l with _ | ⟨x, _ | ⟨y, _ | ⟨z, l⟩⟩⟩ <;> simp at e
  · obtain ⟨rfl, rfl, rfl⟩ := e
    push_cast
    nlinarith [mul_self_nonneg (t - 1)]
  · obtain ⟨rfl, rfl, rfl, rfl⟩ := e
    push_cast
    nlinarith [mul_self_nonneg (t - 1)]
  · obtain ⟨rfl, rfl, rfl, rfl, rfl⟩ := e
    push_cast
    nlinarith [mul_self_nonneg (t - 1)]
  · rcases l with _ | ⟨u, l⟩ <;> simp at e

/-- A line that is twice as wide in the middle becomes a line of equal width, even if no deviation of the area is allowed at all: the
widths are averaged over both segments, and the width that the new segment really gets is not looked at. -/
theorem C99_width_counterexample :
    simplify (junctions exactMeet 500 50 0) false [⟨(0, 0), 400⟩, ⟨(1000, 0), 800⟩, ⟨(2000, 0), 400⟩] =
      some [⟨(0, 0), 400⟩, ⟨(2000, 0), 400⟩] := by
  decide +kernel

/-- A polygon can vanish although it has more than three vertices and is not small: the number of vertices that were removed is counted
afresh in every round. -/
theorem C99_vanish_counterexample :
    simplify (points exactMeet 500 50 0) true [(525, 108), (111, 69), (85, 11), (525, 10), (846, 98), (32, 159)] = some [] := by
  decide +kernel

end Verif.Simplify
