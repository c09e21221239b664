import Verif.Lines.ScanLemmas
import Mathlib.Data.List.Chain

/-! # The connections of a zigzag pattern -/

namespace Verif.Lines

/-! ## Pieces -/

/-- The pieces along a list of events, behind a crossing. -/
def cut : Int → List Pt → List Event → List Piece
  | _, _, [] => []
  | s, acc, .vertex p :: rest => cut s (acc ++ [p]) rest
  | s, acc, .cross p t :: rest => ⟨s, acc ++ [p], t⟩ :: cut t [p] rest

def Event.isVertex : Event → Bool
  | .vertex _ => true
  | .cross _ _ => false

def Event.point : Event → Pt
  | .vertex p => p
  | .cross p _ => p

/-- The pieces around a polygon, from the first crossing back to it. -/
def pieces (events : List Event) : List Piece :=
  match events.dropWhile Event.isVertex with
  | [] => []
  | .vertex _ :: _ => []
  | .cross p s :: rest => cut s [p] (rest ++ events.takeWhile Event.isVertex ++ [.cross p s])

/-! ## The way around a polygon -/

/-- The scanlines on a way from between two scanlines to between two scanlines. -/
inductive Steps : Int → List Event → Int → Prop
  | nil (k : Int) : Steps k [] k
  | vertex {k k' : Int} {p : Pt} {l : List Event} (h : Steps k l k') : Steps k (.vertex p :: l) k'
  | right {k k' : Int} {p : Pt} {l : List Event} (h : Steps (k + 1) l k') : Steps k (.cross p (k + 1) :: l) k'
  | left {k k' : Int} {p : Pt} {l : List Event} (h : Steps (k - 1) l k') : Steps k (.cross p k :: l) k'

theorem Steps.append {k k' k'' : Int} {l l' : List Event} (h : Steps k l k') (h' : Steps k' l' k'') : Steps k (l ++ l') k'' := by
  induction h with
  | nil => exact h'
  | vertex _ ih => exact .vertex (ih h')
  | right _ ih => exact .right (ih h')
  | left _ ih => exact .left (ih h')

theorem Steps.split {k k' : Int} {l l' : List Event} (h : Steps k (l ++ l') k') : ∃ m, Steps k l m ∧ Steps m l' k' := by
  induction l generalizing k with
  | nil => exact ⟨k, .nil k, h⟩
  | cons e l ih =>
    cases h with
    | vertex h => obtain ⟨m, h1, h2⟩ := ih h; exact ⟨m, .vertex h1, h2⟩
    | right h => obtain ⟨m, h1, h2⟩ := ih h; exact ⟨m, .right h1, h2⟩
    | left h => obtain ⟨m, h1, h2⟩ := ih h; exact ⟨m, .left h1, h2⟩

theorem steps_up (f : Int → Pt) (k : Int) (n : Nat) :
    Steps k (((List.range n).map fun i : Nat => k + 1 + i).map fun s => .cross (f s) s) (k + n) := by
  induction n generalizing k with
  | zero => simpa using Steps.nil k
  | succ n ih =>
    rw [List.range_succ_eq_map]
    simp only [List.map_cons, List.map_map, Nat.cast_zero, add_zero]
    refine .right ?_
    have := ih (k + 1)
    rw [show k + 1 + (n : Int) = k + ((n + 1 : Nat) : Int) by push_cast; ring, List.map_map] at this
    convert this using 2
    funext a
    simp only [Function.comp, Nat.succ_eq_add_one, Nat.cast_add, Nat.cast_one]
    rw [show k + 1 + ((a : Int) + 1) = k + 1 + 1 + a by ring]

theorem steps_down (f : Int → Pt) (k : Int) (n : Nat) :
    Steps k (((List.range n).map fun i : Nat => k - i).map fun s => .cross (f s) s) (k - n) := by
  induction n generalizing k with
  | zero => simpa using Steps.nil k
  | succ n ih =>
    rw [List.range_succ_eq_map]
    simp only [List.map_cons, List.map_map, Nat.cast_zero, sub_zero]
    refine .left ?_
    have := ih (k - 1)
    rw [show k - 1 - (n : Int) = k - ((n + 1 : Nat) : Int) by push_cast; ring, List.map_map] at this
    convert this using 2
    funext a
    simp only [Function.comp, Nat.succ_eq_add_one, Nat.cast_add, Nat.cast_one]
    rw [show k - ((a : Int) + 1) = k - 1 - a by ring]

theorem segIdx_mono {d x y : Int} (hd : 0 < d) (h : x ≤ y) : segIdx x d ≤ segIdx y d := by
  rw [segIdx_eq x hd, segIdx_eq y hd]
  exact Int.ediv_le_ediv hd h

theorem edge_steps {d shift : Int} (hd : 0 < d) (p0 p1 : Pt) :
    Steps (segIdx (p0.1 - shift) d) (edgeEvents d shift p0 p1) (segIdx (p1.1 - shift) d) := by
  unfold edgeEvents
  refine Steps.append (k' := segIdx (p1.1 - shift) d) ?_ (.vertex (.nil _))
  unfold scans
  split
  · rename_i h
    rw [h]
    exact .nil _
  · split
    · rename_i h
      have := steps_up (fun s => (s * d + shift, crossY p0 p1 (s * d + shift))) (segIdx (p0.1 - shift) d)
        (segIdx (p1.1 - shift) d + 1 - (segIdx (p0.1 - shift) d + 1)).toNat
      have hm := segIdx_mono (d := d) hd (show p0.1 - shift ≤ p1.1 - shift by omega)
      rwa [Int.toNat_of_nonneg (by omega), show segIdx (p0.1 - shift) d + (segIdx (p1.1 - shift) d + 1 - (segIdx (p0.1 - shift) d + 1)) =
        segIdx (p1.1 - shift) d by ring] at this
    · rename_i h
      have := steps_down (fun s => (s * d + shift, crossY p0 p1 (s * d + shift))) (segIdx (p0.1 - shift) d)
        (segIdx (p0.1 - shift) d - (segIdx (p1.1 - shift) d + 1 - 1)).toNat
      have hm := segIdx_mono (d := d) hd (show p1.1 - shift ≤ p0.1 - shift by omega)
      rwa [Int.toNat_of_nonneg (by omega), show segIdx (p0.1 - shift) d - (segIdx (p0.1 - shift) d - (segIdx (p1.1 - shift) d + 1 - 1)) =
        segIdx (p1.1 - shift) d by ring] at this

theorem walk_steps {d shift : Int} (hd : 0 < d) (p0 : Pt) (l : List Pt) :
    Steps (segIdx (p0.1 - shift) d) (walk d shift p0 l) (segIdx ((l.getLastD p0).1 - shift) d) := by
  induction l generalizing p0 with
  | nil => exact .nil _
  | cons p1 l ih =>
    rw [walk, List.getLastD_cons]
    exact (edge_steps hd p0 p1).append (ih p1)

theorem getLastD_idem (l : List Pt) (a : Pt) : l.getLastD (l.getLastD a) = l.getLastD a := by
  cases l with
  | nil => rfl
  | cons x l => rw [List.getLastD_cons, List.getLastD_cons]

theorem poly_steps {d shift : Int} (hd : 0 < d) (poly : List Pt) : ∃ k, Steps k (polyEvents d shift poly) k := by
  refine ⟨segIdx ((poly.getLastD (0, 0)).1 - shift) d, ?_⟩
  unfold polyEvents
  have := walk_steps (shift := shift) hd (poly.getLastD (0, 0)) poly
  rw [getLastD_idem] at this
  exact .vertex this

/-! ## Points on the way -/

/-- Consecutive points are on a common edge. -/
def Along (es : List (Pt × Pt)) (p q : Pt) : Prop := p = q ∨ ∃ e ∈ es, OnEdge e p ∧ OnEdge e q

theorem Along.mono {es es' : List (Pt × Pt)} (h : ∀ e ∈ es, e ∈ es') {p q : Pt} (hp : Along es p q) : Along es' p q := by
  rcases hp with hp | ⟨e, he, h1, h2⟩
  · exact .inl hp
  · exact .inr ⟨e, h e he, h1, h2⟩

theorem isChain_all {α : Type} {R : α → α → Prop} {l : List α} (h : ∀ a ∈ l, ∀ b ∈ l, R a b) : l.IsChain R := by
  induction l with
  | nil => exact .nil
  | cons a l ih =>
    rw [List.isChain_cons]
    refine ⟨fun b hb => h a (by simp) b (List.mem_cons_of_mem _ (List.mem_of_mem_head? hb)), ih fun x hx y hy => h x (by simp [hx]) y (by simp [hy])⟩

theorem edge_on {d shift : Int} (hd : 0 < d) (p0 p1 : Pt) : ∀ q ∈ (edgeEvents d shift p0 p1).map Event.point, OnEdge (p0, p1) q := by
  intro q hq
  unfold edgeEvents at hq
  rw [List.map_append, List.mem_append, List.map_map] at hq
  rcases hq with hq | hq
  · rw [List.mem_map] at hq
    obtain ⟨s, hs, rfl⟩ := hq
    have hm := (mem_scans hd).mp hs
    exact .inr (.inr ⟨hm, crossY_near hm⟩)
  · simp only [List.map_cons, Event.point, List.map_nil, List.mem_singleton] at hq
    exact .inr (.inl hq)

theorem edge_last (d shift : Int) (p0 p1 : Pt) : ∃ l, edgeEvents d shift p0 p1 = l ++ [.vertex p1] := ⟨_, rfl⟩

theorem walk_along {d shift : Int} (hd : 0 < d) (p0 : Pt) (l : List Pt) :
    (p0 :: (walk d shift p0 l).map Event.point).IsChain (Along ((p0 :: l).zip l)) := by
  induction l generalizing p0 with
  | nil => exact .singleton _
  | cons p1 l ih =>
    rw [walk, List.map_append, ← List.cons_append]
    have h1 : (p0 :: (edgeEvents d shift p0 p1).map Event.point).IsChain (Along ((p0 :: p1 :: l).zip (p1 :: l))) := by
      apply isChain_all
      have hon : ∀ q ∈ p0 :: (edgeEvents d shift p0 p1).map Event.point, OnEdge (p0, p1) q := by
        intro q hq
        rw [List.mem_cons] at hq
        rcases hq with rfl | hq
        · exact .inl rfl
        · exact edge_on hd _ _ q hq
      exact fun a ha b hb => .inr ⟨(p0, p1), by simp, hon a ha, hon b hb⟩
    have h2 := (ih p1).imp (S := Along ((p0 :: p1 :: l).zip (p1 :: l))) (fun a b h => h.mono (by
      intro e he
      rw [List.zip_cons_cons]
      exact List.mem_cons_of_mem _ he))
    obtain ⟨init, hi⟩ := edge_last d shift p0 p1
    rw [hi, List.map_append] at h1 ⊢
    simp only [List.map_cons, Event.point, List.map_nil] at h1 ⊢
    rw [← List.cons_append] at h1 ⊢
    rw [List.append_assoc]
    exact List.isChain_split.mpr ⟨h1, h2⟩

/-- What is known of the list of events of a polygon. -/
theorem poly_along {d shift : Int} (hd : 0 < d) (poly : List Pt) :
    ((polyEvents d shift poly).map Event.point).IsChain (Along (edges poly)) := by
  unfold polyEvents
  exact walk_along hd _ poly

theorem cross_at {d shift : Int} {poly : List Pt} {p : Pt} {s : Int} (h : Event.cross p s ∈ polyEvents d shift poly) : p.1 = s * d + shift := by
  unfold polyEvents at h
  rw [List.mem_cons] at h
  rcases h with h | h
  · cases h
  · generalize poly.getLastD (0, 0) = p0 at h
    induction poly generalizing p0 with
    | nil => simp [walk] at h
    | cons p1 l ih =>
      rw [walk, List.mem_append] at h
      rcases h with h | h
      · unfold edgeEvents at h
        rw [List.mem_append] at h
        rcases h with h | h
        · rw [List.mem_map] at h
          obtain ⟨t, -, he⟩ := h
          cases he
          rfl
        · simp at h
      · exact ih _ h

/-! ## Pieces -/

/-- The state behind some events: the last scanline and the points since. -/
def after : Int → List Pt → List Event → Int × List Pt
  | s, acc, [] => (s, acc)
  | s, acc, .vertex p :: rest => after s (acc ++ [p]) rest
  | _, _, .cross p t :: rest => after t [p] rest

theorem cut_append (s : Int) (acc : List Pt) (l l' : List Event) :
    cut s acc (l ++ l') = cut s acc l ++ cut (after s acc l).1 (after s acc l).2 l' := by
  induction l generalizing s acc with
  | nil => rfl
  | cons e l ih =>
    cases e with
    | vertex p => rw [List.cons_append, cut, cut, after]; exact ih ..
    | cross p t => rw [List.cons_append, cut, cut, after, List.cons_append, ih]

theorem cut_vertices (s : Int) (acc : List Pt) (l : List Event) (h : ∀ e ∈ l, e.isVertex = true) (p : Pt) (t : Int) :
    cut s acc (l ++ [.cross p t]) = [⟨s, acc ++ (l.map Event.point ++ [p]), t⟩] := by
  induction l generalizing acc with
  | nil => rfl
  | cons e l ih =>
    cases e with
    | vertex q =>
      rw [List.cons_append, cut, ih _ (fun e he => h e (by simp [he]))]
      simp [Event.point]
    | cross q t => simp [Event.isVertex] at h

/-- A list of events has a first crossing, or none. -/
theorem first_cross (l : List Event) : (∀ e ∈ l, e.isVertex = true) ∨
    ∃ a p s b, l = a ++ Event.cross p s :: b ∧ (∀ e ∈ a, e.isVertex = true) := by
  induction l with
  | nil => exact .inl (by simp)
  | cons e l ih =>
    cases e with
    | cross p s => exact .inr ⟨[], p, s, l, rfl, by simp⟩
    | vertex p =>
      rcases ih with h | ⟨a, q, s, b, h1, h2⟩
      · left
        intro e he
        rw [List.mem_cons] at he
        rcases he with rfl | he
        · rfl
        · exact h e he
      · right
        refine ⟨.vertex p :: a, q, s, b, by rw [h1]; rfl, ?_⟩
        intro e he
        rw [List.mem_cons] at he
        rcases he with rfl | he
        · rfl
        · exact h2 e he

theorem getLastD_concat (l : List Pt) (p a : Pt) : (l ++ [p]).getLastD a = p := by simp [List.getLastD_eq_getLast?]

theorem dropWhile_nil {l : List Event} (h : ∀ e ∈ l, e.isVertex = true) : l.dropWhile Event.isVertex = [] := by
  induction l with
  | nil => rfl
  | cons e l ih =>
    rw [List.dropWhile_cons, if_pos (h e (by simp))]
    exact ih fun e he => h e (by simp [he])

theorem pieces_none {l : List Event} (h : ∀ e ∈ l, e.isVertex = true) : pieces l = [] := by
  unfold pieces
  rw [dropWhile_nil h]

theorem pieces_some {a b : List Event} {p : Pt} {s : Int} (h : ∀ e ∈ a, e.isVertex = true) :
    pieces (a ++ Event.cross p s :: b) = cut s [p] b ++ [⟨(after s [p] b).1, (after s [p] b).2 ++ (a.map Event.point ++ [p]), s⟩] := by
  unfold pieces
  rw [List.dropWhile_append_of_pos h, List.takeWhile_append_of_pos h]
  simp only [List.dropWhile_cons, List.takeWhile_cons, Event.isVertex, Bool.false_eq_true, if_false, List.append_nil]
  rw [List.append_assoc, cut_append, cut_vertices _ _ _ h]

/-- The pieces of a way: they fit together. -/
theorem cut_spec {es : List (Pt × Pt)} {d shift : Int} (s k k' : Int) (acc : List Pt) (l : List Event) (hacc : ∃ q rest, acc = q :: rest ∧ q.1 = s * d + shift)
    (hk : k = s ∨ k = s - 1) (hst : Steps k l k') (hal : (acc ++ l.map Event.point).IsChain (Along es))
    (hat : ∀ p t, Event.cross p t ∈ l → p.1 = t * d + shift) :
    (∀ p ∈ cut s acc l, |p.src - p.dst| ≤ 1 ∧ p.pts.IsChain (Along es) ∧ 2 ≤ p.pts.length ∧
      (p.pts.headD (0, 0)).1 = p.src * d + shift ∧ (p.pts.getLastD (0, 0)).1 = p.dst * d + shift) ∧
    (cut s acc l).IsChain (fun p q => p.dst = q.src ∧ p.pts.getLastD (0, 0) = q.pts.headD (0, 0)) ∧
    (∀ p ∈ (cut s acc l).head?, p.src = s ∧ p.pts.headD (0, 0) = acc.headD (0, 0)) ∧
    (cut s acc l).map (fun p => (p.src, (p.pts.headD (0, 0)).2)) ++ [((after s acc l).1, ((after s acc l).2.headD (0, 0)).2)] =
      (s, (acc.headD (0, 0)).2) :: l.filterMap Event.crossing? := by
  induction l generalizing s k acc with
  | nil => exact ⟨by simp [cut], by simp [cut], by simp [cut], by simp [cut, after]⟩
  | cons e l ih =>
    obtain ⟨q, rest, rfl, hq⟩ := hacc
    cases e with
    | vertex p =>
      cases hst with
      | vertex hst =>
        have := ih s k (q :: rest ++ [p]) ⟨q, rest ++ [p], rfl, hq⟩ hk hst (by simpa [Event.point] using hal) (fun p t h => hat p t (by simp [h]))
        rw [cut, after]
        refine ⟨this.1, this.2.1, ?_, ?_⟩
        · intro p hp
          exact this.2.2.1 p hp
        · have h4 := this.2.2.2
          simp only [List.filterMap_cons, Event.crossing?]
          exact h4
    | cross p t =>
      have hp := hat p t (by simp)
      have hkey : |s - t| ≤ 1 ∧ ∃ m, (m = t ∨ m = t - 1) ∧ Steps m l k' := by
        cases hst with
        | right h => exact ⟨by rw [abs_le]; omega, k + 1, .inl rfl, h⟩
        | left h => exact ⟨by rw [abs_le]; omega, k - 1, .inr rfl, h⟩
      obtain ⟨h1, m, hm, hst'⟩ := hkey
      have hal' : (q :: rest ++ [p] ++ l.map Event.point).IsChain (Along es) := by simpa [Event.point] using hal
      have := ih t m [p] ⟨p, [], rfl, hp⟩ hm hst' (hal'.suffix ⟨q :: rest, by simp⟩) (fun p t h => hat p t (by simp [h]))
      obtain ⟨t1, t2, t3, t4⟩ := this
      rw [cut, after]
      refine ⟨?_, ?_, ?_, ?_⟩
      · intro x hx
        rw [List.mem_cons] at hx
        rcases hx with rfl | hx
        · refine ⟨h1, hal'.prefix ⟨_, rfl⟩, by simp, by simpa using hq, by rw [getLastD_concat]; exact hp⟩
        · exact t1 x hx
      · rw [List.isChain_cons]
        refine ⟨?_, t2⟩
        intro y hy
        obtain ⟨a1, a2⟩ := t3 y hy
        exact ⟨a1.symm, by rw [a2, getLastD_concat]; rfl⟩
      · intro x hx
        simp only [List.head?_cons, Option.mem_def, Option.some.injEq] at hx
        subst hx
        exact ⟨rfl, by simp⟩
      · simp only [List.filterMap_cons, Event.crossing?, List.map_cons, List.cons_append]
        rw [t4]
        simp

end Verif.Lines
