import Verif.Flow.PieceLemmas

/-! # Lemmas on splitting a path and raising its flow -/

namespace Verif.Flow

variable {len : Pt → Pt → ℚ}

/-! ## Moves of a path -/

/-- The moves along a list of points. -/
def fm (d : Data) (v : ℚ) : List Pt → List Move
  | [] => []
  | a :: rest => movesTo d v (some a) rest

theorem movesTo_append (d : Data) (v : ℚ) (pos : Option Pt) (l l' : List Pt) :
    movesTo d v pos (l ++ l') = movesTo d v pos l ++ movesTo d v (posAfter pos l) l' := by
  induction l generalizing pos with
  | nil => rfl
  | cons a l ih =>
    have : posAfter pos (a :: l) = posAfter (some a) l := by
      unfold posAfter
      rw [List.getLast?_cons]
      cases l.getLast? <;> rfl
    simp only [List.cons_append, movesTo, ih, this]

theorem fm_append (d : Data) (v : ℚ) (pre : List Pt) (a : Pt) (l : List Pt) :
    fm d v (pre ++ a :: l) = fm d v (pre ++ [a]) ++ movesTo d v (some a) l := by
  cases pre with
  | nil => simp [fm, movesTo]
  | cons x pre =>
    have := movesTo_append d v (some x) (pre ++ [a]) l
    rw [show posAfter (some x) (pre ++ [a]) = some a by simp [posAfter]] at this
    simpa [fm] using this

theorem movesTo_replaced {d : Data} {v v' : ℚ} (hd : 0 < volume d) (h0 : 0 < v') (h1 : v' ≤ v) (pos : Option Pt)
    (l : List Pt) : Replaced (movesTo d v pos l) (movesTo d v' pos l) := by
  induction l generalizing pos with
  | nil => exact .nil
  | cons a l ih =>
    exact Replaced.append (a := [_]) (a' := [_]) ⟨[[_]], rfl, .cons (.slow hd rfl rfl rfl h0 h1) .nil⟩ (ih _)

theorem fm_replaced {d : Data} {v v' : ℚ} (hd : 0 < volume d) (h0 : 0 < v') (h1 : v' ≤ v) (l : List Pt) :
    Replaced (fm d v l) (fm d v' l) := by
  cases l with
  | nil => exact .nil
  | cons a l => exact movesTo_replaced hd h0 h1 _ _

theorem fm_pos {d : Data} {v : ℚ} (h0 : 0 < v) (l : List Pt) : ∀ m ∈ fm d v l, 0 < m.speed := by
  have aux : ∀ (l : List Pt) (pos : Option Pt), ∀ m ∈ movesTo d v pos l, 0 < m.speed := by
    intro l
    induction l with
    | nil => simp [movesTo]
    | cons a l ih =>
      intro pos m hm
      rcases List.mem_cons.1 hm with rfl | hm
      · exact h0
      · exact ih _ m hm
  cases l with
  | nil => simp [fm]
  | cons a l => exact aux _ _

/-- Splitting a list of points. -/
structure Split (points left right : List Pt) : Prop where
  out : ∃ pre a b post q, Between a q b ∧ Near 1 a b q ∧ points = pre ++ a :: b :: post ∧ left = pre ++ [a, q] ∧
    right = q :: b :: post

theorem Split.reverse {p l r : List Pt} (h : Split p.reverse l r) : Split p r.reverse l.reverse := by
  obtain ⟨pre, a, b, post, q, hb, hn, h1, rfl, rfl⟩ := h.out
  refine ⟨post.reverse, b, a, pre.reverse, q, hb.symm, hn.swap, ?_, by simp, by simp⟩
  have := congrArg List.reverse h1
  simpa using this

theorem Split.replaced {p l r : List Pt} (h : Split p l r) {d : Data} {v v1 v2 : ℚ} (hd : 0 < volume d)
    (h1 : 0 < v1) (h1' : v1 ≤ v) (h2 : 0 < v2) (h2' : v2 ≤ v) : Replaced (fm d v p) (fm d v1 l ++ fm d v2 r) := by
  obtain ⟨pre, a, b, post, q, hb, hn, rfl, rfl, rfl⟩ := h.out
  rw [fm_append, fm_append d v1 pre a [q]]
  simp only [movesTo, fm]
  rw [List.append_assoc]
  refine (fm_replaced hd h1 h1' _).append ?_
  refine Replaced.append (a := [_]) (a' := [_, _]) ?_ (movesTo_replaced hd h2 h2' _ _)
  refine ⟨[[⟨some a, q, d, v1⟩, ⟨some q, b, d, v2⟩]], rfl, .cons ?_ .nil⟩
  refine ⟨.step _ rfl hb (Leads.last (⟨some q, b, d, v2⟩ : Move)), by simp, by simp [*], ?_, fun h => absurd hd (not_lt.2 h)⟩
  intro x hx a' ha'
  cases ha'
  simp only [List.length_cons, List.length_nil]
  norm_num
  rcases List.mem_cons.1 hx with rfl | hx
  · exact hn
  · rw [List.mem_singleton.1 hx]; exact Near.right _ _ (by norm_num)

/-! ## Walking -/

theorem total_nonneg (h : IsDist len) (l : List Pt) : 0 ≤ total len l := by
  induction l with
  | nil => exact le_refl _
  | cons a l ih =>
    cases l with
    | nil => exact le_refl _
    | cons b l => exact add_nonneg (h.nonneg _ _) ih

theorem total_append (l : List Pt) (a : Pt) (l' : List Pt) :
    total len (l ++ a :: l') = total len (l ++ [a]) + total len (a :: l') := by
  induction l with
  | nil => simp [total]
  | cons x l ih =>
    cases l with
    | nil => simp [total]
    | cons y l =>
      simp only [List.cons_append, total] at ih ⊢
      rw [ih]; ring

theorem total_reverse (h : IsDist len) (l : List Pt) : total len l.reverse = total len l := by
  induction l with
  | nil => rfl
  | cons a l ih =>
    cases l with
    | nil => rfl
    | cons b l =>
      simp only [List.reverse_cons, List.append_assoc, List.cons_append, List.nil_append] at ih ⊢
      rw [total_append, ih]
      simp [total, h.symm b a]; ring

theorem walk_spec {dur speed : ℚ} :
    ∀ (rest done : List Pt) (prev : Pt) (cur : ℚ), cur < dur →
      (dur < cur + total len (prev :: rest) / speed → ∃ r, walk len dur speed done prev cur rest = .ok r) ∧
      ∀ l r, walk len dur speed done prev cur rest = .ok (l, r) → Split (done ++ prev :: rest) l r := by
  intro rest
  induction rest with
  | nil =>
    intro done prev cur hc
    refine ⟨fun hd => ?_, fun l r hw => by simp [walk] at hw⟩
    simp [total] at hd
    exact absurd hc (not_lt.2 hd.le)
  | cons next rest ih =>
    intro done prev cur hc
    simp only [walk]
    by_cases h1 : cur + len prev next / speed < dur
    · simp only [if_pos h1]
      obtain ⟨i1, i2⟩ := ih (done ++ [prev]) next _ h1
      refine ⟨fun hd => i1 ?_, fun l r hw => by simpa using i2 l r hw⟩
      simp only [total] at hd
      rw [add_div] at hd
      linarith
    · simp only [if_neg h1]
      have hseg : 0 < len prev next / speed := by linarith
      simp only [if_neg hseg.ne']
      refine ⟨fun _ => ⟨_, rfl⟩, fun l r hw => ?_⟩
      have hw := Outcome.ok.inj hw
      obtain ⟨rfl, rfl⟩ := Prod.mk.inj hw
      have r0 : 0 ≤ (dur - cur) / (len prev next / speed) := div_nonneg (by linarith) hseg.le
      have r1 : (dur - cur) / (len prev next / speed) ≤ 1 := (div_le_one hseg).2 (by linarith)
      exact ⟨done, prev, next, rest, _, towards_between _ _ r0 r1, towards_near _ _ r0 r1, rfl, rfl, rfl⟩

theorem walkFrom_spec {dur speed : ℚ} (hd : 0 < dur) (l : List Pt) :
    (dur < total len l / speed → ∃ r, walkFrom len dur speed l = .ok r) ∧
      ∀ a b, walkFrom len dur speed l = .ok (a, b) → Split l a b := by
  cases l with
  | nil =>
    refine ⟨fun h' => ?_, fun a b hw => by simp [walkFrom] at hw⟩
    simp [total] at h'
    exact absurd hd (not_lt.2 h'.le)
  | cons p l =>
    have := walk_spec (len := len) (dur := dur) (speed := speed) l [] p 0 hd
    simpa [walkFrom] using this

/-! ## Partition -/

/-- The two parts in the order of printing. -/
def order {α : Type} (forward : Bool) (l : List α) : List α := if forward then l else l.reverse

/-- The part and the rest of a split path. -/
def SplitDir (forward : Bool) (points part rest : List Pt) : Prop :=
  if forward then Split points part rest else Split points rest part

theorem partition_spec (h : IsDist len) {dur v : ℚ} (hv : 0 < v) (hd : 0 < dur) (forward : Bool) (p : FPath) :
    (∃ r, p.partition len dur v forward = .ok r) ∧
    (∀ part rest left, p.partition len dur v forward = .ok (part, some rest, left) →
      ∃ l1 l2, part = FPath.mk' p.data p.orig l1 v ∧ rest = FPath.mk' p.data p.orig l2 p.speed ∧
        SplitDir forward p.points l1 l2 ∧ left = 0) ∧
    (∀ part left, p.partition len dur v forward = .ok (part, none, left) →
      part = FPath.mk' p.data p.orig p.points v ∧ 0 ≤ left ∧ left ≤ dur) := by
  unfold FPath.partition
  dsimp only
  by_cases hall : dur ≥ total len p.points / v
  · rw [if_pos hall]
    refine ⟨⟨_, rfl⟩, ?_, ?_⟩
    · intro part rest left hw
      simp at hw
    · intro part left hw
      simp only [Outcome.ok.injEq, Prod.mk.injEq, true_and] at hw
      obtain ⟨rfl, rfl⟩ := hw
      have : 0 ≤ total len p.points / v := div_nonneg (total_nonneg h _) hv.le
      exact ⟨rfl, by linarith, by linarith⟩
  · rw [if_neg hall]
    push Not at hall
    cases forward
    · simp only [Bool.false_eq_true, if_false]
      obtain ⟨w1, w2⟩ := walkFrom_spec (len := len) (speed := v) hd p.points.reverse
      rw [total_reverse h] at w1
      obtain ⟨⟨r, l⟩, hr⟩ := w1 hall
      rw [hr]
      simp only [Outcome.bind_ok, Outcome.pure_eq]
      refine ⟨⟨_, rfl⟩, ?_, ?_⟩
      · intro part rest left hw
        simp only [Outcome.ok.injEq, Prod.mk.injEq, Option.some.injEq] at hw
        obtain ⟨rfl, rfl, rfl⟩ := hw
        refine ⟨_, _, rfl, rfl, ?_, rfl⟩
        have := (w2 r l hr).reverse
        simpa [SplitDir] using this
      · intro part left hw
        simp at hw
    · simp only [if_true]
      obtain ⟨w1, w2⟩ := walkFrom_spec (len := len) (speed := v) hd p.points
      obtain ⟨⟨l, r⟩, hr⟩ := w1 hall
      rw [hr]
      simp only [Outcome.bind_ok, Outcome.pure_eq]
      refine ⟨⟨_, rfl⟩, ?_, ?_⟩
      · intro part rest left hw
        simp only [Outcome.ok.injEq, Prod.mk.injEq, Option.some.injEq] at hw
        obtain ⟨rfl, rfl, rfl⟩ := hw
        refine ⟨_, _, rfl, rfl, ?_, rfl⟩
        simpa [SplitDir] using w2 l r hr
      · intro part left hw
        simp at hw

/-! ## Paths -/

/-- What holds of every path on its way through the passes. -/
structure Good (p : FPath) : Prop where
  flow : p.flow = volume p.data * p.speed
  vol : 0 ≤ volume p.data
  pos : 0 < p.speed
  le : p.speed ≤ target p.data p.orig
  travel : volume p.data ≤ 0 → p.speed = target p.data p.orig

theorem Good.travel_iff {p : FPath} (h : Good p) : p.travel = true ↔ volume p.data ≤ 0 := by
  have ht : 0 < target p.data p.orig := h.pos.trans_le h.le
  unfold FPath.travel FPath.targetFlow
  rw [decide_eq_true_iff, vol_eq]
  constructor
  · intro h1
    by_contra h2
    push Not at h2
    exact absurd (mul_pos h2 ht) (not_lt.2 h1)
  · intro h1
    exact mul_nonpos_of_nonpos_of_nonneg h1 ht.le

theorem Good.mk' {d : Data} {o v : ℚ} {l : List Pt} (hv : 0 < volume d) (h0 : 0 < v) (h1 : v ≤ target d o) :
    Good (FPath.mk' d o l v) :=
  ⟨rfl, hv.le, h0, h1, fun h => absurd hv (not_lt.2 h)⟩

/-- The moves of a path. -/
def FPath.moves (p : FPath) : List Move := fm p.data (p.speed / 1000) p.points

/-- Paths that start at `a`, each where the one before ended, and end at `b`. -/
inductive Joins : Pt → Pt → List FPath → Prop
  | nil (a : Pt) : Joins a a []
  | cons {a b c : Pt} {p : FPath} {ps : List FPath} (h1 : p.points.head? = some a) (h2 : p.points.getLast? = some c)
      (h : Joins c b ps) : Joins a b (p :: ps)

theorem Joins.append {a b c : Pt} {l l' : List FPath} (h : Joins a b l) (h' : Joins b c l') : Joins a c (l ++ l') := by
  induction h with
  | nil => exact h'
  | cons h1 h2 _ ih => exact .cons h1 h2 (ih h')

theorem Joins.split {a c : Pt} {l l' : List FPath} (h : Joins a c (l ++ l')) : ∃ b, Joins a b l ∧ Joins b c l' := by
  induction l generalizing a with
  | nil => exact ⟨a, .nil a, h⟩
  | cons p l ih =>
    cases h with
    | cons h1 h2 h =>
      obtain ⟨b, hb, hb'⟩ := ih h
      exact ⟨b, .cons h1 h2 hb, hb'⟩

theorem Joins.of_points {a b : Pt} {p p' : FPath} (h : Joins a b [p]) (hp : p'.points = p.points) : Joins a b [p'] := by
  cases h with
  | cons h1 h2 h => exact .cons (hp ▸ h1) (hp ▸ h2) h

theorem Split.joins {p x y : FPath} (h : Split p.points x.points y.points) {a b : Pt} (hj : Joins a b [p]) :
    Joins a b [x, y] := by
  obtain ⟨pre, u, v, post, q, -, -, h1, h2, h3⟩ := h.out
  cases hj with
  | cons j1 j2 j =>
    cases j
    refine .cons (c := q) ?_ ?_ (.cons (c := b) ?_ ?_ (.nil b))
    · rw [h2]; rw [h1] at j1
      cases pre <;> simpa using j1
    · rw [h2]; simp
    · rw [h3]; rfl
    · rw [h3]; rw [h1] at j2
      simpa using j2

/-- Flows that rise from `f` to `f'` in steps of at most `δ`. -/
inductive Climb (δ : ℚ) : ℚ → List FPath → ℚ → Prop
  | last {f : ℚ} (x : FPath) (h1 : f ≤ x.flow) (h2 : x.flow ≤ f + δ) : Climb δ f [x] x.flow
  | cons {f f' : ℚ} (x : FPath) {l : List FPath} (h1 : f ≤ x.flow) (h2 : x.flow ≤ f + δ) (h : Climb δ x.flow l f') :
      Climb δ f (x :: l) f'

/-- What a path is turned into in a pass, `e` in the order of the pass. -/
structure Emits (forward : Bool) (p : FPath) (e : List FPath) : Prop where
  replaced : Replaced p.moves ((order forward e).flatMap FPath.moves)
  joins : ∀ a b, Joins a b [p] → Joins a b (order forward e)
  good : ∀ x ∈ e, Good x ∧ x.data = p.data ∧ x.orig = p.orig ∧ x.flow ≤ p.flow
  ne : e ≠ []
  travel : volume p.data ≤ 0 → e = [p]

theorem Emits.refl (forward : Bool) {p : FPath} (hp : Good p) : Emits forward p [p] where
  replaced := by
    have : order forward [p] = [p] := by unfold order; split <;> rfl
    rw [this]
    have h0 : (0 : ℚ) < p.speed / 1000 := div_pos hp.pos (by norm_num)
    simp only [List.flatMap_cons, List.flatMap_nil, List.append_nil]
    exact Replaced.refl (fm_pos h0 _)
  joins := by
    intro a b h
    have : order forward [p] = [p] := by unfold order; split <;> rfl
    rw [this]; exact h
  good := by
    intro x hx
    rw [List.mem_singleton.1 hx]
    exact ⟨hp, rfl, rfl, le_refl _⟩
  ne := by simp
  travel := fun _ => rfl

theorem Emits.slow (forward : Bool) {p : FPath} (hp : Good p) (hv : 0 < volume p.data) {v : ℚ} (h0 : 0 < v)
    (h1 : v ≤ p.speed) : Emits forward p [FPath.mk' p.data p.orig p.points v] where
  replaced := by
    have : ∀ x : FPath, order forward [x] = [x] := by intro x; unfold order; split <;> rfl
    rw [this]
    simp only [List.flatMap_cons, List.flatMap_nil, List.append_nil]
    exact fm_replaced hv (div_pos h0 (by norm_num)) (div_le_div_of_nonneg_right h1 (by norm_num)) _
  joins := by
    intro a b h
    have : ∀ x : FPath, order forward [x] = [x] := by intro x; unfold order; split <;> rfl
    rw [this]; exact h.of_points rfl
  good := by
    intro x hx
    rw [List.mem_singleton.1 hx]
    refine ⟨.mk' hv h0 (h1.trans hp.le), rfl, rfl, ?_⟩
    rw [hp.flow]
    exact mul_le_mul_of_nonneg_left h1 hv.le
  ne := by simp
  travel := fun h => absurd hv (not_lt.2 h)

theorem order_cons {α : Type} (forward : Bool) (x : α) (l : List α) :
    order forward (x :: l) = if forward then x :: order forward l else order forward l ++ [x] := by
  unfold order; cases forward <;> simp

/-- A split path whose rest is processed further. -/
theorem Emits.split (forward : Bool) {p : FPath} (hp : Good p) (hv : 0 < volume p.data) {v : ℚ} (h0 : 0 < v)
    (h1 : v ≤ p.speed) {l1 l2 : List Pt} (hs : SplitDir forward p.points l1 l2) {e : List FPath}
    (he : Emits forward (FPath.mk' p.data p.orig l2 p.speed) e) :
    Emits forward p (FPath.mk' p.data p.orig l1 v :: e) where
  replaced := by
    rw [order_cons]
    have k0 : (0 : ℚ) < v / 1000 := div_pos h0 (by norm_num)
    have k1 : v / 1000 ≤ p.speed / 1000 := div_le_div_of_nonneg_right h1 (by norm_num)
    have k2 : (0 : ℚ) < p.speed / 1000 := div_pos hp.pos (by norm_num)
    have hr := he.replaced
    have hpart : ∀ m ∈ (FPath.mk' p.data p.orig l1 v).moves, 0 < m.speed := fm_pos k0 _
    cases forward
    · simp only [Bool.false_eq_true, if_false]
      rw [List.flatMap_append]
      simp only [List.flatMap_cons, List.flatMap_nil, List.append_nil]
      have hs' : Split p.points l2 l1 := by simpa [SplitDir] using hs
      exact (hs'.replaced hv k2 (le_refl _) k0 k1).trans (hr.append (.refl hpart))
    · simp only [if_true, List.flatMap_cons]
      have hs' : Split p.points l1 l2 := by simpa [SplitDir] using hs
      exact (hs'.replaced hv k0 k1 k2 (le_refl _)).trans (Replaced.append (.refl hpart) hr)
  joins := by
    intro a b hj
    rw [order_cons]
    cases forward
    · simp only [Bool.false_eq_true, if_false]
      have hs' : Split p.points l2 l1 := by simpa [SplitDir] using hs
      obtain ⟨c, c1, c2⟩ := Joins.split (l := [FPath.mk' p.data p.orig l2 p.speed])
        (l' := [FPath.mk' p.data p.orig l1 v]) (hs'.joins hj)
      exact (he.joins _ _ c1).append c2
    · simp only [if_true]
      have hs' : Split p.points l1 l2 := by simpa [SplitDir] using hs
      obtain ⟨c, c1, c2⟩ := Joins.split (l := [FPath.mk' p.data p.orig l1 v])
        (l' := [FPath.mk' p.data p.orig l2 p.speed]) (hs'.joins hj)
      exact c1.append (he.joins _ _ c2)
  good := by
    intro x hx
    rcases List.mem_cons.1 hx with rfl | hx
    · refine ⟨.mk' hv h0 (h1.trans hp.le), rfl, rfl, ?_⟩
      rw [hp.flow]
      exact mul_le_mul_of_nonneg_left h1 hv.le
    · obtain ⟨g1, g2, g3, g4⟩ := he.good x hx
      exact ⟨g1, g2, g3, by rw [hp.flow]; exact g4⟩
  ne := by simp
  travel := fun h => absurd hv (not_lt.2 h)

end Verif.Flow
