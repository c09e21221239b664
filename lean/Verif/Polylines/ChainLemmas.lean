import Verif.Polylines.Lemmas

/-! # Lemmas on chains -/

namespace Verif.Polylines

open Grid (Pt dist2)

variable {J : Type} {c : Cfg J} {lines : List (Line J)}

theorem length_append {pts new : List J} {back : J} (h : pts.getLast? = some back) :
    length c (pts ++ new) = length c pts + length c (back :: new) := by
  induction pts with
  | nil => simp at h
  | cons a pts ih =>
    cases pts with
    | nil =>
      simp only [List.getLast?_singleton, Option.some.injEq] at h
      subst h
      simp [length]
    | cons b pts =>
      have h' : (b :: pts).getLast? = some back := by rw [← h]; simp [List.getLast?_cons_cons]
      have := ih h'
      simp only [List.cons_append, length] at this ⊢
      omega

theorem length_reverse (pts : List J) : length c pts.reverse = length c pts := by
  induction pts with
  | nil => rfl
  | cons a pts ih =>
    cases pts with
    | nil => rfl
    | cons b pts =>
      rw [List.reverse_cons, length_append (back := b) (by simp), ih]
      simp only [length]
      rw [size_comm (c.pt a)]
      omega

theorem place_head {k : Nat} {l : Line J} {x : J} (hk : lines[k]? = some l) (hx : l.pts.head? = some x) : place c lines (k, 0) = c.pt x := by
  unfold place
  rw [hk]
  simp only [Option.bind_some]
  rw [← List.head?_eq_getElem?, hx]
  rfl

theorem place_last {k : Nat} {l : Line J} {x : J} (hk : lines[k]? = some l) (hx : l.pts.getLast? = some x) :
    place c lines (k, l.pts.length - 1) = c.pt x := by
  unfold place
  rw [hk]
  simp only [Option.bind_some]
  rw [← List.getLast?_eq_getElem?, hx]
  rfl

theorem canReverse_iff {odd : Bool} : canReverse c odd = true ↔ c.free = true ∨ odd = true := by unfold canReverse; simp

/-- The chain in the direction of the line it grew from. -/
def turn (rev : Bool) (w : List J) : List J := if rev then w.reverse else w

theorem mem_turn {rev : Bool} {w : List J} {x : J} : x ∈ turn rev w ↔ x ∈ w := by unfold turn; split <;> simp

/-- An end at which a line could be appended. -/
theorem fits_end {odd rev : Bool} {k : Nat} {x : J} (h : Fits c lines odd rev k x) :
    ∃ e ∈ ends lines, e.1 = k ∧ place c lines e = c.pt x ∧ kind lines e = odd ∧ (canReverse c odd = false → (e.2 ≠ 0 ↔ rev = true)) := by
  obtain ⟨l, hk, ho, h⟩ := h
  have hkind : ∀ j, kind lines (k, j) = odd := by intro j; unfold kind; simp [hk, ho]
  have hhead : l.pts.head? = some x → (canReverse c odd = false → rev = false) →
      ∃ e ∈ ends lines, e.1 = k ∧ place c lines e = c.pt x ∧ kind lines e = odd ∧ (canReverse c odd = false → (e.2 ≠ 0 ↔ rev = true)) := by
    intro hx hr
    refine ⟨(k, 0), mem_ends.mpr ⟨l, hk, Or.inl rfl⟩, rfl, place_head hk hx, hkind 0, ?_⟩
    intro hc
    rw [hr hc]; simp
  have hlast : l.pts.getLast? = some x → (canReverse c odd = false → rev = true ∧ 1 < l.pts.length) →
      ∃ e ∈ ends lines, e.1 = k ∧ place c lines e = c.pt x ∧ kind lines e = odd ∧ (canReverse c odd = false → (e.2 ≠ 0 ↔ rev = true)) := by
    intro hx hr
    refine ⟨(k, l.pts.length - 1), mem_ends.mpr ⟨l, hk, Or.inr rfl⟩, rfl, place_last hk hx, hkind _, ?_⟩
    intro hc
    obtain ⟨h1, h2⟩ := hr hc
    rw [h1]
    simp only [iff_true, ne_eq]
    omega
  rcases h with ⟨h1, h2⟩ | ⟨h1, h2, h3⟩ | ⟨h1, h2⟩
  · exact hhead h2 fun _ => h1
  · exact hlast h3 fun _ => ⟨h1, h2⟩
  · have hc := canReverse_iff.mpr h1
    rcases h2 with h2 | h2
    · exact hhead h2 fun h => by rw [hc] at h; exact absurd h (by simp)
    · exact hlast h2 fun h => by rw [hc] at h; exact absurd h (by simp)

section
variable {look : Pt → List End} (hm : 0 < c.maxDist) (hl : Grid.Lookup (Grid.pointGrid c.maxDist (place c lines) (ends lines)) look)
  {odd rev : Bool} {front back : J} {s : Chain J} (hfront : s.pts.head? = some front)
include hm hl hfront

/-- Whatever fits is a candidate, or touches the chain. -/
theorem fits_accept {k : Nat} {x : J} (hk : k ∉ s.done) (hf : Fits c lines odd rev k x) (hs : size (c.pt x) (c.pt back) ≤ c.maxDist) :
    Touches c (turn rev s.pts) x ∨
      (∃ e d, (search c lines look odd rev front back s).best = some (e, d) ∧ d < c.snap) ∨
      ∃ e d, (search c lines look odd rev front back s).best = some (e, d) ∧ d ≤ size (c.pt x) (c.pt back) := by
  obtain ⟨e, he, hek, hpl, hkd, hre⟩ := fits_end hf
  set S : Search := ⟨c.pt front, c.pt back, s.pts.length, s.length, odd, rev, s.close, s.done⟩ with hS
  by_cases hn : Near c lines S e
  · left
    refine ⟨front, mem_turn.mpr (List.mem_of_mem_head? hfront), ?_⟩
    unfold Near at hn
    rw [hpl] at hn
    exact hn
  · right
    have ha : Accept c lines S e := by
      refine ⟨by rw [hpl]; exact hs, fun h => absurd h hn, fun _ => by rw [hek]; exact hk, ?_, hkd.symm⟩
      rw [hkd]; exact hre
    obtain ⟨-, h⟩ := search_spec (odd := odd) (rev := rev) (front := front) (back := back) (s := s) hm hl hS
    rcases h with h | h
    · exact Or.inl h
    · right
      obtain ⟨e', d, h1, h2⟩ := h e he ha
      refine ⟨e', d, h1, ?_⟩
      unfold score at h2
      rw [if_neg hn, hpl] at h2
      simpa using h2

theorem best_of_search {others : Nat → Prop} (hoth : ∀ k, others k → k ∉ s.done) {e : End} {d : Int}
    (hb : (search c lines look odd rev front back s).best = some (e, d)) : Best c lines odd rev others (turn rev s.pts) back d := by
  by_cases hd : d < c.snap
  · exact Or.inl hd
  · right
    intro k x hk hf hs
    rcases fits_accept hm hl hfront (hoth k hk) hf hs with h | ⟨e', d', h1, h2⟩ | ⟨e', d', h1, h2⟩
    · exact Or.inr h
    · rw [hb] at h1
      simp only [Option.some.injEq, Prod.mk.injEq] at h1
      exact absurd (h1.2 ▸ h2) hd
    · rw [hb] at h1
      simp only [Option.some.injEq, Prod.mk.injEq] at h1
      left
      rw [h1.2]; exact h2

theorem none_of_search {others : Nat → Prop} (hoth : ∀ k, others k → k ∉ s.done)
    (hb : (search c lines look odd rev front back s).best = none) {k : Nat} {x : J} (hk : others k) (hf : Fits c lines odd rev k x) :
    c.maxDist < size (c.pt x) (c.pt back) ∨ Touches c (turn rev s.pts) x := by
  by_cases hs : size (c.pt x) (c.pt back) ≤ c.maxDist
  · right
    rcases fits_accept hm hl hfront (hoth k hk) hf hs with h | ⟨e', d', h1, h2⟩ | ⟨e', d', h1, h2⟩
    · exact h
    · rw [hb] at h1; simp at h1
    · rw [hb] at h1; simp at h1
  · left; omega

end

/-- What is known of a chain while it grows. -/
structure Inv (c : Cfg J) (lines : List (Line J)) (others : Nat → Prop) (odd rev : Bool) (done₀ : List Nat) (s : Chain J) (ps : List (Nat × Bool)) : Prop where
  joined : Joined c lines odd others ps (turn rev s.pts)
  ne : s.pts ≠ []
  len : s.length = length c s.pts
  close : s.close = decide (odd = true ∧ ps.length = 1)
  done : s.done.Perm (ps.map Prod.fst ++ done₀)
  nodup : s.done.Nodup
  lt : ∀ k ∈ s.done, k < lines.length

/-- One more line. -/
def grow (rev : Bool) (p : Nat × Bool) (ps : List (Nat × Bool)) : List (Nat × Bool) := if rev then p :: ps else ps ++ [p]

theorem joined_ne {others : Nat → Prop} {odd : Bool} {ps : List (Nat × Bool)} {w : List J} (h : Joined c lines odd others ps w) : 0 < ps.length := by
  cases h <;> simp

/-- An end at which a line is appended. -/
theorem end_pts {e : End} (he : e ∈ ends lines) (hne : ∀ l ∈ lines, l.pts ≠ []) :
    ∃ l b new, lines[e.1]? = some l ∧ (if e.2 = 0 then l.pts else l.pts.reverse) = b :: new ∧ place c lines e = c.pt b ∧
      (l.pts.head? = some b ∨ l.pts.getLast? = some b) := by
  obtain ⟨l, hk, he⟩ := mem_ends.mp he
  have hlne := hne l (List.mem_of_getElem? hk)
  by_cases h0 : e.2 = 0
  · obtain ⟨b, new, hb⟩ := List.exists_cons_of_ne_nil hlne
    refine ⟨l, b, new, hk, by rw [if_pos h0]; exact hb, ?_, Or.inl (by rw [hb]; rfl)⟩
    have := place_head (c := c) hk (show l.pts.head? = some b by rw [hb]; rfl)
    rw [← h0] at this
    exact this
  · have h1 : e.2 = l.pts.length - 1 := by
      rcases he with he | he
      · exact absurd he h0
      · exact he
    obtain ⟨b, new, hb⟩ := List.exists_cons_of_ne_nil (show l.pts.reverse ≠ [] by simpa using hlne)
    have hlast : l.pts.getLast? = some b := by rw [← List.head?_reverse, hb]; rfl
    refine ⟨l, b, new, hk, by rw [if_neg h0]; exact hb, ?_, Or.inr hlast⟩
    have := place_last (c := c) hk hlast
    rw [← h1] at this
    exact this

theorem step_inv {look : Pt → List End} (hm : 0 < c.maxDist) (hl : Grid.Lookup (Grid.pointGrid c.maxDist (place c lines) (ends lines)) look)
    (hne : ∀ l ∈ lines, l.pts ≠ []) {others : Nat → Prop} {odd rev : Bool} {done₀ : List Nat} {front back : J} {s : Chain J}
    {ps : List (Nat × Bool)} (hs : Inv c lines others odd rev done₀ s ps) (hfront : s.pts.head? = some front) (hback : s.pts.getLast? = some back)
    {e : End} {d : Int} (hb : (search c lines look odd rev front back s).best = some (e, d))
    (hcl : (search c lines look odd rev front back s).closing = false) (hoth : ∀ k, others k → k ∉ s.done) :
    e.1 ∉ s.done ∧ ∃ p, Inv c lines others odd rev done₀ (append c lines back e s) (grow rev p ps) := by
  obtain ⟨h1, -⟩ := search_spec (odd := odd) (rev := rev) (front := front) (back := back) (s := s) hm hl rfl
  obtain ⟨he, ha, hd, hc⟩ := h1.some e d hb
  rw [hcl] at hc
  have hn := (iff_false_left (by simp : ¬(false = true))).mp hc
  have hdone := ha.2.2.1 hn
  have hB := best_of_search hm hl hfront hoth hb
  obtain ⟨l, b, new, hk, hpts, hpl, hends⟩ := end_pts (c := c) he hne
  have hkind : kind lines e = l.odd := by unfold kind; rw [hk]; rfl
  have hodd : l.odd = odd := by rw [← hkind]; exact ha.2.2.2.2.symm
  have hdd : d = size (c.pt back) (c.pt b) := by
    rw [hd]; unfold score; rw [if_neg hn, hpl]; simp [size_comm]
  have hmax : size (c.pt back) (c.pt b) ≤ c.maxDist := by
    have := ha.1
    rw [hpl, size_comm] at this
    exact this
  rw [hdd] at hB
  have hrev := ha.2.2.2.1
  rw [hkind, hodd] at hrev
  have happ : append c lines back e s = ⟨s.pts ++ (if size (c.pt back) (c.pt b) < c.snap then new else b :: new),
      s.length + length c (back :: if size (c.pt back) (c.pt b) < c.snap then new else b :: new), s.close && !odd, e.1 :: s.done⟩ := by
    unfold append
    simp only [hk, Option.getD_some, hpts, hpl, List.tail_cons, hodd]
  refine ⟨hdone, ?_⟩
  have hcan : ∀ r : Bool, r = ((decide (e.2 ≠ 0)) != rev) → r = true → c.free = true ∨ odd = true := by
    intro r hr hrt
    by_contra hno
    have : canReverse c odd = false := by
      rw [← Bool.not_eq_true, canReverse_iff]; exact hno
    have := hrev this
    rw [hr] at hrt
    by_cases h0 : e.2 = 0 <;> cases rev <;> simp_all
  rw [happ]
  refine ⟨(e.1, (decide (e.2 ≠ 0)) != rev), ?_, ?_, ?_, ?_, ?_, ?_, ?_⟩
  · cases hr : rev with
    | false =>
      subst hr
      have hj := hs.joined
      simp only [turn, grow, Bool.false_eq_true, if_false] at hj hB ⊢
      refine Joined.after hj hk hodd (hcan _ rfl) hback ?_ hmax hB
      rw [← hpts]
      unfold oriented
      by_cases h0 : e.2 = 0 <;> simp [h0]
    | true =>
      subst hr
      have hj := hs.joined
      simp only [turn, grow, if_true] at hj hB ⊢
      have := Joined.before (new := new.reverse) hj hk hodd (hcan _ rfl) (by rw [List.head?_reverse]; exact hback) (b := b) (by
        have h2 : oriented l ((decide (e.2 ≠ 0)) != true) = (if e.2 = 0 then l.pts else l.pts.reverse).reverse := by
          unfold oriented
          by_cases h0 : e.2 = 0 <;> simp [h0]
        rw [h2, hpts, List.reverse_cons]) hmax hB
      rw [List.reverse_append]
      convert this using 2
      split <;> simp
  · have := hs.ne
    simp [this]
  · dsimp only
    rw [length_append hback, hs.len]
  · have h0 := joined_ne hs.joined
    have hlen : (grow rev (e.1, (decide (e.2 ≠ 0)) != rev) ps).length = ps.length + 1 := by unfold grow; split <;> simp
    dsimp only
    rw [hlen, hs.close]
    have : ps.length ≠ 0 := by omega
    cases odd <;> simp [this]
  · dsimp only
    have h2 : (e.1 :: s.done).Perm (e.1 :: (ps.map Prod.fst ++ done₀)) := hs.done.cons _
    refine h2.trans ?_
    unfold grow
    split
    · simp
    · simp only [List.map_append, List.map_cons, List.map_nil, List.append_assoc, List.singleton_append]
      exact List.perm_middle.symm
  · exact List.nodup_cons.mpr ⟨hdone, hs.nodup⟩
  · intro k hk'
    rcases List.mem_cons.mp hk' with rfl | hk'
    · exact (List.getElem?_eq_some_iff.mp hk).1
    · exact hs.lt k hk'

theorem nodup_length {l : List Nat} {n : Nat} (h : l.Nodup) (hlt : ∀ k ∈ l, k < n) : l.length ≤ n := by
  have := (List.subperm_of_subset h (l₂ := List.range n) (fun k hk => List.mem_range.mpr (hlt k hk))).length_le
  simpa using this

/-- A chain that has grown is closed, or nothing fits. -/
def Ended (c : Cfg J) (lines : List (Line J)) (others : Nat → Prop) (odd rev : Bool) (s : Chain J) (closed : Bool) (n : Nat) : Prop :=
  (closed = true → Closed c lines odd others n (turn rev s.pts)) ∧
  (closed = false → ∀ k x a, others k → s.pts.getLast? = some a → Fits c lines odd rev k x →
    c.maxDist < size (c.pt x) (c.pt a) ∨ Touches c (turn rev s.pts) x)

theorem extend_done {look : Pt → List End} {odd rev : Bool} (n : Nat) {s : Chain J} {r : Chain J × Bool}
    (h : extend c lines look odd rev n s = some r) : ∀ k ∈ s.done, k ∈ r.1.done := by
  induction n generalizing s with
  | zero => simp [extend] at h
  | succ n ih =>
    unfold extend at h
    split at h
    · split at h
      · simp only [Option.some.injEq] at h
        subst h
        exact fun k hk => hk
      · split at h
        · simp only [Option.some.injEq] at h
          subst h
          exact fun k hk => hk
        · intro k hk
          exact ih h k (by simp [append, hk])
    · simp at h

theorem extend_inv {look : Pt → List End} (hm : 0 < c.maxDist) (hl : Grid.Lookup (Grid.pointGrid c.maxDist (place c lines) (ends lines)) look)
    (hne : ∀ l ∈ lines, l.pts ≠ []) {others : Nat → Prop} {odd rev : Bool} {done₀ : List Nat} (n : Nat) {s : Chain J} {r : Chain J × Bool}
    {ps : List (Nat × Bool)} (hs : Inv c lines others odd rev done₀ s ps) (h : extend c lines look odd rev n s = some r)
    (hoth : ∀ k, others k → k ∉ r.1.done) :
    ∃ ps', Inv c lines others odd rev done₀ r.1 ps' ∧ Ended c lines others odd rev r.1 r.2 ps'.length ∧ s.pts.head? = r.1.pts.head? ∧
      (∀ x ∈ s.pts, x ∈ r.1.pts) := by
  induction n generalizing s ps with
  | zero => simp [extend] at h
  | succ n ih =>
    have hoth' : ∀ k, others k → k ∉ s.done := fun k hk hd => hoth k hk (extend_done _ h k hd)
    unfold extend at h
    split at h
    · rename_i front back hfront hback
      split at h
      · rename_i hb
        simp only [Option.some.injEq] at h
        subst h
        refine ⟨ps, hs, ⟨by simp, ?_⟩, rfl, fun x hx => hx⟩
        intro _ k x a hk ha hf
        rw [hback] at ha
        simp only [Option.some.injEq] at ha
        subst ha
        exact none_of_search hm hl hfront hoth' hb hk hf
      · rename_i e d hb
        split at h
        · rename_i hcl
          simp only [Option.some.injEq] at h
          subst h
          refine ⟨ps, hs, ⟨?_, by simp⟩, rfl, fun x hx => hx⟩
          intro _
          obtain ⟨h1, -⟩ := search_spec (odd := odd) (rev := rev) (front := front) (back := back) (s := s) hm hl rfl
          obtain ⟨he, ha, hd, hc⟩ := h1.some e d hb
          have hn := hc.mp hcl
          obtain ⟨h3, h4⟩ := ha.2.1 hn
          have hB := best_of_search hm hl hfront hoth' hb
          obtain ⟨l, b, new, hk, hpts, hpl, hends⟩ := end_pts (c := c) he hne
          have hsc : d = size (c.pt b) (c.pt back) + if odd = true ∧ ps.length = 1 then -10 else 10 := by
            rw [hd]
            unfold score
            rw [if_pos hn, hpl]
            dsimp only
            rw [hs.close]
            simp only [decide_eq_true_eq]
          rw [hsc] at hB
          have hlen : length c (turn rev s.pts) = s.length := by
            rw [hs.len]; unfold turn; split
            · exact length_reverse _
            · rfl
          refine ⟨rev, back, front, b, ?_, ⟨e.1, l, hk, hends⟩, ?_, ?_, ?_, ?_, hB⟩
          · cases rev with
            | false => left; exact ⟨rfl, hback, hfront⟩
            | true => right; exact ⟨rfl, by simpa [turn] using hback, by simpa [turn] using hfront⟩
          · have := ha.1; rw [hpl] at this; exact this
          · have := hn; unfold Near at this; rw [hpl] at this; exact this
          · have : (turn rev s.pts).length = s.pts.length := by unfold turn; split <;> simp
            rw [this]; exact h4
          · rw [hlen]; rw [hpl] at h3; exact h3
        · rename_i hcl
          obtain ⟨-, p, hp⟩ := step_inv hm hl hne hs hfront hback hb (by simpa using hcl) hoth'
          obtain ⟨ps', i1, i2, i3, i4⟩ := ih hp h
          refine ⟨ps', i1, i2, ?_, ?_⟩
          · rw [← i3]
            unfold append
            dsimp only
            rw [List.head?_append, hfront]
            rfl
          · intro x hx
            exact i4 x (by simp [append, hx])
    · simp at h

theorem extend_some {look : Pt → List End} (hm : 0 < c.maxDist) (hl : Grid.Lookup (Grid.pointGrid c.maxDist (place c lines) (ends lines)) look)
    (hne : ∀ l ∈ lines, l.pts ≠ []) {odd rev : Bool} {done₀ : List Nat} (n : Nat) {s : Chain J}
    {ps : List (Nat × Bool)} (hs : Inv c lines (fun _ => False) odd rev done₀ s ps) (hn : lines.length < n + s.done.length) :
    (extend c lines look odd rev n s).isSome = true := by
  induction n generalizing s ps with
  | zero =>
    have := nodup_length hs.nodup hs.lt
    omega
  | succ n ih =>
    have hh : ∃ front, s.pts.head? = some front := by
      cases hp : s.pts with
      | nil => exact absurd hp hs.ne
      | cons a t => exact ⟨a, rfl⟩
    obtain ⟨front, hfront⟩ := hh
    have hg : ∃ back, s.pts.getLast? = some back := ⟨_, List.getLast?_eq_some_getLast hs.ne⟩
    obtain ⟨back, hback⟩ := hg
    unfold extend
    rw [hfront, hback]
    dsimp only
    cases hb : (search c lines look odd rev front back s).best with
    | none => rfl
    | some b =>
      obtain ⟨e, d⟩ := b
      dsimp only
      split
      · rfl
      · rename_i hcl
        obtain ⟨-, p, hp⟩ := step_inv hm hl hne hs hfront hback hb (by simpa using hcl) (by simp)
        apply ih hp
        simp only [append, List.length_cons]
        omega

end Verif.Polylines
