import Verif.View.Model
import Mathlib.Data.Rat.Floor
import Mathlib.Tactic.Ring
import Mathlib.Tactic.Linarith
import Mathlib.Tactic.FieldSimp
import Mathlib.Tactic.Positivity
import Mathlib.Tactic.SplitIfs

/-! # Lemmas on progress -/

namespace Verif.View

open Spec

theorem floor_le' (q : Rat) : (q.floor : Rat) ≤ q := Int.floor_le q

theorem lt_floor' (q : Rat) : q < (q.floor : Rat) + 1 := Int.lt_floor_add_one q

theorem clamp_bounds (p : Rat) : 0 ≤ clamp p ∧ clamp p ≤ 1 := by
  rw [clamp]
  split_ifs <;> constructor <;> linarith

theorem clamp_mono {p q : Rat} (h : p ≤ q) : clamp p ≤ clamp q := by
  rw [clamp, clamp]
  split_ifs <;> linarith

theorem total_ge {t : List Rat} (ht : ∀ x ∈ t, 0 ≤ x) (acc : Rat) : acc ≤ total t acc := by
  induction t generalizing acc with
  | nil => simp [total]
  | cons x t ih =>
    rw [total]
    have h1 := ih (fun y hy => ht y (List.mem_cons_of_mem _ hy)) (acc + x)
    have h2 := ht x List.mem_cons_self
    linarith

/-- The end of a stage is not after the end of all. -/
theorem stage_total {t : List Rat} (ht : ∀ x ∈ t, 0 ≤ x) (acc : Rat) (i : Nat) {a d : Rat} (h1 : (accumulated t acc)[i]? = some a) (h2 : t[i]? = some d) :
    acc ≤ a ∧ 0 ≤ d ∧ a + d ≤ total t acc := by
  induction t generalizing acc i with
  | nil => simp at h2
  | cons x t ih =>
    have hx := ht x List.mem_cons_self
    have ht' := fun y hy => ht y (List.mem_cons_of_mem _ hy)
    rw [total]
    cases i with
    | zero =>
      simp only [accumulated, List.getElem?_cons_zero, Option.some.injEq] at h1 h2
      subst h1 h2
      exact ⟨le_refl _, hx, total_ge ht' _⟩
    | succ i =>
      simp only [accumulated, List.getElem?_cons_succ] at h1 h2
      obtain ⟨g1, g2, g3⟩ := ih ht' _ i h1 h2
      exact ⟨by linarith, g2, g3⟩

/-- A stage begins where the one before ends, or later. -/
theorem stage_order {t : List Rat} (ht : ∀ x ∈ t, 0 ≤ x) (acc : Rat) (i j : Nat) (hij : i < j) {a d b : Rat} (h1 : (accumulated t acc)[i]? = some a)
    (h2 : t[i]? = some d) (h3 : (accumulated t acc)[j]? = some b) : a + d ≤ b := by
  induction t generalizing acc i j with
  | nil => simp at h2
  | cons x t ih =>
    have ht' := fun y hy => ht y (List.mem_cons_of_mem _ hy)
    cases j with
    | zero => omega
    | succ j =>
      simp only [accumulated, List.getElem?_cons_succ] at h3
      cases i with
      | zero =>
        simp only [accumulated, List.getElem?_cons_zero, Option.some.injEq] at h1 h2
        subst h1 h2
        have hlen : ∀ (t : List Rat) (c : Rat), (accumulated t c).length = t.length := by
          intro t
          induction t with
          | nil => intro c; rfl
          | cons y t ih => intro c; simp [accumulated, ih]
        have hj : j < t.length := by
          have := (List.getElem?_eq_some_iff.1 h3).1
          rwa [hlen] at this
        exact (stage_total ht' _ j h3 (List.getElem?_eq_getElem hj)).1
      | succ i =>
        simp only [accumulated, List.getElem?_cons_succ] at h1 h2
        exact ih ht' _ i j (by omega) h1 h2 h3

/-- What holds after some progress `p` of object `k` of `n` was told. -/
structure Told (n k : Nat) (p : Rat) (b : Bar) : Prop where
  objects : b.objects = n
  sliced : b.sliced = k
  sorted : b.sent.Pairwise (· ≤ ·)
  range : ∀ a ∈ b.sent, 0 ≤ a ∧ a ≤ (k + p) / n
  last : ∃ q, 0 ≤ q ∧ q ≤ p ∧ b.sent.getLast? = some ((k + q) / n) ∧ b.lastSent = (1000 * q).floor ∧ b.lastSent = (1000 * p).floor

/-- What holds before an object. -/
structure Before (n k : Nat) (b : Bar) : Prop where
  objects : b.objects = n
  sliced : b.sliced = k
  sorted : b.sent.Pairwise (· ≤ ·)
  range : ∀ a ∈ b.sent, 0 ≤ a ∧ a ≤ k / n
  last : b.lastSent = -1 ∨ b.lastSent = 1000

theorem amount (n k : Nat) (hn : 0 < n) (p : Rat) : p / n + k * (1 / n) = (k + p) / (n : Rat) := by
  have : (n : Rat) ≠ 0 := by exact_mod_cast hn.ne'
  field_simp
  ring

theorem Before.tell {n k : Nat} {b : Bar} (hn : 0 < n) (h : Before n k b) {p : Rat} (h0 : 0 ≤ p) (h1 : p < 1) : Told n k p (sendProgress b p) := by
  have f1 := floor_le' (1000 * p)
  have f2 := lt_floor' (1000 * p)
  have hne : b.lastSent ≠ (1000 * p).floor := by
    rcases h.last with e | e <;> rw [e] <;> intro e'
    · rw [← e'] at f2
      norm_num at f2
      linarith
    · rw [← e'] at f1
      norm_num at f1
      linarith
  have hn' : (0 : Rat) < n := by exact_mod_cast hn
  have hk : (0 : Rat) ≤ k := by positivity
  rw [sendProgress]
  rw [if_neg hne, h.objects, h.sliced, amount n k hn]
  refine ⟨rfl, rfl, ?_, ?_, ⟨p, h0, le_refl _, by simp, rfl, rfl⟩⟩
  · rw [List.pairwise_append]
    refine ⟨h.sorted, by simp, ?_⟩
    intro a ha c hc
    rw [List.mem_singleton] at hc
    subst hc
    refine (h.range a ha).2.trans ?_
    gcongr
    linarith
  · intro a ha
    rcases List.mem_append.1 ha with ha | ha
    · refine ⟨(h.range a ha).1, (h.range a ha).2.trans ?_⟩
      gcongr
      linarith
    · rw [List.mem_singleton] at ha
      subst ha
      exact ⟨by positivity, le_refl _⟩

theorem Told.tell {n k : Nat} {b : Bar} (hn : 0 < n) {p p' : Rat} (h : Told n k p b) (h0 : p ≤ p') (hp : 0 ≤ p) : Told n k p' (sendProgress b p') := by
  have hn' : (0 : Rat) < n := by exact_mod_cast hn
  have hk : (0 : Rat) ≤ k := by positivity
  have hle : ((k : Rat) + p) / n ≤ (k + p') / n := by gcongr
  obtain ⟨q, q1, q2, q3, q4, q5⟩ := h.last
  rw [sendProgress]
  split
  · rename_i e
    exact ⟨h.objects, h.sliced, h.sorted, fun a ha => ⟨(h.range a ha).1, (h.range a ha).2.trans hle⟩, ⟨q, q1, q2.trans h0, q3, q4, e⟩⟩
  · rw [h.objects, h.sliced, amount n k hn]
    refine ⟨rfl, rfl, ?_, ?_, ⟨p', hp.trans h0, le_refl _, by simp, rfl, rfl⟩⟩
    · rw [List.pairwise_append]
      refine ⟨h.sorted, by simp, ?_⟩
      intro a ha c hc
      rw [List.mem_singleton] at hc
      subst hc
      exact (h.range a ha).2.trans hle
    · intro a ha
      rcases List.mem_append.1 ha with ha | ha
      · exact ⟨(h.range a ha).1, (h.range a ha).2.trans hle⟩
      · rw [List.mem_singleton] at ha
        subst ha
        have := hp.trans h0
        exact ⟨by positivity, le_refl _⟩

theorem Told.all {n k : Nat} (hn : 0 < n) (ps : List Rat) {p : Rat} {b : Bar} (h : Told n k p b) (hp : 0 ≤ p) (hs : (p :: ps).Pairwise (· ≤ ·)) :
    Told n k ((p :: ps).getLast (by simp)) (ps.foldl sendProgress b) := by
  induction ps generalizing p b with
  | nil => exact h
  | cons q ps ih =>
    have h1 : p ≤ q := (List.pairwise_cons.1 hs).1 q List.mem_cons_self
    simpa using ih (h.tell hn h1 hp) (hp.trans h1) (List.pairwise_cons.1 hs).2

theorem Before.object {n k : Nat} {b : Bar} (hn : 0 < n) (h : Before n k b) {ps : List Rat} (hr : Rises ps) :
    ∃ hne : ps ≠ [], Told n k (ps.getLast hne) (ps.foldl sendProgress b) := by
  obtain ⟨⟨p, r, e, h0, h1⟩, hs⟩ := hr
  subst e
  exact ⟨by simp, (h.tell hn h0 h1).all hn r h0 hs⟩

theorem Told.done {n k : Nat} {b : Bar} (h : Told n k 1 b) : b.sent.getLast? = some (((k : Rat) + 1) / n) ∧ b.lastSent = 1000 := by
  obtain ⟨q, q1, q2, q3, q4, q5⟩ := h.last
  have e : (1000 * (1 : Rat)).floor = 1000 := by decide +kernel
  rw [e] at q5
  have : (1 : Rat) ≤ q := by
    have := floor_le' (1000 * q)
    rw [← q4, q5] at this
    norm_num at this
    linarith
  have : q = 1 := le_antisymm q2 this
  subst this
  exact ⟨q3, q5⟩

theorem Before.next {n k : Nat} {b : Bar} (h : Before n k b) (hk : k + 1 < n) {ps : List Rat} (hr : Rises ps) (hl : ps.getLast? = some 1) :
    Before n (k + 1) (barObject b ps) := by
  have hn : 0 < n := by omega
  obtain ⟨hne, t⟩ := h.object hn hr
  have e : ps.getLast hne = 1 := by
    rw [List.getLast?_eq_getLast_of_ne_nil hne] at hl
    exact Option.some.inj hl
  rw [e] at t
  rw [barObject]
  simp only [t.objects, t.sliced, hk, if_true]
  exact ⟨rfl, rfl, t.sorted, fun a ha => by
    have := t.range a ha
    push_cast
    exact this, Or.inr t.done.2⟩

theorem Before.objects' {n : Nat} (os : List (List Rat)) {k : Nat} {b : Bar} (h : Before n k b) (hk : k + os.length < n)
    (ho : ∀ ps ∈ os, Rises ps ∧ ps.getLast? = some 1) : Before n (k + os.length) (os.foldl barObject b) := by
  induction os generalizing k b with
  | nil => exact h
  | cons o os ih =>
    obtain ⟨h1, h2⟩ := ho o List.mem_cons_self
    simp only [List.length_cons] at hk
    have := ih (h.next (by omega) h1 h2) (by omega) fun ps hp => ho ps (List.mem_cons_of_mem _ hp)
    have e : k + 1 + os.length = k + (o :: os).length := by simp only [List.length_cons]; omega
    rw [e] at this
    exact this

theorem before_start (n : Nat) : Before n 0 { objects := n } := ⟨rfl, rfl, List.Pairwise.nil, fun a ha => by simp at ha, Or.inl rfl⟩

end Verif.View
