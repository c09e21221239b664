import Verif.Time.Model
import Mathlib.Tactic.Linarith
import Mathlib.Tactic.Positivity
import Mathlib.Tactic.FieldSimp
import Mathlib.Tactic.Ring

/-! # Lemmas on the time estimate -/

namespace Verif.Time

theorem minSpeed_pos : 0 < minSpeed := by unfold minSpeed; norm_num

theorem maxAllowable_nonneg (a v d : ℝ) : 0 ≤ maxAllowable a v d := Real.sqrt_nonneg _

theorem maxAllowable_sq {a v d : ℝ} (ha : 0 ≤ a) (hd : 0 ≤ d) : maxAllowable (-a) v d ^ 2 = v ^ 2 + 2 * a * d := by
  unfold maxAllowable
  rw [Real.sq_sqrt]
  · ring
  · have := mul_nonneg ha hd
    nlinarith [mul_self_nonneg v]

theorem sq_le_sq_of_nonneg {x y : ℝ} (hx : 0 ≤ x) (h : x ≤ y) : x ^ 2 ≤ y ^ 2 := by nlinarith

theorem le_of_sq_le {x y : ℝ} (hy : 0 ≤ y) (h : x ^ 2 ≤ y ^ 2) : x ≤ y := by
  by_contra hc
  have := not_le.1 hc
  nlinarith

theorem le_maxAllowable {a v d : ℝ} (ha : 0 ≤ a) (hd : 0 ≤ d) : v ≤ maxAllowable (-a) v d := by
  apply le_of_sq_le (maxAllowable_nonneg _ _ _)
  rw [maxAllowable_sq ha hd]
  have := mul_nonneg ha hd
  nlinarith

/-- What `plan` guarantees for a block and what the passes do not change. -/
structure Static (b : Block) : Prop where
  d : 0 < b.distance
  a : 0 < b.acc
  slow : minSpeed ≤ b.nominal
  m0 : 0 ≤ b.maxEntry
  m : b.maxEntry ≤ b.nominal
  flag : b.nominalLength ↔ b.nominal ≤ maxAllowable (-b.acc) minSpeed b.distance
  redo : b.recalculate = true

/-- The parts of a block that the passes do not change. -/
structure Same (b b' : Block) : Prop where
  feature : b'.feature = b.feature
  distance : b'.distance = b.distance
  nominal : b'.nominal = b.nominal
  acc : b'.acc = b.acc
  maxEntry : b'.maxEntry = b.maxEntry
  nominalLength : b'.nominalLength = b.nominalLength
  redo : b.recalculate = true → b'.recalculate = true

theorem Same.refl (b : Block) : Same b b := ⟨rfl, rfl, rfl, rfl, rfl, rfl, id⟩

theorem Same.trans {b c d : Block} (h : Same b c) (h' : Same c d) : Same b d :=
  ⟨h'.1.trans h.1, h'.2.trans h.2, h'.3.trans h.3, h'.4.trans h.4, h'.5.trans h.5, h'.6.trans h.6, h'.7 ∘ h.7⟩

theorem Same.static {b b' : Block} (h : Same b b') (s : Static b) : Static b' := by
  obtain ⟨_, h2, h3, h4, h5, h6, h7⟩ := h
  constructor
  · rw [h2]; exact s.d
  · rw [h4]; exact s.a
  · rw [h3]; exact s.slow
  · rw [h5]; exact s.m0
  · rw [h5, h3]; exact s.m
  · rw [h2, h3, h4, h6]; exact s.flag
  · exact h7 s.redo

/-- The speed at which the rest of the plan is entered. -/
noncomputable def exit : List Block → ℝ
  | [] => minSpeed
  | b :: _ => b.entry

/-- A relation between every block and the speed at its end. -/
def Chained (P : Block → ℝ → Prop) : List Block → Prop
  | [] => True
  | b :: rest => P b (exit rest) ∧ Chained P rest

theorem chained_iff {P : Block → ℝ → Prop} : ∀ l, Chained P l ↔
    ∀ pre b post, l = pre ++ b :: post → P b (exit post)
  | [] => by simp [Chained]
  | b :: rest => by
    unfold Chained
    rw [chained_iff rest]
    constructor
    · rintro ⟨h1, h2⟩ pre c post h
      cases pre with
      | nil => rw [List.nil_append, List.cons.injEq] at h; obtain ⟨rfl, rfl⟩ := h; exact h1
      | cons p pre => rw [List.cons_append, List.cons.injEq] at h; exact h2 pre c post h.2
    · intro h
      exact ⟨h [] b rest rfl, fun pre c post e => h (b :: pre) c post (by rw [e]; rfl)⟩

/-- A block can be entered no faster than the block before it runs. -/
def Steps : List Block → Prop
  | [] => True
  | [_] => True
  | b :: n :: rest => n.maxEntry ≤ b.nominal ∧ Steps (n :: rest)

theorem Steps.tail {b : Block} : ∀ {l : List Block}, Steps (b :: l) → Steps l
  | [], _ => trivial
  | _ :: _, h => h.2

theorem Steps.same : ∀ {l l' : List Block}, List.Forall₂ Same l l' → Steps l → Steps l'
  | [], _, .nil, _ => trivial
  | [_], _, .cons _ .nil, _ => trivial
  | _ :: _ :: _, _, .cons h1 (.cons h2 ht), h => by
    refine ⟨?_, Steps.same (.cons h2 ht) h.2⟩
    rw [h2.maxEntry, h1.nominal]; exact h.1

theorem static_same : ∀ {l l' : List Block}, List.Forall₂ Same l l' → (∀ b ∈ l, Static b) → ∀ b ∈ l', Static b
  | _, _, .nil, _ => by simp
  | _, _, .cons h1 ht, h => by
    intro b hb
    rcases List.mem_cons.1 hb with rfl | hb
    · exact h1.static (h _ (by simp))
    · exact static_same ht (fun x hx => h x (by simp [hx])) b hb

theorem same_trans : ∀ {l l' l'' : List Block}, List.Forall₂ Same l l' → List.Forall₂ Same l' l'' →
    List.Forall₂ Same l l''
  | _, _, _, .nil, .nil => .nil
  | _, _, _, .cons h t, .cons h' t' => .cons (h.trans h') (same_trans t t')

theorem same_refl : ∀ l : List Block, List.Forall₂ Same l l
  | [] => .nil
  | b :: l => .cons (.refl b) (same_refl l)

/-- The block can slow down to the speed after it, or to the least speed of the planner. -/
def CanBrake (b : Block) (v : ℝ) : Prop := b.entry ^ 2 ≤ max v minSpeed ^ 2 + 2 * b.acc * b.distance

/-- The block can speed up to the speed after it, from the speed before or the least speed of the planner. -/
def CanSpeedUp (b : Block) (v : ℝ) : Prop := v ^ 2 ≤ max b.entry minSpeed ^ 2 + 2 * b.acc * b.distance

/-- Entry speeds within the limits of the junction. -/
def InLimits (b : Block) : Prop := 0 ≤ b.entry ∧ b.entry ≤ b.maxEntry

/-- The block is as `plan` made it. -/
def Fresh (b : Block) : Prop := b.entry = min b.maxEntry (maxAllowable (-b.acc) minSpeed b.distance)

theorem Fresh.inLimits {b : Block} (s : Static b) (h : Fresh b) : InLimits b := by
  unfold InLimits
  rw [h]
  refine ⟨le_min s.m0 (maxAllowable_nonneg _ _ _), min_le_left _ _⟩

theorem Fresh.fast {b : Block} (s : Static b) (h : Fresh b) (hm : minSpeed ≤ b.maxEntry) : minSpeed ≤ b.entry := by
  rw [h]; exact le_min hm (le_maxAllowable s.a.le s.d.le)

theorem sq_max_ge {v : ℝ} : minSpeed ^ 2 ≤ max v minSpeed ^ 2 :=
  sq_le_sq_of_nonneg minSpeed_pos.le (le_max_right _ _)

theorem canBrake_of_le {b : Block} (s : Static b) (h0 : 0 ≤ b.entry)
    (h : b.entry ≤ maxAllowable (-b.acc) minSpeed b.distance) (v : ℝ) : CanBrake b v := by
  unfold CanBrake
  have h1 := sq_le_sq_of_nonneg h0 h
  rw [maxAllowable_sq s.a.le s.d.le] at h1
  have := @sq_max_ge v
  linarith

theorem reverseKernel_spec {b n : Block} (s : Static b) (f : Fresh b) (hn : InLimits n) :
    Same b (reverseKernel b n) ∧ InLimits (reverseKernel b n) ∧ CanBrake (reverseKernel b n) n.entry ∧
    (minSpeed ≤ n.entry → minSpeed ≤ b.maxEntry → minSpeed ≤ (reverseKernel b n).entry) := by
  have hl := f.inLimits s
  have had : 0 ≤ 2 * b.acc * b.distance := by have := mul_pos s.a s.d; linarith
  unfold reverseKernel
  by_cases h1 : b.entry ≠ b.maxEntry
  · rw [if_pos h1]
    have hA : maxAllowable (-b.acc) minSpeed b.distance < b.maxEntry := by
      by_contra hc
      exact h1 (f.trans (min_eq_left (not_lt.1 hc)))
    have hflag : ¬ b.nominalLength := by
      rw [s.flag]
      have := s.m
      intro h; linarith
    by_cases h2 : b.maxEntry > n.entry
    · rw [if_pos ⟨hflag, h2⟩]
      refine ⟨⟨rfl, rfl, rfl, rfl, rfl, rfl, fun _ => rfl⟩, ⟨le_min s.m0 (maxAllowable_nonneg _ _ _), min_le_left _ _⟩, ?_, ?_⟩
      · unfold CanBrake
        dsimp only
        have h3 := sq_le_sq_of_nonneg (le_min s.m0 (maxAllowable_nonneg _ _ _))
          (min_le_right b.maxEntry (maxAllowable (-b.acc) n.entry b.distance))
        rw [maxAllowable_sq s.a.le s.d.le] at h3
        have := sq_le_sq_of_nonneg hn.1 (le_max_left n.entry minSpeed)
        linarith
      · intro he hm
        exact le_min hm (he.trans (le_maxAllowable s.a.le s.d.le))
    · rw [if_neg (by tauto)]
      refine ⟨⟨rfl, rfl, rfl, rfl, rfl, rfl, fun _ => rfl⟩, ⟨s.m0, le_refl _⟩, ?_, fun _ h => h⟩
      unfold CanBrake
      dsimp only
      have := sq_le_sq_of_nonneg s.m0 (le_trans (not_lt.1 h2) (le_max_left n.entry minSpeed))
      linarith
  · rw [if_neg h1]
    refine ⟨.refl b, hl, canBrake_of_le s hl.1 ?_ _, fun _ h => f.fast s h⟩
    rw [f]; exact min_le_right _ _

theorem reverseFrom_spec : ∀ {l : List Block}, (∀ b ∈ l, Static b ∧ Fresh b) →
    List.Forall₂ Same l (reverseFrom l) ∧ (∀ b ∈ reverseFrom l, InLimits b) ∧ Chained CanBrake (reverseFrom l) ∧
    ((∀ b ∈ l, minSpeed ≤ b.maxEntry) → ∀ b ∈ reverseFrom l, minSpeed ≤ b.entry)
  | [], _ => by simp [reverseFrom, Chained]
  | b :: rest, h => by
    obtain ⟨s, f⟩ := h b (by simp)
    obtain ⟨h1, h2, h3, h4⟩ := reverseFrom_spec fun x hx => h x (List.mem_cons_of_mem b hx)
    unfold reverseFrom
    generalize reverseFrom rest = r at *
    cases h1 with
    | nil =>
      have hl := f.inLimits s
      refine ⟨.cons (.refl b) .nil, by simpa using hl, ⟨?_, trivial⟩, ?_⟩
      · refine canBrake_of_le s hl.1 ?_ _
        rw [f]; exact min_le_right _ _
      · intro hm x hx
        rw [List.mem_singleton.1 hx]
        exact f.fast s (hm b (by simp))
    | @cons n n' later later' h5 h6 =>
      obtain ⟨k1, k2, k3, k4⟩ := reverseKernel_spec s f (h2 n' (by simp))
      refine ⟨.cons k1 (.cons h5 h6), ?_, ⟨k3, h3⟩, ?_⟩
      · intro x hx
        rcases List.mem_cons.1 hx with rfl | hx
        · exact k2
        · exact h2 x hx
      · intro hm x hx
        have := h4 fun y hy => hm y (List.mem_cons_of_mem b hy)
        rcases List.mem_cons.1 hx with rfl | hx
        · exact k4 (this n' (by simp)) (hm b (by simp))
        · exact this x hx

theorem reversePass_spec {l : List Block} (h : ∀ b ∈ l, Static b ∧ Fresh b) :
    List.Forall₂ Same l (reversePass l) ∧ (∀ b ∈ reversePass l, InLimits b) ∧ Chained CanBrake (reversePass l) ∧
    ((∀ b ∈ l, minSpeed ≤ b.maxEntry) → ∀ b ∈ reversePass l, minSpeed ≤ b.entry) := by
  cases l with
  | nil => simp [reversePass, Chained]
  | cons b rest =>
    obtain ⟨s, f⟩ := h b (by simp)
    have hl := f.inLimits s
    obtain ⟨h1, h2, h3, h4⟩ := reverseFrom_spec fun x hx => h x (List.mem_cons_of_mem b hx)
    unfold reversePass
    refine ⟨.cons (.refl b) h1, ?_, ⟨?_, h3⟩, ?_⟩
    · intro x hx
      rcases List.mem_cons.1 hx with rfl | hx
      · exact hl
      · exact h2 x hx
    · refine canBrake_of_le s hl.1 ?_ _
      rw [f]; exact min_le_right _ _
    · intro hm x hx
      rcases List.mem_cons.1 hx with rfl | hx
      · exact f.fast s (hm _ (by simp))
      · exact h4 (fun y hy => hm y (List.mem_cons_of_mem b hy)) x hx

theorem forwardKernel_spec {p b : Block} (sp : Static p) (hp : InLimits p) (hb : InLimits b)
    (hm : b.maxEntry ≤ p.nominal) (hbr : CanBrake p b.entry) :
    Same b (forwardKernel p b) ∧ InLimits (forwardKernel p b) ∧ (forwardKernel p b).entry ≤ b.entry ∧
    CanBrake p (forwardKernel p b).entry ∧ CanSpeedUp p (forwardKernel p b).entry ∧
    (minSpeed ≤ p.entry → minSpeed ≤ b.entry → minSpeed ≤ (forwardKernel p b).entry) := by
  have had : 0 ≤ 2 * p.acc * p.distance := by have := mul_pos sp.a sp.d; linarith
  have hsq : max p.entry minSpeed ^ 2 ≥ p.entry ^ 2 := sq_le_sq_of_nonneg hp.1 (le_max_left _ _)
  unfold forwardKernel
  by_cases h1 : ¬ p.nominalLength ∧ p.entry < b.entry
  · rw [if_pos h1]
    dsimp only
    have hmin := min_le_right b.entry (maxAllowable (-p.acc) p.entry p.distance)
    have h0 : 0 ≤ min b.entry (maxAllowable (-p.acc) p.entry p.distance) := le_min hb.1 (maxAllowable_nonneg _ _ _)
    have hup : CanSpeedUp p (min b.entry (maxAllowable (-p.acc) p.entry p.distance)) := by
      have := sq_le_sq_of_nonneg h0 hmin
      rw [maxAllowable_sq sp.a.le sp.d.le] at this
      unfold CanSpeedUp
      linarith
    have hpe : p.entry ≤ min b.entry (maxAllowable (-p.acc) p.entry p.distance) :=
      le_min h1.2.le (le_maxAllowable sp.a.le sp.d.le)
    by_cases h2 : b.entry ≠ min b.entry (maxAllowable (-p.acc) p.entry p.distance)
    · rw [if_pos h2]
      refine ⟨⟨rfl, rfl, rfl, rfl, rfl, rfl, fun _ => rfl⟩, ⟨h0, (min_le_left _ _).trans hb.2⟩, min_le_left _ _, ?_, hup,
        fun h h' => le_min h' (h.trans (le_maxAllowable sp.a.le sp.d.le))⟩
      unfold CanBrake
      dsimp only
      have := sq_le_sq_of_nonneg hp.1 (hpe.trans (le_max_left _ minSpeed))
      linarith
    · rw [if_neg h2]
      rw [← not_not.1 h2] at hup
      exact ⟨.refl b, hb, le_refl _, hbr, hup, fun _ h => h⟩
  · rw [if_neg h1]
    refine ⟨.refl b, hb, le_refl _, hbr, ?_, fun _ h => h⟩
    unfold CanSpeedUp
    by_cases h2 : p.nominalLength
    · rw [sp.flag] at h2
      have h3 := sq_le_sq_of_nonneg hb.1 ((hb.2.trans hm).trans h2)
      rw [maxAllowable_sq sp.a.le sp.d.le] at h3
      have := @sq_max_ge p.entry
      linarith
    · have h3 : b.entry ≤ p.entry := by
        by_contra hc; exact h1 ⟨h2, not_le.1 hc⟩
      have := sq_le_sq_of_nonneg hb.1 h3
      linarith

theorem CanBrake.mono {b b' : Block} {v : ℝ} (h : Same b b') (h0 : 0 ≤ b'.entry) (he : b'.entry ≤ b.entry)
    (hc : CanBrake b v) : CanBrake b' v := by
  unfold CanBrake at *
  rw [h.acc, h.distance]
  have := sq_le_sq_of_nonneg h0 he
  linarith

theorem forwardFrom_spec : ∀ {p : Block} {l : List Block}, (∀ b ∈ p :: l, Static b ∧ InLimits b) → Steps (p :: l) →
    Chained CanBrake (p :: l) →
    List.Forall₂ Same l (forwardFrom p l) ∧ (∀ b ∈ forwardFrom p l, InLimits b) ∧
    Chained CanBrake (p :: forwardFrom p l) ∧ Chained CanSpeedUp (p :: forwardFrom p l) ∧
    ((∀ b ∈ p :: l, minSpeed ≤ b.entry) → ∀ b ∈ forwardFrom p l, minSpeed ≤ b.entry)
  | p, [], h, _, hc => by
    have s := (h p (by simp)).1
    refine ⟨.nil, by simp [forwardFrom], hc, ⟨?_, trivial⟩, by simp [forwardFrom]⟩
    show minSpeed ^ 2 ≤ _
    have := @sq_max_ge p.entry
    have := mul_pos s.a s.d
    linarith
  | p, b :: rest, h, hs, hc => by
    obtain ⟨sp, lp⟩ := h p (by simp)
    obtain ⟨sb, lb⟩ := h b (by simp)
    obtain ⟨k1, k2, k3, k4, k5, k6⟩ := forwardKernel_spec sp lp lb hs.1 hc.1
    unfold forwardFrom
    have hsame : List.Forall₂ Same (b :: rest) (forwardKernel p b :: rest) := .cons k1 (same_refl rest)
    obtain ⟨i1, i2, i3, i4, i5⟩ := forwardFrom_spec (p := forwardKernel p b) (l := rest)
      (by
        intro x hx
        rcases List.mem_cons.1 hx with rfl | hx
        · exact ⟨k1.static sb, k2⟩
        · exact h x (by simp [hx]))
      (Steps.same hsame hs.2) ⟨hc.2.1.mono k1 k2.1 k3, hc.2.2⟩
    refine ⟨.cons k1 i1, ?_, ⟨k4, i3⟩, ⟨k5, i4⟩, ?_⟩
    · intro x hx
      rcases List.mem_cons.1 hx with rfl | hx
      · exact k2
      · exact i2 x hx
    · intro hm
      have hk := k6 (hm p (by simp)) (hm b (by simp))
      intro x hx
      rcases List.mem_cons.1 hx with rfl | hx
      · exact hk
      · refine i5 ?_ x hx
        intro y hy
        rcases List.mem_cons.1 hy with rfl | hy
        · exact hk
        · exact hm y (by simp [hy])

theorem passes_spec {l : List Block} (h : ∀ b ∈ l, Static b ∧ Fresh b) (hs : Steps l) :
    List.Forall₂ Same l (forwardPass (reversePass l)) ∧ (∀ b ∈ forwardPass (reversePass l), InLimits b) ∧
    Chained CanBrake (forwardPass (reversePass l)) ∧ Chained CanSpeedUp (forwardPass (reversePass l)) ∧
    ((∀ b ∈ l, minSpeed ≤ b.maxEntry) → ∀ b ∈ forwardPass (reversePass l), minSpeed ≤ b.entry) := by
  obtain ⟨h1, h2, h3, h4⟩ := reversePass_spec h
  have h5 := static_same h1 fun b hb => (h b hb).1
  have h6 := Steps.same h1 hs
  generalize reversePass l = r at *
  cases r with
  | nil =>
    refine ⟨h1, by simp [forwardPass], trivial, trivial, by simp [forwardPass]⟩
  | cons p rest =>
    obtain ⟨i1, i2, i3, i4, i5⟩ := forwardFrom_spec (fun b hb => ⟨h5 b hb, h2 b hb⟩) h6 h3
    unfold forwardPass
    refine ⟨same_trans h1 (.cons (.refl p) i1), ?_, i3, i4, ?_⟩
    · intro x hx
      rcases List.mem_cons.1 hx with rfl | hx
      · exact h2 _ (by simp)
      · exact i2 x hx
    · intro hm x hx
      rcases List.mem_cons.1 hx with rfl | hx
      · exact h4 hm _ (by simp)
      · exact i5 (h4 hm) x hx

/-- `recalculate` when every block is to be recalculated. -/
noncomputable def retrap : List Block → List Block
  | [] => []
  | b :: rest => { trapezoid b (b.entry / b.nominal) (exit rest / b.nominal) with recalculate := false } :: retrap rest

theorem recalculate_eq : ∀ {l : List Block}, (∀ b ∈ l, b.recalculate = true) → recalculate l = retrap l
  | [], _ => rfl
  | [_], _ => rfl
  | b :: n :: rest, h => by
    unfold recalculate
    rw [recalculate_eq fun x hx => h x (List.mem_cons_of_mem b hx), h b (by simp), Bool.true_or, if_pos rfl]
    rfl

theorem trapezoid_entry (b : Block) (x y : ℝ) : (trapezoid b x y).entry = b.entry := by
  unfold trapezoid; dsimp only; split_ifs <;> rfl

theorem exit_retrap (l : List Block) : exit (retrap l) = exit l := by
  cases l with
  | nil => rfl
  | cons b rest => exact trapezoid_entry _ _ _

end Verif.Time
