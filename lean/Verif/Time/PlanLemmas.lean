import Verif.Time.Lemmas

/-! # Lemmas on the blocks of the time estimate -/

namespace Verif.Time

/-- A run over a distance with constant acceleration from a speed to a top speed, then at the top speed, and then with
constant deceleration to a speed. Only if the distance allows it is the top speed reached; otherwise there is no part with
constant speed. -/
def Motion (start stop acc length top time : ℝ) : Prop :=
  ∃ t₁ t₂ t₃ peak : ℝ, 0 ≤ t₁ ∧ 0 ≤ t₂ ∧ 0 ≤ t₃ ∧ time = t₁ + t₂ + t₃ ∧
    start + acc * t₁ = peak ∧ peak - acc * t₃ = stop ∧ peak ≤ top ∧ (peak < top → t₂ = 0) ∧
    (start * t₁ + acc * t₁ ^ 2 / 2) + peak * t₂ + (peak * t₃ - acc * t₃ ^ 2 / 2) = length

theorem motion_length {i f a d t₁ t₂ t₃ p : ℝ} (h5 : i + a * t₁ = p) (h6 : p - a * t₃ = f)
    (h9 : (i * t₁ + a * t₁ ^ 2 / 2) + p * t₂ + (p * t₃ - a * t₃ ^ 2 / 2) = d) :
    2 * a * d = 2 * p ^ 2 - i ^ 2 - f ^ 2 + 2 * a * (p * t₂) := by
  subst h5
  have : f = i + a * t₁ - a * t₃ := h6.symm
  subst this
  subst h9
  ring

/-- There is only one such run. -/
theorem Motion.unique {i f a d n t t' : ℝ} (ha : 0 < a) (hi : 0 ≤ i) (hn : 0 < n)
    (h : Motion i f a d n t) (h' : Motion i f a d n t') : t = t' := by
  obtain ⟨t₁, t₂, t₃, p, h1, h2, h3, h4, h5, h6, h7, h8, h9⟩ := h
  obtain ⟨s₁, s₂, s₃, q, k1, k2, k3, k4, k5, k6, k7, k8, k9⟩ := h'
  have hl := motion_length h5 h6 h9
  have kl := motion_length k5 k6 k9
  have hp : 0 ≤ p := by rw [← h5]; have := mul_nonneg ha.le h1; linarith
  have kp : 0 ≤ q := by rw [← k5]; have := mul_nonneg ha.le k1; linarith
  have hpq : p = q := by
    rcases lt_or_eq_of_le h7 with h | h <;> rcases lt_or_eq_of_le k7 with k | k
    · rw [h8 h] at hl
      rw [k8 k] at kl
      have : p ^ 2 = q ^ 2 := by linarith
      exact le_antisymm (le_of_sq_le kp this.le) (le_of_sq_le hp this.ge)
    · rw [h8 h] at hl
      exfalso
      have : 0 ≤ a * (q * s₂) := mul_nonneg ha.le (mul_nonneg kp k2)
      nlinarith
    · rw [k8 k] at kl
      exfalso
      have : 0 ≤ a * (p * t₂) := mul_nonneg ha.le (mul_nonneg hp h2)
      nlinarith
    · rw [h, k]
  subst hpq
  have e1 : t₁ = s₁ := mul_left_cancel₀ ha.ne' (by linarith)
  have e3 : t₃ = s₃ := mul_left_cancel₀ ha.ne' (by linarith)
  have e2 : t₂ = s₂ := by
    rcases lt_or_eq_of_le h7 with h | h
    · rw [h8 h, k8 h]
    · have : p ≠ 0 := by rw [h]; exact hn.ne'
      have h10 : a * (p * t₂) = a * (p * s₂) := by linarith
      exact mul_left_cancel₀ this (mul_left_cancel₀ ha.ne' h10)
  rw [h4, k4, e1, e2, e3]

theorem accTime_spec {v x a : ℝ} (hx : 0 ≤ x) (ha : 0 < a) :
    0 ≤ accTime v x a ∧ v * accTime v x a + a * accTime v x a ^ 2 / 2 = x ∧
    (v + a * accTime v x a) ^ 2 = v ^ 2 + 2 * a * x := by
  have h0 : 0 ≤ v ^ 2 + 2 * a * x := by positivity
  have e : v ^ 2 - 2 * a * -x = v ^ 2 + 2 * a * x := by ring
  have hs : v ≤ Real.sqrt (v ^ 2 + 2 * a * x) := by
    apply Real.le_sqrt_of_sq_le
    have := mul_nonneg ha.le hx
    linarith
  have hsq := Real.sq_sqrt h0
  unfold accTime
  rw [e, max_eq_right h0]
  generalize Real.sqrt (v ^ 2 + 2 * a * x) = r at *
  have h1 : a * ((-v + r) / a) = -v + r := by field_simp
  refine ⟨div_nonneg (by linarith) ha.le, ?_, ?_⟩
  · have : a * (v * ((-v + r) / a) + a * ((-v + r) / a) ^ 2 / 2) = a * x := by
      calc a * (v * ((-v + r) / a) + a * ((-v + r) / a) ^ 2 / 2)
          = v * (a * ((-v + r) / a)) + (a * ((-v + r) / a)) ^ 2 / 2 := by ring
        _ = a * x := by rw [h1]; nlinarith
    exact mul_left_cancel₀ ha.ne' this
  · rw [h1]; nlinarith

/-- The facts on the trapezoid of a block. -/
theorem trapezoid_spec {b : Block} (hd : 0 < b.distance) (ha : 0 < b.acc) (hn : 0 < b.nominal) {i f : ℝ}
    (hi0 : 0 ≤ i) (hi : i ≤ b.nominal) (hf0 : 0 ≤ f) (hf : f ≤ b.nominal) :
    let t := trapezoid b (i / b.nominal) (f / b.nominal)
    t.initial = i ∧ t.final = f ∧ 0 ≤ t.accUntil ∧ t.accUntil ≤ t.decAfter ∧ t.decAfter ≤ b.distance ∧
    i ^ 2 + 2 * b.acc * t.accUntil ≤ b.nominal ^ 2 ∧
    f ^ 2 + 2 * b.acc * (b.distance - t.decAfter) ≤ b.nominal ^ 2 ∧
    (i ^ 2 ≤ f ^ 2 + 2 * b.acc * b.distance → f ^ 2 ≤ i ^ 2 + 2 * b.acc * b.distance →
      i ^ 2 + 2 * b.acc * t.accUntil = f ^ 2 + 2 * b.acc * (b.distance - t.decAfter) ∧
      (t.accUntil < t.decAfter → i ^ 2 + 2 * b.acc * t.accUntil = b.nominal ^ 2)) ∧
    (i ^ 2 + 2 * b.acc * t.accUntil < b.nominal ^ 2 → t.accUntil = t.decAfter) := by
  have e1 : b.nominal * (i / b.nominal) = i := by field_simp
  have e2 : b.nominal * (f / b.nominal) = f := by field_simp
  have hi2 := sq_le_sq_of_nonneg hi0 hi
  have hf2 := sq_le_sq_of_nonneg hf0 hf
  have ha' : b.acc ≠ 0 := ha.ne'
  have x1 : accDistance i b.nominal b.acc = (b.nominal ^ 2 - i ^ 2) / (2 * b.acc) := by
    unfold accDistance; rw [if_neg ha']
  have x2 : accDistance b.nominal f (-b.acc) = (b.nominal ^ 2 - f ^ 2) / (2 * b.acc) := by
    unfold accDistance; rw [if_neg (neg_ne_zero.2 ha')]; field_simp; ring
  have x3 : intersection i f b.acc b.distance = (2 * b.acc * b.distance - i ^ 2 + f ^ 2) / (4 * b.acc) := by
    unfold intersection; rw [if_neg ha']
  unfold trapezoid
  dsimp only
  rw [e1, e2, x1, x2, x3]
  have y1 : 2 * b.acc * ((b.nominal ^ 2 - i ^ 2) / (2 * b.acc)) = b.nominal ^ 2 - i ^ 2 := by field_simp
  have y2 : 2 * b.acc * ((b.nominal ^ 2 - f ^ 2) / (2 * b.acc)) = b.nominal ^ 2 - f ^ 2 := by field_simp
  have y3 : 4 * b.acc * ((2 * b.acc * b.distance - i ^ 2 + f ^ 2) / (4 * b.acc)) =
      2 * b.acc * b.distance - i ^ 2 + f ^ 2 := by field_simp
  have z1 : 0 ≤ (b.nominal ^ 2 - i ^ 2) / (2 * b.acc) := div_nonneg (by linarith) (by linarith)
  have z2 : 0 ≤ (b.nominal ^ 2 - f ^ 2) / (2 * b.acc) := div_nonneg (by linarith) (by linarith)
  generalize (b.nominal ^ 2 - i ^ 2) / (2 * b.acc) = X at *
  generalize (b.nominal ^ 2 - f ^ 2) / (2 * b.acc) = Y at *
  generalize (2 * b.acc * b.distance - i ^ 2 + f ^ 2) / (4 * b.acc) = Z at *
  by_cases h : b.distance - X - Y < 0
  · rw [if_pos h]
    dsimp only
    rw [add_zero]
    have hlt : 2 * b.acc * (b.distance - X - Y) < 0 := by nlinarith
    have hmid : 2 * b.acc * b.distance < 2 * b.nominal ^ 2 - i ^ 2 - f ^ 2 := by nlinarith
    have hc0 : 0 ≤ min (max Z 0) b.distance := le_min (le_max_right _ _) hd.le
    have hcd : min (max Z 0) b.distance ≤ b.distance := min_le_right _ _
    refine ⟨rfl, rfl, hc0, le_refl _, hcd, ?_, ?_, ?_, fun _ => rfl⟩
    · rcases le_total Z 0 with hZ | hZ
      · rw [max_eq_right hZ, min_eq_left hd.le]; linarith
      · rw [max_eq_left hZ]
        have : b.acc * min Z b.distance ≤ b.acc * Z := mul_le_mul_of_nonneg_left (min_le_left _ _) ha.le
        nlinarith
    · have hge : min Z b.distance ≤ min (max Z 0) b.distance := min_le_min_right _ (le_max_left _ _)
      rcases le_total Z b.distance with hZ | hZ
      · rw [min_eq_left hZ] at hge
        have : b.acc * Z ≤ b.acc * min (max Z 0) b.distance := mul_le_mul_of_nonneg_left hge ha.le
        nlinarith
      · rw [min_eq_right hZ] at hge
        have : min (max Z 0) b.distance = b.distance := le_antisymm hcd hge
        rw [this]; linarith
    · intro h1 h2
      have hZ0 : 0 ≤ Z := by
        by_contra hc
        have := mul_neg_of_pos_of_neg (show 0 < 4 * b.acc by linarith) (not_le.1 hc)
        linarith
      have hZd : Z ≤ b.distance := by
        by_contra hc
        have := mul_lt_mul_of_pos_left (not_le.1 hc) (show 0 < 4 * b.acc by linarith)
        linarith
      rw [max_eq_left hZ0, min_eq_left hZd]
      exact ⟨by linarith, fun h => absurd h (lt_irrefl _)⟩
  · rw [if_neg h]
    dsimp only
    have h' := not_lt.1 h
    refine ⟨rfl, rfl, z1, by linarith, by linarith, by linarith, ?_, ?_, ?_⟩
    · have : b.distance - (X + (b.distance - X - Y)) = Y := by ring
      rw [this]; linarith
    · intro _ _
      have : b.distance - (X + (b.distance - X - Y)) = Y := by ring
      rw [this]
      exact ⟨by linarith, fun _ => by linarith⟩
    · intro hlt; linarith

/-- The time of a block in the sums of `calculate`. -/
noncomputable def time (b : Block) : ℝ :=
  duration (phases b).1 + duration (phases b).2.1 + duration (phases b).2.2

theorem duration_nonneg (x : ℝ) : 0 ≤ duration x := by
  unfold duration; split_ifs with h
  · exact le_of_lt h
  · exact le_refl _

theorem duration_of_nonneg {x : ℝ} (h : 0 ≤ x) : duration x = x := by
  unfold duration; split_ifs with h'
  · rfl
  · exact le_antisymm h (not_lt.1 h')

/-- The parts of a block that planning does not change. -/
theorem trapezoid_same (b : Block) (x y : ℝ) :
    (trapezoid b x y).feature = b.feature ∧ (trapezoid b x y).distance = b.distance ∧
    (trapezoid b x y).nominal = b.nominal ∧ (trapezoid b x y).acc = b.acc ∧ (trapezoid b x y).maxEntry = b.maxEntry ∧
    (trapezoid b x y).entry = b.entry ∧ (trapezoid b x y).nominalLength = b.nominalLength ∧
    (trapezoid b x y).recalculate = b.recalculate := by
  unfold trapezoid; dsimp only; split_ifs <;> simp

/-- What holds for a block after planning, with the speed after it. -/
structure Planned (b : Block) (v : ℝ) : Prop where
  d : 0 < b.distance
  a : 0 < b.acc
  n : 0 < b.nominal
  entry0 : 0 ≤ b.entry
  entry : b.entry ≤ b.maxEntry
  m : b.maxEntry ≤ b.nominal
  v0 : 0 ≤ v
  vn : v ≤ b.nominal
  initial : b.initial = b.entry
  final : b.final = v
  acc0 : 0 ≤ b.accUntil
  mid : b.accUntil ≤ b.decAfter
  dec : b.decAfter ≤ b.distance
  peak₁ : b.initial ^ 2 + 2 * b.acc * b.accUntil ≤ b.nominal ^ 2
  peak₂ : b.final ^ 2 + 2 * b.acc * (b.distance - b.decAfter) ≤ b.nominal ^ 2
  brake : CanBrake b v
  speedUp : CanSpeedUp b v
  exact : b.initial ^ 2 ≤ b.final ^ 2 + 2 * b.acc * b.distance → b.final ^ 2 ≤ b.initial ^ 2 + 2 * b.acc * b.distance →
    b.initial ^ 2 + 2 * b.acc * b.accUntil = b.final ^ 2 + 2 * b.acc * (b.distance - b.decAfter)
  full : b.initial ^ 2 + 2 * b.acc * b.accUntil < b.nominal ^ 2 → b.accUntil = b.decAfter

theorem Planned.of_trapezoid {b : Block} {v : ℝ} (s : Static b) (l : InLimits b) (hv0 : 0 ≤ v) (hv : v ≤ b.nominal)
    (h1 : CanBrake b v) (h2 : CanSpeedUp b v) :
    Planned { trapezoid b (b.entry / b.nominal) (v / b.nominal) with recalculate := false } v := by
  have hn : 0 < b.nominal := lt_of_lt_of_le minSpeed_pos s.slow
  obtain ⟨e1, e2, e3, e4, e5, e6, e7, e8⟩ := trapezoid_same b (b.entry / b.nominal) (v / b.nominal)
  obtain ⟨t1, t2, t3, t4, t5, t6, t7, t8, t9⟩ := trapezoid_spec s.d s.a hn l.1 (l.2.trans s.m) hv0 hv
  generalize trapezoid b (b.entry / b.nominal) (v / b.nominal) = t at *
  constructor <;> try dsimp only
  · rw [e2]; exact s.d
  · rw [e4]; exact s.a
  · rw [e3]; exact hn
  · rw [e6]; exact l.1
  · rw [e5, e6]; exact l.2
  · rw [e5, e3]; exact s.m
  · exact hv0
  · rw [e3]; exact hv
  · rw [t1, e6]
  · exact t2
  · exact t3
  · exact t4
  · rw [e2]; exact t5
  · rw [t1, e4, e3]; exact t6
  · rw [t2, e4, e3, e2]; exact t7
  · unfold CanBrake at *; dsimp only; rw [e6, e4, e2]; exact h1
  · unfold CanSpeedUp at *; dsimp only; rw [e6, e4, e2]; exact h2
  · intro x1 x2
    rw [t1, t2, e4, e2] at x1 x2 ⊢
    exact (t8 x1 x2).1
  · rw [t1, e4, e3]; exact t9

theorem Planned.phases {b : Block} {v : ℝ} (h : Planned b v) :
    time b = (phases b).1 + (phases b).2.1 + (phases b).2.2 ∧
    0 ≤ (phases b).1 ∧ 0 ≤ (phases b).2.1 ∧ 0 ≤ (phases b).2.2 := by
  have h1 : 0 ≤ (Time.phases b).1 := (accTime_spec h.acc0 h.a).1
  have h2 : 0 ≤ (Time.phases b).2.1 := div_nonneg (by have := h.mid; linarith) h.n.le
  have h3 : 0 ≤ (Time.phases b).2.2 := (accTime_spec (by have := h.dec; linarith) h.a).1
  unfold time
  rw [duration_of_nonneg h1, duration_of_nonneg h2, duration_of_nonneg h3]
  exact ⟨rfl, h1, h2, h3⟩

theorem Planned.motion {b : Block} {v : ℝ} (h : Planned b v) (he : minSpeed ≤ b.entry) (hv : minSpeed ≤ v) :
    Motion b.entry v b.acc b.distance b.nominal (time b) := by
  obtain ⟨p0, p1, p2, p3⟩ := h.phases
  have ha := h.a
  have hbr := h.brake
  have hsp := h.speedUp
  unfold CanBrake at hbr
  unfold CanSpeedUp at hsp
  rw [max_eq_left hv] at hbr
  rw [max_eq_left he] at hsp
  have hex := h.exact (by rw [h.initial, h.final]; exact hbr) (by rw [h.initial, h.final]; exact hsp)
  obtain ⟨q1, q2, q3⟩ := accTime_spec (v := b.initial) h.acc0 ha
  obtain ⟨r1, r2, r3⟩ := accTime_spec (v := b.final) (x := b.distance - b.decAfter) (by have := h.dec; linarith) ha
  have hi0 : 0 ≤ b.initial := by rw [h.initial]; exact h.entry0
  have hf0 : 0 ≤ b.final := by rw [h.final]; exact h.v0
  have s0 : 0 ≤ b.initial + b.acc * accTime b.initial b.accUntil b.acc := by have := mul_nonneg ha.le q1; linarith
  have s1 : 0 ≤ b.final + b.acc * accTime b.final (b.distance - b.decAfter) b.acc := by
    have := mul_nonneg ha.le r1; linarith
  have hpeak : b.initial + b.acc * accTime b.initial b.accUntil b.acc =
      b.final + b.acc * accTime b.final (b.distance - b.decAfter) b.acc := by
    have : (b.initial + b.acc * accTime b.initial b.accUntil b.acc) ^ 2 =
      (b.final + b.acc * accTime b.final (b.distance - b.decAfter) b.acc) ^ 2 := by rw [q3, r3]; exact hex
    exact le_antisymm (le_of_sq_le s1 this.le) (le_of_sq_le s0 this.ge)
  have hplateau : (b.initial + b.acc * accTime b.initial b.accUntil b.acc) * ((b.decAfter - b.accUntil) / b.nominal) =
      b.decAfter - b.accUntil := by
    rcases lt_or_eq_of_le h.peak₁ with hlt | heq
    · rw [h.full hlt]; simp
    · have : b.initial + b.acc * accTime b.initial b.accUntil b.acc = b.nominal := by
        have : (b.initial + b.acc * accTime b.initial b.accUntil b.acc) ^ 2 = b.nominal ^ 2 := by rw [q3]; exact heq
        exact le_antisymm (le_of_sq_le h.n.le this.le) (le_of_sq_le s0 this.ge)
      rw [this]
      have := h.n.ne'
      field_simp
  refine ⟨_, _, _, b.initial + b.acc * accTime b.initial b.accUntil b.acc, p1, p2, p3, p0, ?_, ?_, ?_, ?_, ?_⟩
  · rw [← h.initial]; rfl
  · rw [hpeak]
    show b.final + _ - b.acc * accTime b.final (b.distance - b.decAfter) b.acc = v
    rw [h.final]; ring
  · apply le_of_sq_le h.n.le
    rw [q3]; exact h.peak₁
  · intro hlt
    show (b.decAfter - b.accUntil) / b.nominal = 0
    have : b.initial ^ 2 + 2 * b.acc * b.accUntil < b.nominal ^ 2 := by
      rw [← q3]; nlinarith [h.n]
    rw [h.full this]; simp
  · rw [show (Time.phases b).2.1 = (b.decAfter - b.accUntil) / b.nominal from rfl, hplateau, ← h.initial]
    show b.initial * accTime b.initial b.accUntil b.acc + b.acc * accTime b.initial b.accUntil b.acc ^ 2 / 2 +
      (b.decAfter - b.accUntil) +
      ((b.initial + b.acc * accTime b.initial b.accUntil b.acc) * accTime b.final (b.distance - b.decAfter) b.acc -
        b.acc * accTime b.final (b.distance - b.decAfter) b.acc ^ 2 / 2) = b.distance
    rw [hpeak]
    nlinarith

/-- No block is faster than at its top speed. -/
theorem Planned.slow {b : Block} {v : ℝ} (h : Planned b v) : b.distance ≤ b.nominal * time b := by
  obtain ⟨p0, p1, p2, p3⟩ := h.phases
  have ha := h.a
  obtain ⟨q1, q2, q3⟩ := accTime_spec (v := b.initial) h.acc0 ha
  obtain ⟨r1, r2, r3⟩ := accTime_spec (v := b.final) (x := b.distance - b.decAfter) (by have := h.dec; linarith) ha
  have hi0 : 0 ≤ b.initial := by rw [h.initial]; exact h.entry0
  have hf0 : 0 ≤ b.final := by rw [h.final]; exact h.v0
  have hp1 : b.initial + b.acc * accTime b.initial b.accUntil b.acc ≤ b.nominal := by
    apply le_of_sq_le h.n.le; rw [q3]; exact h.peak₁
  have hp2 : b.final + b.acc * accTime b.final (b.distance - b.decAfter) b.acc ≤ b.nominal := by
    apply le_of_sq_le h.n.le; rw [r3]; exact h.peak₂
  rw [p0]
  show b.distance ≤ b.nominal * (accTime b.initial b.accUntil b.acc + (b.decAfter - b.accUntil) / b.nominal +
    accTime b.final (b.distance - b.decAfter) b.acc)
  have e : b.nominal * ((b.decAfter - b.accUntil) / b.nominal) = b.decAfter - b.accUntil := by
    have := h.n.ne'; field_simp
  rw [mul_add, mul_add, e]
  generalize accTime b.initial b.accUntil b.acc = t at *
  generalize accTime b.final (b.distance - b.decAfter) b.acc = u at *
  have m1 : (b.initial + b.acc * t) * t ≤ b.nominal * t := mul_le_mul_of_nonneg_right hp1 q1
  have m2 : (b.final + b.acc * u) * u ≤ b.nominal * u := mul_le_mul_of_nonneg_right hp2 r1
  have m3 : 0 ≤ b.acc * t ^ 2 := by positivity
  have m4 : 0 ≤ b.acc * u ^ 2 := by positivity
  nlinarith

theorem retrap_planned : ∀ {l : List Block}, (∀ b ∈ l, Static b ∧ InLimits b) → Steps l → Chained CanBrake l →
    Chained CanSpeedUp l → Chained Planned (retrap l)
  | [], _, _, _, _ => trivial
  | b :: rest, h, hs, h1, h2 => by
    unfold retrap
    refine ⟨?_, retrap_planned (fun x hx => h x (by simp [hx])) hs.tail h1.2 h2.2⟩
    rw [exit_retrap]
    obtain ⟨s, l⟩ := h b (by simp)
    refine .of_trapezoid s l ?_ ?_ h1.1 h2.1
    · cases rest with
      | nil => exact minSpeed_pos.le
      | cons n later => exact (h n (by simp)).2.1
    · cases rest with
      | nil => exact s.slow
      | cons n later => exact (h n (by simp)).2.2.trans hs.1

/-- What the whole calculation does to the blocks. -/
theorem planned_spec {l : List Block} (h : ∀ b ∈ l, Static b ∧ Fresh b) (hs : Steps l) :
    Chained Planned (planned l) ∧ ((∀ b ∈ l, minSpeed ≤ b.maxEntry) → ∀ b ∈ planned l, minSpeed ≤ b.entry) ∧
    List.Forall₂ (fun b b' => b'.feature = b.feature ∧ b'.distance = b.distance ∧ b'.nominal = b.nominal ∧
      b'.acc = b.acc ∧ b'.maxEntry = b.maxEntry) l (planned l) := by
  obtain ⟨h1, h2, h3, h4, h5⟩ := passes_spec h hs
  unfold planned
  have hst := static_same h1 fun b hb => (h b hb).1
  have hss := Steps.same h1 hs
  generalize forwardPass (reversePass l) = r at *
  rw [recalculate_eq fun b hb => (hst b hb).redo]
  refine ⟨retrap_planned (fun b hb => ⟨hst b hb, h2 b hb⟩) hss h3 h4, ?_, ?_⟩
  · intro hm
    have := h5 hm
    clear h1 h2 h3 h4 h5 hst hss
    induction r with
    | nil => simp [retrap]
    | cons b rest ih =>
      intro x hx
      rcases List.mem_cons.1 hx with rfl | hx
      · show minSpeed ≤ (trapezoid b _ _).entry
        rw [trapezoid_entry]; exact this b (by simp)
      · exact ih (fun y hy => this y (by simp [hy])) x hx
  · clear h2 h3 h4 h5 hst hss h hs
    induction h1 with
    | nil => exact .nil
    | @cons b b' l r hb ht ih =>
      refine .cons ?_ ih
      obtain ⟨e1, e2, e3, e4, e5, _⟩ := trapezoid_same b' (b'.entry / b'.nominal) (exit r / b'.nominal)
      exact ⟨e1.trans hb.feature, e2.trans hb.distance, e3.trans hb.nominal, e4.trans hb.acc, e5.trans hb.maxEntry⟩

end Verif.Time
