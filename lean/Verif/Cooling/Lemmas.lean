import Verif.Cooling.Spec
import Mathlib.Tactic.Linarith
import Mathlib.Tactic.Ring
import Mathlib.Tactic.FieldSimp
import Mathlib.Tactic.Positivity
import Mathlib.Algebra.Order.Field.Basic
import Mathlib.Algebra.Order.BigOperators.Group.List

/-! # Lemmas for the minimum layer time -/

namespace Verif.Cooling

theorem travel_iff (p : Path) : p.travel = true ↔ p.width = 0 := by simp [Path.travel]

theorem sum_div (l : List ℚ) (v : ℚ) : (l.map fun x => x / v).sum = l.sum / v := by
  induction l with
  | nil => simp
  | cons a l ih => simp [ih, add_div]

theorem Path.time_eq (p : Path) : p.time = p.lens.sum / p.v := sum_div _ _

/-! ## The estimates -/

theorem fold_extrude (m s : ℚ) (th : Int) (p : Path) (l : List ℚ) (e : Est) :
    (l.foldl (moveEst m s th p) e).extrude = e.extrude + if p.width = 0 then 0 else l.sum / p.v := by
  induction l generalizing e with
  | nil => simp
  | cons a l ih =>
    rw [List.foldl_cons, ih]
    by_cases h : p.width = 0
    · by_cases hr : p.retract = true <;> simp [moveEst, Path.travel, h, hr]
    · simp [moveEst, Path.travel, h, add_div, add_assoc]

theorem fold_travel (m s : ℚ) (th : Int) (p : Path) (l : List ℚ) (e : Est) :
    (l.foldl (moveEst m s th p) e).travel = e.travel + if p.width = 0 then l.sum / p.v else 0 := by
  induction l generalizing e with
  | nil => simp
  | cons a l ih =>
    rw [List.foldl_cons, ih]
    by_cases h : p.width = 0
    · by_cases hr : p.retract = true
      · simp [moveEst, Path.travel, h, hr, Est.travel, add_div]; ring
      · simp [moveEst, Path.travel, h, hr, Est.travel, add_div]; ring
    · simp [moveEst, Path.travel, h, Est.travel]

theorem fold_atMinimum (m s : ℚ) (th : Int) (p : Path) (l : List ℚ) (hl : ∀ x ∈ l, 0 ≤ x) (e : Est) :
    (l.foldl (moveEst m s th p) e).atMinimum = e.atMinimum + if p.width = 0 then 0 else l.sum / m := by
  induction l generalizing e with
  | nil => simp
  | cons a l ih =>
    rw [List.foldl_cons, ih (fun x hx => hl x (by simp [hx]))]
    have ha := hl a (by simp)
    by_cases h : p.width = 0
    · by_cases hr : p.retract = true <;> simp [moveEst, Path.travel, h, hr]
    · by_cases h0 : 0 < a
      · simp [moveEst, Path.travel, h, h0, add_div, add_assoc]
      · have : a = 0 := by linarith
        simp [moveEst, Path.travel, h, this]

theorem fold_atSlowest (m s : ℚ) (th : Int) (p : Path) (l : List ℚ) (hl : ∀ x ∈ l, 0 ≤ x) (e : Est) :
    (l.foldl (moveEst m s th p) e).atSlowest = e.atSlowest + if p.width = 0 then 0 else l.sum / s := by
  induction l generalizing e with
  | nil => simp
  | cons a l ih =>
    rw [List.foldl_cons, ih (fun x hx => hl x (by simp [hx]))]
    have ha := hl a (by simp)
    by_cases h : p.width = 0
    · by_cases hr : p.retract = true <;> simp [moveEst, Path.travel, h, hr]
    · by_cases h0 : 0 < a
      · simp [moveEst, Path.travel, h, h0, add_div, add_assoc]
      · have : a = 0 := by linarith
        simp [moveEst, Path.travel, h, this]

theorem startEst_spec (r : Retraction) (p : Path) (h : p.est = {}) :
    (startEst r p).extrude = 0 ∧ (startEst r p).travel = p.retractTime r ∧ (startEst r p).atMinimum = 0 ∧
      (startEst r p).atSlowest = 0 := by
  by_cases hc : p.travel = true ∧ p.retract = true
  · have : p.width = 0 ∧ p.retract = true := ⟨(travel_iff p).1 hc.1, hc.2⟩
    simp [startEst, Path.retractTime, hc, this, h, Est.travel]
    ring
  · have : ¬ (p.width = 0 ∧ p.retract = true) := fun h' => hc ⟨(travel_iff p).2 h'.1, h'.2⟩
    simp only [startEst, Path.retractTime, hc, this, h, Est.travel, if_false]
    simp

theorem naivePath_spec (pl : Plan) (s : ℚ) (p : Path) (h : p.Fresh) :
    (naivePath pl s p).est.extrude = (if p.width = 0 then 0 else p.time) ∧
      (naivePath pl s p).est.travel = (if p.width = 0 then p.time + p.retractTime pl.retraction else 0) ∧
      (naivePath pl s p).est.atMinimum = (if p.width = 0 then 0 else p.lens.sum / pl.settings.minSpeed) ∧
      (naivePath pl s p).est.atSlowest = (if p.width = 0 then 0 else p.lens.sum / s) := by
  obtain ⟨h1, h2, h3, h4⟩ := startEst_spec pl.retraction p h.est
  unfold naivePath
  refine ⟨?_, ?_, ?_, ?_⟩
  · dsimp only; rw [fold_extrude, h1, zero_add, Path.time_eq]
  · dsimp only; rw [fold_travel, h2, Path.time_eq]
    by_cases hw : p.width = 0
    · simp only [hw, if_true]; ring
    · simp [hw, Path.retractTime]
  · dsimp only; rw [fold_atMinimum _ _ _ _ _ h.lens, h3, zero_add]
  · dsimp only; rw [fold_atSlowest _ _ _ _ _ h.lens, h4, zero_add]

theorem fold_est (l : List Path) (e : Est) :
    (l.foldl (fun e p => e.add p.est) e).extrude = e.extrude + (l.map fun p => p.est.extrude).sum ∧
      (l.foldl (fun e p => e.add p.est) e).travel = e.travel + (l.map fun p => p.est.travel).sum := by
  induction l generalizing e with
  | nil => simp
  | cons p l ih =>
    rw [List.foldl_cons]
    obtain ⟨h1, h2⟩ := ih (e.add p.est)
    rw [h1, h2]
    simp only [Est.add, Est.travel, List.map_cons, List.sum_cons]
    exact ⟨by ring, by ring⟩

theorem sum_fold (g : Path → ℚ) (l : List Path) (a : ℚ) :
    l.foldl (fun t p => t + g p) a = a + (l.map g).sum := by
  induction l generalizing a with
  | nil => simp
  | cons p l ih => rw [List.foldl_cons, ih]; simp [add_assoc]

theorem sum_div_ite (l : List Path) (v : ℚ) :
    (l.map fun p => if p.width = 0 then 0 else p.lens.sum / v).sum
      = (l.map fun p => if p.width = 0 then 0 else p.lens.sum).sum / v := by
  induction l with
  | nil => simp
  | cons p l ih =>
    simp only [List.map_cons, List.sum_cons, ih, add_div]
    by_cases h : p.width = 0 <;> simp [h]

/-- The state of a plan after the loop over the plans. -/
def ready (pl : Plan) : Plan := fanFirst (naive pl)

theorem fanFirst_fields (pl : Plan) :
    (fanFirst pl).est = pl.est ∧ (fanFirst pl).paths = pl.paths ∧ (fanFirst pl).ext = pl.ext ∧
      (fanFirst pl).settings = pl.settings ∧ (fanFirst pl).slowest = pl.slowest ∧
      (fanFirst pl).extra = pl.extra ∧ (fanFirst pl).retraction = pl.retraction ∧
      (fanFirst pl).tempFactor = pl.tempFactor ∧ (fanFirst pl).layer = pl.layer := by
  unfold fanFirst
  dsimp only
  split <;> simp

theorem ready_spec (pl : Plan) (h : pl.Fresh) :
    (ready pl).est.extrude = pl.extrusionTime ∧ (ready pl).est.travel = pl.travelTime ∧
      (ready pl).paths.foldl (fun t p => t + p.est.atMinimum) 0 = pl.extrusion / pl.settings.minSpeed ∧
      (ready pl).paths.foldl (fun t p => t + p.est.atSlowest) 0 = pl.extrusion / slowest pl.paths := by
  obtain ⟨he, hp, -⟩ := fanFirst_fields (naive pl)
  unfold ready
  rw [he, hp, sum_fold, sum_fold]
  have hf := fold_est (pl.paths.map (naivePath pl (slowest pl.paths))) pl.est
  have h0 : pl.est.extrude = 0 ∧ pl.est.travel = 0 := by rw [h.est]; simp [Est.travel]
  have key : ∀ (g h' : Path → ℚ), (∀ p ∈ pl.paths, g (naivePath pl (slowest pl.paths) p) = h' p) →
      ((pl.paths.map (naivePath pl (slowest pl.paths))).map g).sum = (pl.paths.map h').sum := by
    intro g h' hg
    rw [List.map_map]
    congr 1
    exact List.map_congr_left hg
  refine ⟨?_, ?_, ?_, ?_⟩
  · show (List.foldl _ pl.est _).extrude = _
    rw [hf.1, h0.1, zero_add]
    exact key _ _ fun p hpm => (naivePath_spec pl _ p (h.paths p hpm)).1
  · show (List.foldl _ pl.est _).travel = _
    rw [hf.2, h0.2, zero_add]
    exact key _ _ fun p hpm => (naivePath_spec pl _ p (h.paths p hpm)).2.1
  · rw [zero_add]
    show ((pl.paths.map _).map _).sum = _
    rw [key _ _ fun p hpm => (naivePath_spec pl _ p (h.paths p hpm)).2.2.1, sum_div_ite]
    rfl
  · rw [zero_add]
    show ((pl.paths.map _).map _).sum = _
    rw [key _ _ fun p hpm => (naivePath_spec pl _ p (h.paths p hpm)).2.2.2, sum_div_ite]
    rfl

/-! ## The slowest speed -/

theorem slowest_fold (l : List Path) (a : ℚ) :
    (l.foldl (fun value p => if p.travel then value else min value p.v) a ≤ a) ∧
    (∀ p ∈ l, p.width ≠ 0 → l.foldl (fun value p => if p.travel then value else min value p.v) a ≤ p.v) ∧
    (l.foldl (fun value p => if p.travel then value else min value p.v) a = a ∨
      ∃ p ∈ l, p.width ≠ 0 ∧ p.v = l.foldl (fun value p => if p.travel then value else min value p.v) a) := by
  induction l generalizing a with
  | nil => simp
  | cons q l ih =>
    rw [List.foldl_cons]
    by_cases hq : q.width = 0
    · have : q.travel = true := (travel_iff q).2 hq
      rw [if_pos this]
      obtain ⟨h1, h2, h3⟩ := ih a
      refine ⟨h1, ?_, ?_⟩
      · intro p hp hw
        rcases List.mem_cons.1 hp with rfl | hp
        · exact absurd hq hw
        · exact h2 p hp hw
      · rcases h3 with h3 | ⟨p, hp, h3⟩
        · exact Or.inl h3
        · exact Or.inr ⟨p, by simp [hp], h3⟩
    · have : ¬ q.travel = true := fun h => hq ((travel_iff q).1 h)
      rw [if_neg this]
      obtain ⟨h1, h2, h3⟩ := ih (min a q.v)
      refine ⟨h1.trans (min_le_left _ _), ?_, ?_⟩
      · intro p hp hw
        rcases List.mem_cons.1 hp with rfl | hp
        · exact h1.trans (min_le_right _ _)
        · exact h2 p hp hw
      · rcases h3 with h3 | ⟨p, hp, h3⟩
        · rw [h3]
          rcases le_total a q.v with h | h
          · left; exact min_eq_left h
          · right; exact ⟨q, by simp, hq, (min_eq_right h).symm⟩
        · exact Or.inr ⟨p, by simp [hp], h3⟩

theorem slowest_eq {pl : Plan} (h : pl.Fresh) {s : ℚ} (hs : pl.Slowest s) : slowest pl.paths = s := by
  obtain ⟨h1, h2, h3⟩ := slowest_fold pl.paths dblMax
  obtain ⟨⟨p, hp, hw, hv⟩, hmin⟩ := hs
  apply le_antisymm
  · exact (h2 p hp hw).trans (le_of_eq hv)
  · rcases h3 with h3 | ⟨q, hq, hqw, h3⟩
    · unfold slowest; rw [h3]; rw [← hv]; exact (h.paths p hp).small
    · unfold slowest; rw [← h3]; exact hmin q hq hqw

/-! ## Times -/

theorem Path.Fresh.v_pos {p : Path} (h : p.Fresh) : 0 < p.v := mul_pos h.speed h.factor

theorem Path.Fresh.len_nonneg {p : Path} (h : p.Fresh) : 0 ≤ p.lens.sum := List.sum_nonneg h.lens

theorem Plan.time_eq (pl : Plan) : pl.time = pl.extrusionTime + pl.travelTime := by
  unfold Plan.time Plan.extrusionTime Plan.travelTime
  induction pl.paths with
  | nil => simp
  | cons p l ih =>
    simp only [List.map_cons, List.sum_cons, ih]
    by_cases h : p.width = 0
    · simp only [h, if_true]; ring
    · simp only [h, if_false, Path.retractTime, false_and]; ring

theorem Path.Fresh.time_nonneg {p : Path} (h : p.Fresh) : 0 ≤ p.time := by
  rw [Path.time_eq]; exact div_nonneg h.len_nonneg h.v_pos.le

theorem Plan.Fresh.retract_nonneg {pl : Plan} (h : pl.Fresh) (p : Path) :
    0 ≤ p.retractTime pl.retraction := by
  unfold Path.retractTime
  split
  · exact div_nonneg h.distance h.retractSpeed.le
  · exact le_rfl

theorem Plan.Fresh.time_nonneg {pl : Plan} (h : pl.Fresh) : 0 ≤ pl.time := by
  apply List.sum_nonneg
  intro x hx
  obtain ⟨p, hp, rfl⟩ := List.mem_map.1 hx
  exact add_nonneg (h.paths p hp).time_nonneg (h.retract_nonneg p)

theorem Plan.Fresh.extrusion_nonneg {pl : Plan} (h : pl.Fresh) : 0 ≤ pl.extrusion := by
  apply List.sum_nonneg
  intro x hx
  obtain ⟨p, hp, rfl⟩ := List.mem_map.1 hx
  split
  · exact le_rfl
  · exact (h.paths p hp).len_nonneg

theorem naivePath_fields (pl : Plan) (s : ℚ) (p : Path) :
    (naivePath pl s p).time = p.time ∧ (naivePath pl s p).retractTime = p.retractTime ∧
      (naivePath pl s p).width = p.width ∧ (naivePath pl s p).v = p.v ∧ (naivePath pl s p).lens = p.lens := by
  refine ⟨rfl, rfl, rfl, rfl, rfl⟩

theorem ready_fields (pl : Plan) :
    (ready pl).ext = pl.ext ∧ (ready pl).settings = pl.settings ∧ (ready pl).slowest = slowest pl.paths ∧
      (ready pl).extra = pl.extra ∧ (ready pl).retraction = pl.retraction ∧
      (ready pl).paths = pl.paths.map (naivePath pl (slowest pl.paths)) := by
  obtain ⟨-, h2, h3, h4, h5, h6, h7, -⟩ := fanFirst_fields (naive pl)
  exact ⟨h3, h4, h5, h6, h7, h2⟩

theorem ready_time (pl : Plan) : (ready pl).time = pl.time := by
  obtain ⟨-, -, -, -, h5, h6⟩ := ready_fields pl
  unfold Plan.time
  rw [h5, h6, List.map_map]
  rfl

/-- The speed of a path after it was slowed down. -/
theorem slowDown_v (f : Path → ℚ) (p : Path) :
    (slowDown f p).v = if p.width = 0 then p.v else p.v * f p := by
  unfold slowDown
  by_cases h : p.width = 0
  · rw [if_pos ((travel_iff p).2 h), if_pos h]
  · rw [if_neg (fun h' => h ((travel_iff p).1 h')), if_neg h]
    simp only [Path.v]; ring

theorem slowDown_fields (f : Path → ℚ) (p : Path) :
    (slowDown f p).width = p.width ∧ (slowDown f p).lens = p.lens ∧ (slowDown f p).retract = p.retract ∧
      (slowDown f p).speed = p.speed ∧
      (p.width = 0 → slowDown f p = p) := by
  unfold slowDown
  by_cases h : p.width = 0
  · rw [if_pos ((travel_iff p).2 h)]; simp
  · rw [if_neg (fun h' => h ((travel_iff p).1 h'))]; simp [h]

theorem towards_v {p : Path} (hp : 0 < p.v) (t : ℚ) : p.v * towards t p = min t p.v := by
  unfold towards
  rcases le_total t p.v with h | h
  · rw [min_eq_left h, min_eq_left ((div_le_one hp).2 h)]; field_simp
  · rw [min_eq_right h, min_eq_right ((one_le_div hp).2 h)]; ring

theorem between_v {p : Path} (hp : 0 < p.v) (s f : ℚ) :
    p.v * between s f p = min (s * (1 - f) + p.v * f) p.v := by
  unfold between
  rcases le_total (s * (1 - f) + p.v * f) p.v with h | h
  · rw [min_eq_left h, min_eq_left ((div_le_one hp).2 h)]; field_simp
  · rw [min_eq_right h, min_eq_right ((one_le_div hp).2 h)]; ring

/-- The time of the extrusion moves after slowing down. -/
theorem slowed_extrusionTime (f : Path → ℚ) (pl : Plan) :
    Plan.extrusionTime { pl with paths := pl.paths.map (slowDown f) }
      = (pl.paths.map fun p => if p.width = 0 then 0 else p.lens.sum / (p.v * f p)).sum := by
  unfold Plan.extrusionTime
  rw [List.map_map]
  congr 1
  apply List.map_congr_left
  intro p _
  obtain ⟨h1, h2, -⟩ := slowDown_fields f p
  simp only [Function.comp, h1]
  by_cases h : p.width = 0
  · simp [h]
  · rw [if_neg h, if_neg h, Path.time_eq, slowDown_v, if_neg h, h2]

theorem slowed_travelTime (f : Path → ℚ) (pl : Plan) :
    Plan.travelTime { pl with paths := pl.paths.map (slowDown f) } = pl.travelTime := by
  unfold Plan.travelTime
  rw [List.map_map]
  congr 1
  apply List.map_congr_left
  intro p _
  obtain ⟨h1, -, -, -, h2⟩ := slowDown_fields f p
  simp only [Function.comp, h1]
  by_cases h : p.width = 0
  · rw [if_pos h, if_pos h, h2 h]
  · rw [if_neg h, if_neg h]

theorem sum_map_le (l : List Path) (g h : Path → ℚ) (H : ∀ p ∈ l, g p ≤ h p) :
    (l.map g).sum ≤ (l.map h).sum := by
  induction l with
  | nil => simp
  | cons p l ih =>
    simp only [List.map_cons, List.sum_cons]
    exact add_le_add (H p (by simp)) (ih fun q hq => H q (by simp [hq]))

/-! ## The extrusion time in the three branches -/

section Branches

variable (paths : List Path)

/-- The total extrusion length of a list of paths. -/
abbrev len (paths : List Path) : ℚ := (paths.map fun p => if p.width = 0 then 0 else p.lens.sum).sum

/-- At most the speed `t`: at least the time of speed `t`. -/
theorem time_ge (hp : ∀ p ∈ paths, 0 < p.v ∧ 0 ≤ p.lens.sum) {t : ℚ} (w : Path → ℚ)
    (hw : ∀ p ∈ paths, p.width ≠ 0 → 0 < w p ∧ w p ≤ t) :
    len paths / t ≤ (paths.map fun p => if p.width = 0 then 0 else p.lens.sum / w p).sum := by
  rw [← sum_div_ite]
  apply sum_map_le
  intro p hpm
  by_cases h : p.width = 0
  · simp [h]
  · simp only [h, if_false]
    obtain ⟨h1, h2⟩ := hw p hpm h
    exact div_le_div_of_nonneg_left (hp p hpm).2 h1 h2

/-- At least the speed `t`: at most the time of speed `t`. -/
theorem time_le (hp : ∀ p ∈ paths, 0 < p.v ∧ 0 ≤ p.lens.sum) {t : ℚ} (ht : 0 < t) (w : Path → ℚ)
    (hw : ∀ p ∈ paths, p.width ≠ 0 → t ≤ w p) :
    (paths.map fun p => if p.width = 0 then 0 else p.lens.sum / w p).sum ≤ len paths / t := by
  rw [← sum_div_ite]
  apply sum_map_le
  intro p hpm
  by_cases h : p.width = 0
  · simp [h]
  · simp only [h, if_false]
    exact div_le_div_of_nonneg_left (hp p hpm).2 ht (hw p hpm h)

/-- The common target speed of the second branch is the length over the time needed. -/
theorem common_target {L m s need : ℚ} (hL : 0 < L) (hn : 0 < need) (hms : m ≠ s) :
    m * (1 - (1 / (L / m) - 1 / need) / (1 / (L / m) - 1 / (L / s)))
      + s * ((1 / (L / m) - 1 / need) / (1 / (L / m) - 1 / (L / s))) = L / need := by
  have h1 : (1 / (L / m) - 1 / (L / s)) = (m - s) / L := by field_simp
  have h2 : (1 / (L / m) - 1 / need) = (m - L / need) / L := by field_simp
  have h3 : m - s ≠ 0 := sub_ne_zero.2 hms
  rw [h1, h2]
  have h4 : (m - L / need) / L / ((m - s) / L) = (m - L / need) / (m - s) := by field_simp
  rw [h4]
  field_simp
  ring

/-- The interpolation factor of the third branch lies between 0 and 1. -/
theorem factor_range {T need S : ℚ} (hT : 0 < T) (h1 : T < need) (h2 : need < S) :
    0 ≤ (1 / S - 1 / need) / (1 / S - 1 / T) ∧ (1 / S - 1 / need) / (1 / S - 1 / T) ≤ 1 := by
  have hn : 0 < need := hT.trans h1
  have hS : 0 < S := hn.trans h2
  have a1 : 1 / S < 1 / need := one_div_lt_one_div_of_lt hn h2
  have a2 : 1 / need < 1 / T := one_div_lt_one_div_of_lt hT h1
  have a3 : 1 / S - 1 / T < 0 := by linarith
  constructor
  · exact div_nonneg_of_nonpos (by linarith) a3.le
  · rw [div_le_one_of_neg a3]; linarith

theorem tangent_eq {a f x v D E : ℚ} (hD : D ≠ 0) (hE : E ≠ 0) (hv : v ≠ 0) (hDe : D = a * x + f)
    (hEe : E = a + v * f) :
    x / D - f / D ^ 2 * x + f / D ^ 2 * (1 / v) - 1 / E = a * f * (v * x - 1) ^ 2 / (D ^ 2 * v * E) := by
  field_simp
  rw [hDe, hEe]
  ring

theorem sum_eq {f x L D : ℚ} (hD : D ≠ 0) :
    L * (x / D - f / D ^ 2 * x) + f / D ^ 2 * (L * x) = L * x / D := by
  field_simp
  ring

/-- Interpolated speeds take at most the time needed (the harmonic mean is below the arithmetic one). -/
theorem between_le (hp : ∀ p ∈ paths, 0 < p.v ∧ 0 ≤ p.lens.sum) {s f : ℚ} (hs : 0 < s) (hf0 : 0 ≤ f)
    (hf1 : f ≤ 1) {T : ℚ} (hT : 0 < T) (hL : 0 < len paths)
    (hTe : T = (paths.map fun p => if p.width = 0 then 0 else p.lens.sum / p.v).sum) :
    (paths.map fun p => if p.width = 0 then 0 else p.lens.sum / (s * (1 - f) + p.v * f)).sum
      ≤ T / (s * (1 - f) * (T / len paths) + f) := by
  set L := len paths with hLdef
  set a := s * (1 - f) with ha
  have ha0 : 0 ≤ a := mul_nonneg hs.le (by linarith)
  set x := T / L with hx
  have hx0 : 0 < x := div_pos hT hL
  have hd : 0 < a * x + f := by
    rcases eq_or_lt_of_le hf0 with h | h
    · have : a = s := by rw [ha, ← h]; ring
      rw [this, ← h]; have := mul_pos hs hx0; linarith
    · have := mul_nonneg ha0 hx0.le; linarith
  have point : ∀ p ∈ paths,
      (if p.width = 0 then 0 else p.lens.sum / (a + p.v * f)) ≤
        (if p.width = 0 then 0 else p.lens.sum) * (x / (a * x + f) - f / (a * x + f) ^ 2 * x)
          + f / (a * x + f) ^ 2 * (if p.width = 0 then 0 else p.lens.sum / p.v) := by
    intro p hpm
    by_cases h : p.width = 0
    · simp [h]
    · simp only [h, if_false]
      obtain ⟨hv, hl⟩ := hp p hpm
      have hden : 0 < a + p.v * f := by
        rcases eq_or_lt_of_le hf0 with h' | h'
        · have : a = s := by rw [ha, ← h']; ring
          rw [this, ← h']; linarith
        · have := mul_pos hv h'; linarith
      have tangent : 1 / (a + p.v * f) ≤ x / (a * x + f) - f / (a * x + f) ^ 2 * x
          + f / (a * x + f) ^ 2 * (1 / p.v) := by
        have key : x / (a * x + f) - f / (a * x + f) ^ 2 * x + f / (a * x + f) ^ 2 * (1 / p.v)
            - 1 / (a + p.v * f) = a * f * (p.v * x - 1) ^ 2 / ((a * x + f) ^ 2 * p.v * (a + p.v * f)) := by
          exact tangent_eq hd.ne' hden.ne' hv.ne' rfl rfl
        have : 0 ≤ a * f * (p.v * x - 1) ^ 2 / ((a * x + f) ^ 2 * p.v * (a + p.v * f)) := by
          have := mul_nonneg ha0 hf0
          positivity
        linarith
      have := mul_le_mul_of_nonneg_left tangent hl
      calc p.lens.sum / (a + p.v * f) = p.lens.sum * (1 / (a + p.v * f)) := by ring
        _ ≤ _ := this
        _ = _ := by ring
  have hsum := sum_map_le paths _ _ point
  refine hsum.trans (le_of_eq ?_)
  have lin : ∀ (l : List Path) (c d : ℚ),
      (l.map fun p => (if p.width = 0 then 0 else p.lens.sum) * c
        + d * (if p.width = 0 then 0 else p.lens.sum / p.v)).sum
      = (l.map fun p => if p.width = 0 then 0 else p.lens.sum).sum * c
        + d * (l.map fun p => if p.width = 0 then 0 else p.lens.sum / p.v).sum := by
    intro l c d
    induction l with
    | nil => simp
    | cons p l ih => simp only [List.map_cons, List.sum_cons, ih]; ring
  rw [lin, ← hTe]
  show L * _ + _ = _
  have hT' : T = L * x := by rw [hx]; field_simp
  rw [hT']
  exact sum_eq hd.ne'

/-- The bound of `between_le` with the factor of the third branch is the time needed. -/
theorem between_need {L s T need : ℚ} (hL : 0 < L) (hs : 0 < s) (hT : 0 < T) (hn : 0 < need)
    (hne : 1 / (L / s) - 1 / T ≠ 0) :
    T / (s * (1 - (1 / (L / s) - 1 / need) / (1 / (L / s) - 1 / T)) * (T / L)
      + (1 / (L / s) - 1 / need) / (1 / (L / s) - 1 / T)) = need := by
  set f := (1 / (L / s) - 1 / need) / (1 / (L / s) - 1 / T) with hf
  have hfe : f * (1 / (L / s) - 1 / T) = 1 / (L / s) - 1 / need := by
    rw [hf]; exact div_mul_cancel₀ _ hne
  have h1 : 1 / (L / s) = s / L := by field_simp
  rw [h1] at hfe
  have h2 : s * (1 - f) * (T / L) + f = T * (s / L - f * (s / L - 1 / T)) := by field_simp; ring
  rw [h2, hfe]
  have h3 : T * (s / L - (s / L - 1 / need)) = T / need := by ring
  rw [h3]
  field_simp

end Branches

end Verif.Cooling
