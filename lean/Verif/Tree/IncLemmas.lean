import Verif.Tree.IncSpec
import Verif.Support.Lemmas
import Mathlib.Tactic.Ring
import Mathlib.Tactic.Linarith
import Mathlib.Tactic.Positivity
import Mathlib.Tactic.FieldSimp
import Mathlib.Tactic.LinearCombination

/-! # Lemmas on offsets in steps -/

namespace Verif.Tree

open Verif.Volumes (Point Region)
open Verif.Support (dist2 Disk Near)

theorem firstPlan_spec {distance safe last minOffset : Nat} {p : Plan} (h : firstPlan distance safe last minOffset = some p) :
    p.step = max minOffset safe ∧ p.steps * p.step ≤ distance ∧ (last = 0 → p.final = true) ∧
      distance - p.steps * p.step ≤ max p.step last ∧ (p.final = false → distance - p.steps * p.step ≤ last) := by
  unfold firstPlan at h
  dsimp only at h
  split at h
  · cases h
  · rename_i h0
    generalize hs : max minOffset safe = s at *
    have hk : ∃ k, (if last < distance then (distance - last) / s else 0) = k ∧ k * s ≤ distance ∧ (last < distance → distance - last < (k + 1) * s) := by
      refine ⟨_, rfl, ?_, ?_⟩
      · split
        · have := Nat.div_mul_le_self (distance - last) s
          omega
        · simp
      · intro hl
        rw [if_pos hl]
        have : 0 < s := by omega
        have := Nat.lt_mul_div_succ (distance - last) this
        rw [Nat.mul_comm] at this
        exact this
    obtain ⟨k, hk, hk1, hk2⟩ := hk
    rw [hk] at h
    split at h
    · rename_i h1
      split at h
      · obtain rfl := Option.some.inj h
        rename_i h2
        dsimp only
        refine ⟨rfl, h2, by simp, ?_, fun _ => ?_⟩
        all_goals
          have := hk2 (by omega)
          omega
      · obtain rfl := Option.some.inj h
        rename_i h2
        dsimp only
        have e : (k + 1) * s = k * s + s := by ring
        rw [e] at h2
        refine ⟨rfl, hk1, fun _ => rfl, by omega, fun h => by cases h⟩
    · obtain rfl := Option.some.inj h
      dsimp only
      exact ⟨rfl, hk1, by simp, by omega, fun _ => by omega⟩

theorem plan_spec {distance safe last minAmount minOffset : Nat} {p : Plan} (h : plan distance safe last minAmount minOffset = some p) :
    p.step ≤ max minOffset safe ∧ p.steps * p.step ≤ distance ∧ (last = 0 → p.final = true) ∧ (minAmount ≤ 1 ∨ minOffset ≤ safe →
      distance - p.steps * p.step ≤ max (max minOffset safe) last ∧ (p.final = false → distance - p.steps * p.step ≤ max last minAmount)) := by
  unfold plan at h
  obtain ⟨p1, h1, h⟩ := Option.bind_eq_some_iff.1 h
  obtain ⟨a1, a2, a3, a4, a5⟩ := firstPlan_spec h1
  generalize (if distance < last ∨ distance % p1.step ≠ 0 then 1 else 0) = b at h
  split at h
  · cases h
  · split at h
    · rename_i h0 hm
      dsimp only at h
      split at h
      · rename_i hs
        obtain rfl := Option.some.inj h
        dsimp only
        have hle : minAmount * safe ≤ distance := le_trans (Nat.mul_le_mul_left _ hs) (Nat.mul_div_le _ _)
        refine ⟨le_max_right _ _, hle, a3, fun hq => ?_⟩
        have hq : minOffset ≤ safe := hq.resolve_left (by omega)
        rw [max_eq_right hq] at a1
        rw [a1] at a2 a4 a5
        have hst : p1.steps < minAmount := by omega
        have : p1.steps * safe ≤ minAmount * safe := Nat.mul_le_mul_right _ hst.le
        refine ⟨?_, fun hf => ?_⟩
        · have := max_eq_right hq
          omega
        · have := a5 hf
          omega
      · split at h
        · cases h
        · rename_i hs h00
          obtain rfl := Option.some.inj h
          dsimp only
          have hle := Nat.div_mul_le_self distance (distance / minAmount)
          have hrest : distance - distance / (distance / minAmount) * (distance / minAmount) = distance % (distance / minAmount) := by
            have := Nat.div_add_mod distance (distance / minAmount)
            rw [Nat.mul_comm] at this
            omega
          have hlt := Nat.mod_lt distance (Nat.pos_of_ne_zero h00)
          refine ⟨by omega, hle, a3, fun _ => ⟨by rw [hrest]; omega, fun _ => ?_⟩⟩
          rw [hrest]
          refine le_trans ?_ (le_max_right _ _)
          -- the remainder is below the number of steps
          have hr := Nat.mod_lt distance (show minAmount > 0 by omega)
          have e := Nat.div_add_mod distance minAmount
          by_cases hc : distance % minAmount < distance / minAmount
          · have : distance % (distance / minAmount) = distance % minAmount := by
              have e' : distance = distance / minAmount * minAmount + distance % minAmount := by rw [Nat.mul_comm]; exact e.symm
              generalize distance / minAmount = x at *
              generalize distance % minAmount = y at *
              rw [e', Nat.mul_add_mod, Nat.mod_eq_of_lt hc]
            omega
          · omega
    · obtain rfl := Option.some.inj h
      refine ⟨a1.le, a2, a3, fun _ => ⟨by rw [← a1]; exact a4, fun hf => le_trans (a5 hf) (le_max_left _ _)⟩⟩

theorem plan_some {distance safe last minAmount minOffset : Nat} (h : 0 < max minOffset safe) (hm : minAmount ≤ 1 ∨ minAmount ≤ distance) :
    ∃ p, plan distance safe last minAmount minOffset = some p := by
  have hf : ∃ p, firstPlan distance safe last minOffset = some p := by
    unfold firstPlan
    dsimp only
    rw [if_neg (by omega)]
    generalize (if last < distance then (distance - last) / max minOffset safe else 0) = k
    split
    · split <;> exact ⟨_, rfl⟩
    · exact ⟨_, rfl⟩
  obtain ⟨p, hp⟩ := hf
  have hst := (firstPlan_spec hp).1
  unfold plan
  rw [hp]
  simp only [Option.bind_eq_bind, Option.bind_some]
  rw [if_neg (by omega)]
  generalize (if distance < last ∨ distance % p.step ≠ 0 then 1 else 0) = b
  split
  · split
    · exact ⟨_, rfl⟩
    · rename_i hs _
      rw [if_neg]
      · exact ⟨_, rfl⟩
      · have : 0 < distance / minAmount := Nat.div_pos (by omega) (by omega)
        omega
  · exact ⟨_, rfl⟩

theorem hops_zero {s dev : ℚ} {wall a : Region} {p : Point} (h : p ∈ a) : Hops s dev wall 0 a p :=
  ⟨fun _ => p, h, rfl, fun _ h => absurd h (by omega)⟩

theorem hops_first {s dev : ℚ} {wall a b : Region} {n : Nat} {p : Point} (h : Hops s dev wall n b p)
    (hb : ∀ q ∈ b, ∃ x ∈ a, dist2 x q ≤ s ^ 2 ∧ q ∈ Near dev {q | q ∉ wall}) : Hops s dev wall (n + 1) a p := by
  obtain ⟨path, h0, hn, hi⟩ := h
  obtain ⟨x, hx, hd, hw⟩ := hb _ h0
  refine ⟨fun i => if i = 0 then x else path (i - 1), hx, hn, fun i hin => ?_⟩
  cases i with
  | zero => exact ⟨hd, hw⟩
  | succ i => exact hi i (by omega)

theorem incLoop_hops {ops : Ops} {dev : ℚ} (ho : ops.Round dev) (simp : Bool) (col : Region) (step n : Nat) :
    ∀ (i : Nat) (a : Region) (p : Point), p ∈ incLoop ops simp col step n i a → Hops (step + dev) dev col n a p := by
  induction n with
  | zero => intro i a p h; exact hops_zero h
  | succ n ih =>
    intro i a p h
    refine hops_first (ih _ _ p h) fun q hq => ?_
    have hn := ho.nonneg
    have key : ∃ v, v ∈ ops.round step a \ col ∧ dist2 q v ≤ dev ^ 2 := by
      split at hq
      · exact ho.simplified _ hq
      · exact ⟨q, hq, by rw [Support.dist2_self]; positivity⟩
    obtain ⟨v, ⟨hv, hvc⟩, hd⟩ := key
    obtain ⟨x, hx, hxv⟩ := ho.grown _ _ hv
    refine ⟨x, hx, ?_, v, hvc, hd⟩
    have hs : (0 : ℚ) ≤ step := by positivity
    rw [Support.dist2_comm] at hxv hd
    exact Support.dist2_triangle hs hn hxv hd

theorem onWay_dist (q p : Point) (s t : ℚ) : dist2 (onWay q p t) (onWay q p s) = (t - s) ^ 2 * dist2 p q := by
  unfold dist2 onWay
  ring

/-- The points of the way that have been reached after the steps so far. -/
theorem incLoop_way {ops : Ops} {dev : ℚ} (ho : ops.Round dev) {col : Region} {step : Nat} {q p : Point} {distance : ℚ} (hD : 0 < distance)
    (hd : dist2 p q ≤ distance ^ 2) (hcol : ∀ t : ℚ, 0 ≤ t → t ≤ 1 → onWay q p t ∉ col) (n : Nat) :
    ∀ (i : Nat) (a : Region) (t : ℚ), 0 ≤ t → t + n * (step / distance) ≤ 1 → onWay q p t ∈ a →
      onWay q p (t + n * (step / distance)) ∈ incLoop ops false col step n i a := by
  induction n with
  | zero => intro i a t _ _ h; simpa [incLoop] using h
  | succ n ih =>
    intro i a t h0 h1 h
    have hs : (0 : ℚ) ≤ step / distance := by positivity
    have e : t + ((n + 1 : Nat) : ℚ) * (step / distance) = (t + step / distance) + n * (step / distance) := by push_cast; ring
    rw [e] at h1 ⊢
    have hns : (0 : ℚ) ≤ n * (step / distance) := by positivity
    refine ih _ _ _ (by linarith) h1 ?_
    simp only [Bool.false_eq_true, and_false, if_false]
    refine ⟨ho.grows _ _ ⟨_, h, ?_⟩, hcol _ (by linarith) (by linarith)⟩
    rw [onWay_dist]
    calc (t + step / distance - t) ^ 2 * dist2 p q ≤ (t + step / distance - t) ^ 2 * distance ^ 2 := by gcongr
      _ = (step : ℚ) ^ 2 := by field_simp; ring

end Verif.Tree
