import Verif.Tree.IncLemmas

/-! # Tree support: branches do not leap over walls (C110) -/

namespace Verif.Tree

open Verif.Volumes (Point Region)
open Verif.Support (dist2 Disk Near)

theorem inc_some {ops : Ops} {simp : Bool} {a col r : Region} {distance minAmount minOffset : Nat} {safe last : Int} (hd : 0 < distance)
    (hs : 0 ≤ safe) (hl : 0 ≤ last) (h : safeOffsetInc ops simp a distance col safe last minAmount minOffset = some r) :
    ∃ p, plan distance safe.toNat last.toNat minAmount minOffset = some p ∧
      r = (if p.final then (fun b => if simp then ops.simplify b else b)
            (ops.round (distance - p.steps * p.step : Nat) (incLoop ops simp col p.step p.steps 0 a)) \ col
          else (fun b => if simp then ops.simplify b else b)
            (ops.round (distance - p.steps * p.step : Nat) (incLoop ops simp col p.step p.steps 0 a))) := by
  unfold safeOffsetInc at h
  dsimp only at h
  rw [if_neg (by omega), if_neg (by omega)] at h
  obtain ⟨p, hp, rfl⟩ := Option.map_eq_some_iff.1 h
  exact ⟨p, hp, rfl⟩

/-- C110. Every point of the grown area is reached from the area by a path of hops that are no longer than a step, each of which ends outside of the
walls, and one last hop; all together they are no longer than the distance. If the walls are to be kept out of the result, the last hop ends outside
of them too. -/
theorem C110_hops {ops : Ops} {dev : ℚ} (ho : ops.Round dev) {simp : Bool} {a col r : Region} {distance minAmount minOffset : Nat} {safe last : Int}
    (hd : 0 < distance) (hs : 0 ≤ safe) (hl : 0 ≤ last) (h : safeOffsetInc ops simp a distance col safe last minAmount minOffset = some r)
    {p : Point} (hp : p ∈ r) :
    ∃ (n step rest : Nat) (q : Point), step ≤ max (minOffset : Int) safe ∧ n * step + rest = distance ∧ Hops (step + dev) dev col n a q ∧
      dist2 q p ≤ (rest + dev) ^ 2 ∧ (last = 0 → p ∉ col) ∧ (minAmount ≤ 1 ∨ (minOffset : Int) ≤ safe →
        (rest : Int) ≤ max (max (minOffset : Int) safe) last ∧ (p ∈ col → (rest : Int) ≤ max last minAmount)) := by
  obtain ⟨pl, hpl, rfl⟩ := inc_some hd hs hl h
  obtain ⟨h1, h2, h3, h4⟩ := plan_spec hpl
  have hn := ho.nonneg
  have hp' : p ∈ (fun b => if simp then ops.simplify b else b)
      (ops.round (distance - pl.steps * pl.step : Nat) (incLoop ops simp col pl.step pl.steps 0 a)) := by
    split at hp
    · exact hp.1
    · exact hp
  have hout : pl.final = true → p ∉ col := by
    intro hf
    rw [if_pos hf] at hp
    exact hp.2
  have key : ∃ v, v ∈ ops.round (distance - pl.steps * pl.step : Nat) (incLoop ops simp col pl.step pl.steps 0 a) ∧ dist2 p v ≤ dev ^ 2 := by
    dsimp only at hp'
    split at hp'
    · exact ho.simplified _ hp'
    · exact ⟨p, hp', by rw [Support.dist2_self]; positivity⟩
  obtain ⟨v, hv, hpv⟩ := key
  obtain ⟨q, hq, hvq⟩ := ho.grown _ _ hv
  refine ⟨pl.steps, pl.step, distance - pl.steps * pl.step, q, by omega, by omega, incLoop_hops ho _ _ _ _ _ _ _ hq, ?_, fun h0 => hout (h3 (by omega)),
    fun hq => ?_⟩
  · rw [Support.dist2_comm] at hvq hpv
    exact Support.dist2_triangle (by positivity) hn hvq hpv
  · obtain ⟨h5, h6⟩ := h4 (by omega)
    refine ⟨by omega, fun hc => ?_⟩
    have hf : pl.final = false := by
      cases hfin : pl.final with
      | false => rfl
      | true => exact absurd hc (hout hfin)
    have := h6 hf
    omega

/-- C110. Where no wall is in the way, the area grows by the whole distance. -/
theorem C110_whole {ops : Ops} {dev : ℚ} (ho : ops.Round dev) {a col r : Region} {distance minAmount minOffset : Nat} {safe last : Int}
    (hd : 0 < distance) (hs : 0 ≤ safe) (hl : 0 ≤ last) (h : safeOffsetInc ops false a distance col safe last minAmount minOffset = some r)
    {q p : Point} (hq : q ∈ a) (hqp : dist2 p q ≤ (distance : ℚ) ^ 2) (hcol : ∀ t : ℚ, 0 ≤ t → t ≤ 1 → onWay q p t ∉ col) : p ∈ r := by
  obtain ⟨pl, hpl, rfl⟩ := inc_some hd hs hl h
  obtain ⟨_, h2, _, _⟩ := plan_spec hpl
  have hD : (0 : ℚ) < distance := by exact_mod_cast hd
  have e0 : onWay q p 0 = q := by unfold onWay; simp
  have e1 : onWay q p 1 = p := by unfold onWay; simp
  have hle : (pl.steps : ℚ) * pl.step ≤ distance := by exact_mod_cast h2
  have hsh : 0 + (pl.steps : ℚ) * ((pl.step : ℚ) / distance) ≤ 1 := by
    rw [zero_add, ← mul_div_assoc, div_le_one hD]
    exact hle
  have hw := incLoop_way (step := pl.step) ho hD hqp hcol pl.steps 0 a 0 le_rfl hsh (by rw [e0]; exact hq)
  have hin : p ∈ ops.round (distance - pl.steps * pl.step : Nat) (incLoop ops false col pl.step pl.steps 0 a) := by
    refine ho.grows _ _ ⟨_, hw, ?_⟩
    have ed := onWay_dist q p (0 + (pl.steps : ℚ) * ((pl.step : ℚ) / distance)) 1
    rw [e1] at ed
    rw [ed, Nat.cast_sub h2]
    calc (1 - (0 + (pl.steps : ℚ) * ((pl.step : ℚ) / distance))) ^ 2 * dist2 p q
        ≤ (1 - (0 + (pl.steps : ℚ) * ((pl.step : ℚ) / distance))) ^ 2 * (distance : ℚ) ^ 2 := by gcongr
      _ = ((distance : ℚ) - ((pl.steps * pl.step : Nat) : ℚ)) ^ 2 := by push_cast; field_simp; ring
  have hpc : p ∉ col := e1 ▸ hcol 1 zero_le_one le_rfl
  split
  · exact ⟨hin, hpc⟩
  · exact hin

/-- C110. The area is grown, if steps have a size and are not more numerous than the micron of the distance. -/
theorem C110_grown (ops : Ops) (simp : Bool) (a col : Region) {distance minAmount minOffset : Nat} {safe : Int} (last : Int)
    (h : 0 < max (minOffset : Int) safe) (hm : minAmount ≤ 1 ∨ minAmount ≤ distance) :
    ∃ r, safeOffsetInc ops simp a distance col safe last minAmount minOffset = some r := by
  unfold safeOffsetInc
  dsimp only
  split
  · exact ⟨_, rfl⟩
  · split
    · exact ⟨_, rfl⟩
    · obtain ⟨p, hp⟩ := plan_some (distance := distance) (last := last.toNat) (safe := safe.toNat) (minOffset := minOffset) (by omega) hm
      rw [hp]
      exact ⟨_, rfl⟩

end Verif.Tree
