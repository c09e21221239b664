import Verif.Bridge.Lemmas
import Verif.Bridge.LineLemmas

/-! # C108: walls over air -/

namespace Verif.Bridge

open Verif.Order (Pt)
open Verif.Walls (size)
open Verif.Scarf (size_comm size_zero)

/-- C108: whether a line of a wall is printed as a bridge is decided, and a place of it is within one of the parts that are, just if it is on a stretch
over air of at least the minimum length and both ends of the line are anchored. The parts are in order and do not overlap. -/
theorem C108_bridges (M : Mask) (pts : List Pt) (i : Nat) (s e : ℚ) (minLen width : Int) (p q : Pt) (hp : pts[i]? = some p)
    (hq : pts[if i + 1 = pts.length then 0 else i + 1]? = some q) (hg : Good M p q) (hse : s < e) (hmin : 0 < minLen) (hw : 0 ≤ width)
    (xs : List ℚ) (hxs : xs.Perm (M.cross p q)) (hord : xs.Pairwise (· ≤ ·)) :
    ∃ n, ∀ rounds ≥ n, ∃ subs, usesBridging M pts rounds i s e minLen width = some subs ∧ Ordered subs ∧
      ∀ u, 0 < u → u < 1 → ((∃ ab ∈ subs, ab.1 < u ∧ u < ab.2) ↔
        Anchored M pts i p true (inner (M.inside p) (size p q) xs.head?) width ∧
        Anchored M pts (if i + 1 = pts.length then 0 else i + 1) q false (inner (M.inside q) (size p q) (xs.getLast?.map fun x => 1 - x)) width ∧
        Long (M.inside p) xs (size p q) minLen (s + u * (e - s))) := by
  have hi : i < pts.length := (List.getElem?_eq_some_iff.mp hp).1
  have hj : (if i + 1 = pts.length then 0 else i + 1) = (i + 1) % pts.length := by
    split
    · rename_i h; rw [h, Nat.mod_self]
    · rw [Nat.mod_eq_of_lt (by omega)]
  rw [hj] at hq ⊢
  have hsx : sort (M.cross p q) = xs := by
    refine List.Perm.eq_of_pairwise' (r := (· ≤ ·)) (sort_sorted _) hord ((sort_perm _).trans hxs.symm)
  have hrange : ∀ x ∈ xs, 0 ≤ x ∧ x ≤ 1 := fun x hx => hg.range x (hxs.subset hx)
  have none_of : ∀ (subs : List (ℚ × ℚ)), subs = [] → Ordered subs := by rintro _ rfl; exact ⟨by simp, by simp⟩
  have hlen0 : 0 ≤ size p q := Scarf.size_nonneg _ _
  by_cases h1 : M.hit p q = false ∨ size p q < minLen
  · refine ⟨0, fun rounds _ => ⟨[], ?_, none_of _ rfl, ?_⟩⟩
    · unfold usesBridging
      simp only [hp, hq, Option.bind_some]
      rw [if_pos h1]
    · intro u hu0 hu1
      constructor
      · rintro ⟨ab, hab, -⟩; simp at hab
      · rintro ⟨-, -, hl⟩
        exfalso
        rcases h1 with h1 | h1
        · obtain ⟨a1, a2, a3⟩ := hg.hits h1
          rw [a3] at hxs
          have hnil : xs = [] := List.perm_nil.mp hxs
          rw [hnil, a1] at hl
          obtain ⟨k, lo, hi', g1, -, -, -, g5, -⟩ := hl
          cases k with
          | zero => simp at g5
          | succ k => simp at g1
        · have := long_len hrange hlen0 hl
          omega
  · have hne : p ≠ q := by
      rintro rfl
      push Not at h1
      have := size_zero.mpr (rfl : p = p)
      omega
    by_cases h2 : M.inside p = false ∧ M.inside q = false ∧ M.cross p q = []
    · refine ⟨0, fun rounds _ => ⟨[], ?_, none_of _ rfl, ?_⟩⟩
      · unfold usesBridging
        simp only [hp, hq, Option.bind_some]
        rw [if_neg h1, if_pos h2]
      · intro u hu0 hu1
        constructor
        · rintro ⟨ab, hab, -⟩; simp at hab
        · rintro ⟨-, -, hl⟩
          exfalso
          rw [h2.2.2] at hxs
          have hnil : xs = [] := List.perm_nil.mp hxs
          rw [hnil, h2.1] at hl
          obtain ⟨k, lo, hi', g1, -, -, -, g5, -⟩ := hl
          cases k with
          | zero => simp at g5
          | succ k => simp at g1
    · have hcross : M.inside p = false ∨ M.inside q = false → xs ≠ [] := by
        intro h hnil
        rw [hnil] at hxs
        have hc : M.cross p q = [] := List.nil_perm.mp hxs
        by_cases hpq : M.inside p = M.inside q
        · rw [hpq] at h
          exact h2 ⟨by rw [hpq]; simpa using h, by simpa using h, hc⟩
        · exact hg.crosses hpq hc
      have hpm : p ∈ pts := List.mem_of_getElem? hp
      have hqm : q ∈ pts := List.mem_of_getElem? hq
      obtain ⟨n1, t1⟩ := tip_spec M pts i p q true width xs hi hw hpm hqm hne (fun h => hcross (Or.inl h))
      obtain ⟨n2, t2⟩ := tip_spec M pts ((i + 1) % pts.length) q p false width xs (Nat.mod_lt _ (by omega)) hw hqm hpm hne.symm
        (fun h => hcross (Or.inr h))
      refine ⟨max n1 n2, fun rounds hr => ?_⟩
      obtain ⟨a, ha1, ha2⟩ := t1 rounds (le_trans (le_max_left _ _) hr)
      obtain ⟨b, hb1, hb2⟩ := t2 rounds (le_trans (le_max_right _ _) hr)
      rw [size_comm q p] at ha2
      simp only [if_true] at ha2
      simp only [Bool.false_eq_true, if_false] at hb2
      have hu : usesBridging M pts rounds i s e minLen width =
          some (if a = true ∧ b = true then scan minLen (size p q) s e (M.inside p) 0 xs else []) := by
        unfold usesBridging
        simp only [hp, hq, Option.bind_some]
        rw [if_neg h1, if_neg h2, hsx, ha1]
        simp only [Option.bind_some]
        cases a
        · simp
        · simp only [if_true]
          rw [hb1]
          cases b <;> simp
      refine ⟨_, hu, ?_, ?_⟩
      · split
        · obtain ⟨o1, o2⟩ := scan_ordered (minLen := minLen) (len := size p q) hse (b := M.inside p) (pos := 0) (xs := xs)
            (List.pairwise_cons.mpr ⟨fun x hx => (hrange x hx).1, hord⟩)
            (by intro x hx; rcases List.mem_cons.mp hx with rfl | hx
                · norm_num
                · exact hrange x hx)
          exact ⟨fun x hx => ⟨(o1 x hx).1, (o1 x hx).2.1, (o1 x hx).2.2.1⟩, o2⟩
        · exact none_of _ rfl
      · intro u hu0 hu1
        rw [← ha2, ← hb2]
        by_cases hab : a = true ∧ b = true
        · rw [if_pos hab, scan_long hse hu0 hu1]
          simp [hab.1, hab.2]
        · rw [if_neg hab]
          constructor
          · rintro ⟨ab, hab', -⟩; simp at hab'
          · rintro ⟨g1, g2, -⟩; exact absurd ⟨g1, g2⟩ hab

/-- C108: a line is printed from its start to its end, up to 5 micron. Its bridges are printed as such, in order, to where they end, from at most 5
micron before where they start; no other move touches them. Other moves are made with the full flow, except that of a coasting move is none. Coasting moves
end where a bridge starts or where the line ends. -/
theorem C108_line (c : Cfg) (len : ℚ) (hl : 0 ≤ len) (rounds : Nat) (hn : len ≤ 1000 * rounds) (subs : List (ℚ × ℚ)) (ho : Ordered subs)
    (volume speed dist : ℚ) (h0 : 0 < speed) (h1 : speed ≤ 1) :
    ∃ (r : List Out × St), printLine c len rounds subs ⟨0, volume, speed, dist⟩ = some r ∧ Leads 0 r.1 r.2.cur ∧ len - 5 ≤ r.2.cur ∧ r.2.cur ≤ len ∧
      List.Forall₂ (Bridged c len) (r.1.filter fun o => o.kind = .bridge) subs ∧
      (∀ o ∈ r.1, o.kind ≠ .bridge → (∀ sub ∈ subs, o.b ≤ sub.1 * len ∨ sub.2 * len ≤ o.a) ∧ 0 < o.speed ∧ o.speed ≤ 1 ∧
        (o.kind = .plain → o.flow = c.flow) ∧ (o.kind = .coast → o.flow = 0 ∧ (o.b = len ∨ ∃ sub ∈ subs, o.b = sub.1 * len))) :=
  printLine_spec hl hn subs ho (st := ⟨0, volume, speed, dist⟩) (fun sub hs => mul_nonneg (ho.1 sub hs).1 hl) (le_refl _) hl h0 h1

/-- C108: coasting moves are at most 2.5 mm long, times the coasting setting, and 5 micron; and there are none if no bridge follows. -/
theorem C108_coast (c : Cfg) (hc : c.Ok) (len : ℚ) (rounds : Nat) (subs : List (ℚ × ℚ)) (volume speed dist : ℚ) (h0 : 0 < speed) (h1 : speed ≤ 1)
    (hv : 0 ≤ volume) (r : List Out × St) (hr : printLine c len rounds subs ⟨0, volume, speed, dist⟩ = some r) :
    (∀ o ∈ r.1, o.kind = .coast → o.b - o.a ≤ 2500 * c.coast + 5) ∧ (dist ≤ 0 → ∀ o ∈ r.1, o.kind ≠ .coast) :=
  ⟨printLine_coast hc subs hr h0 h1 hv, fun hd => printLine_away subs hr hd⟩

/-- C108: on the way to a bridge at full speed, a line that ends where the bridge starts is printed up to the coasting distance before it, and coasted from
there, or as a whole if it is not longer than that by 5 micron. -/
theorem C108_approach (c : Cfg) (d volume : ℚ) (hd : 5 < d) (rounds : Nat) (hr : 0 < rounds) (D : ℚ)
    (hD : D = min volume 100000 * (1 - c.ease) * c.coast / 40) :
    ∃ (st : St), (D ≤ 0 → nonBridge c d rounds ⟨0, volume, 1, d⟩ = some ([⟨.plain, 0, d, c.flow, 1⟩], st)) ∧
      (0 < D → D < d - 5 →
        nonBridge c d rounds ⟨0, volume, 1, d⟩ = some ([⟨.plain, 0, d - D, c.flow, 1⟩, ⟨.coast, d - D, d, 0, 1⟩], st)) ∧
      (0 < D → d - 5 ≤ D →
        nonBridge c d rounds ⟨0, volume, 1, d⟩ = some ([⟨.coast, 0, d, 0, 1⟩], st)) ∧ st.cur = d := by
  replace hD : D = coastDist c volume := hD
  subst hD
  obtain ⟨m, rfl⟩ : ∃ m, rounds = m + 1 := ⟨rounds - 1, by omega⟩
  have hend : segmentEnd c ⟨0, volume, 1, d⟩ d = d := by
    unfold segmentEnd
    split
    · rfl
    · simp
  have hflow : segmentFlow c ⟨0, volume, 1, d⟩ = c.flow := by
    unfold segmentFlow
    simp
  have hstep : nonBridge c d (m + 1) ⟨0, volume, 1, d⟩ = some (segmentMoves c ⟨0, volume, 1, d⟩ d, segmentNext c ⟨0, volume, 1, d⟩ d) := by
    unfold nonBridge
    rw [if_pos (by dsimp only; linarith)]
    dsimp only
    have : nonBridge c d m (segmentNext c ⟨0, volume, 1, d⟩ d) = some ([], segmentNext c ⟨0, volume, 1, d⟩ d) := by
      unfold nonBridge
      rw [if_neg]
      change ¬ 5 < d - segmentEnd c ⟨0, volume, 1, d⟩ d
      rw [hend]
      norm_num
    rw [this]
    simp
  refine ⟨segmentNext c ⟨0, volume, 1, d⟩ d, ?_, ?_, ?_, hend⟩
  · intro h
    rw [hstep]
    unfold segmentMoves
    dsimp only
    rw [hend, hflow, if_neg (by intro hx; linarith [hx.2.1])]
  · intro h h2
    rw [hstep]
    unfold segmentMoves
    dsimp only
    rw [hend, hflow, if_pos ⟨by linarith, h, by linarith⟩, if_pos (by linarith)]
  · intro h h2
    rw [hstep]
    unfold segmentMoves
    dsimp only
    rw [hend, if_pos ⟨by linarith, h, by linarith⟩, if_neg (by linarith)]

/-- C108: after a bridge a line is printed at the speed of the bridge, but at least half and at most the whole speed, and never slower than before; if no
bridge follows, it is at full speed after 6 mm. -/
theorem C108_speed (c : Cfg) (x e volume dist : ℚ) (hx : x ≤ e) (rounds : Nat) (r : List Out × St)
    (hr : nonBridge c e rounds ⟨x, volume, afterBridge c, dist⟩ = some r) :
    afterBridge c = max (1 / 2) (min 1 c.ratio) ∧ (∀ o ∈ r.1, afterBridge c ≤ o.speed ∧ o.speed ≤ 1) ∧ r.1.Pairwise (fun o o' => o.speed ≤ o'.speed) ∧
      (dist ≤ 0 → ∀ o ∈ r.1, x + 6000 ≤ o.a → o.speed = 1) := by
  obtain ⟨f1, f2⟩ := afterBridge_range c
  obtain ⟨-, -, -, -, i5, i6, -⟩ := nonBridge_spec _ hr hx (by dsimp only; linarith) f2
  refine ⟨?_, i5, i6, ?_⟩
  · unfold afterBridge
    rw [max_comm, min_comm]
  · intro hd o ho hoa
    refine nonBridge_ramp _ hr hd hx (by dsimp only; linarith) f2 6 (Or.inr ⟨by norm_num, ?_⟩) o ho (by push_cast; linarith)
    dsimp only
    have : (1 - afterBridge c) ≤ 1 / 2 := by linarith
    calc (1 - afterBridge c) * (3 / 4) ^ 6 ≤ 1 / 2 * (3 / 4) ^ 6 := by
          apply mul_le_mul_of_nonneg_right this
          positivity
      _ ≤ 1 / 10 := by norm_num

end Verif.Bridge
