import Verif.Scarf.Spec
import Verif.Spiral.FollowLemmas
import Mathlib.Tactic.Linarith
import Mathlib.Tactic.FieldSimp
import Mathlib.Tactic.Ring
import Mathlib.Tactic.Positivity

/-! # Lemmas on following a wall -/

namespace Verif.Scarf

open Verif.Order (Pt)
open Verif.Walls (Junction size)

theorem llrint_near (x : ℚ) : |(Simplify.llrint x : ℚ) - x| ≤ 1 / 2 := Spiral.llrint_near x

theorem llrint_int (n : Int) : Simplify.llrint (n : ℚ) = n := by
  unfold Simplify.llrint
  simp

theorem llrint_mono {x y : ℚ} (h : x ≤ y) : Simplify.llrint x ≤ Simplify.llrint y := by
  have hf : ⌊x⌋ ≤ ⌊y⌋ := Int.floor_mono h
  rcases hf.lt_or_eq with hf | hf
  · have h1 : Simplify.llrint x ≤ ⌊x⌋ + 1 := by unfold Simplify.llrint; split <;> [skip; split <;> [skip; split]] <;> omega
    have h2 : ⌊y⌋ ≤ Simplify.llrint y := by unfold Simplify.llrint; split <;> [skip; split <;> [skip; split]] <;> omega
    omega
  · unfold Simplify.llrint
    rw [← hf]
    have : x - ⌊x⌋ ≤ y - ⌊x⌋ := by linarith
    split
    · split <;> [skip; split <;> [skip; split]] <;> omega
    · split
      · rename_i h1 h2
        have h3 : ¬(y - ⌊x⌋ < 1 / 2) := by push Not at *; linarith
        have h4 : 1 / 2 < y - ⌊x⌋ := by linarith
        rw [if_neg h3, if_pos h4]
      · rename_i h1 h2
        have h3 : ¬(y - ⌊x⌋ < 1 / 2) := by push Not at *; linarith
        rw [if_neg h3]
        split_ifs <;> omega

theorem llrint_between {x : ℚ} {lo hi : Int} (h1 : (lo : ℚ) ≤ x) (h2 : x ≤ hi) : lo ≤ Simplify.llrint x ∧ Simplify.llrint x ≤ hi :=
  ⟨llrint_int lo ▸ llrint_mono h1, llrint_int hi ▸ llrint_mono h2⟩

theorem size_nonneg (p q : Pt) : 0 ≤ size p q := by unfold size; omega

theorem size_zero {p q : Pt} : size p q = 0 ↔ p = q := by
  unfold size Simplify.roundSqrt
  constructor
  · intro h
    have hs : Nat.sqrt (Walls.dist2 p q).toNat = 0 := by
      split at h <;> omega
    have h0 : (Walls.dist2 p q).toNat = 0 := by
      by_contra hn
      have : 1 ≤ Nat.sqrt (Walls.dist2 p q).toNat := by rw [Nat.le_sqrt]; omega
      omega
    unfold Walls.dist2 at h0
    have hx := mul_self_nonneg (p.x - q.x)
    have hy := mul_self_nonneg (p.y - q.y)
    have hx0 : (p.x - q.x) * (p.x - q.x) = 0 := by omega
    have hy0 : (p.y - q.y) * (p.y - q.y) = 0 := by omega
    have h1 : p.x - q.x = 0 := mul_self_eq_zero.mp hx0
    have h2 : p.y - q.y = 0 := mul_self_eq_zero.mp hy0
    cases p; cases q
    simp only [Order.Pt.mk.injEq] at *
    omega
  · rintro rfl
    unfold Walls.dist2
    simp

theorem lerpPt_one (a b : Pt) : lerpPt a b 1 = b := by
  unfold lerpPt lerp
  have h1 : (a.x : ℚ) + 1 * (b.x - a.x) = (b.x : Int) := by ring
  have h2 : (a.y : ℚ) + 1 * (b.y - a.y) = (b.y : Int) := by ring
  rw [h1, h2, llrint_int, llrint_int]

/-! ## Pieces -/

theorem pieces_pos (c : Cfg) (a b : Junction) : 1 ≤ pieces c a b := by unfold pieces; exact le_max_left _ _

theorem pieces_le (c : Cfg) (hc : Sane c) (a b : Junction) : pieces c a b = 1 ∨ (pieces c a b : Int) * c.resolution ≤ size b.p a.p := by
  unfold pieces
  dsimp only
  have hr := hc.resolution
  have hl := size_nonneg b.p a.p
  set d := ((|b.w - a.w| * size b.p a.p / 4 + c.areaDeviation - 1) / c.areaDeviation).toNat
  have h0 : 0 ≤ size b.p a.p / c.resolution := Int.ediv_nonneg hl (by omega)
  by_cases h : 1 ≤ min d (size b.p a.p / c.resolution).toNat
  · right
    rw [max_eq_right h]
    have h1 : ((min d (size b.p a.p / c.resolution).toNat : Nat) : Int) ≤ size b.p a.p / c.resolution := by omega
    calc _ ≤ size b.p a.p / c.resolution * c.resolution := by
          apply Int.mul_le_mul_of_nonneg_right h1; omega
      _ ≤ _ := Int.ediv_mul_le _ (by omega)
  · left; omega

theorem pieces_same {c : Cfg} (hc : Sane c) {a b : Junction} (h : a.w = b.w) : pieces c a b = 1 := by
  unfold pieces
  dsimp only
  rw [h]
  have : ((|b.w - b.w| * size b.p a.p / 4 + c.areaDeviation - 1) / c.areaDeviation) = 0 := by
    rw [sub_self, abs_zero, zero_mul]
    have := hc.deviation
    apply Int.ediv_eq_zero_of_lt <;> omega
  rw [this]
  simp

theorem pieceLength_one {c : Cfg} {a b : Junction} (h : pieces c a b = 1) : pieceLength c a b = size b.p a.p := by
  unfold pieceLength
  rw [h]
  simp

/-- The pieces are together at most half a unit per piece longer or shorter than the line. -/
theorem pieceLength_sum (c : Cfg) (a b : Junction) :
    2 * |(pieces c a b : Int) * pieceLength c a b - size b.p a.p| ≤ pieces c a b := by
  unfold pieceLength
  have hp := pieces_pos c a b
  set n : Nat := pieces c a b
  have hl := size_nonneg b.p a.p
  set L := size b.p a.p
  have h1 := Int.mul_ediv_add_emod (L + (n / 2 : Nat)) n
  have h2 := Int.emod_nonneg (L + (n / 2 : Nat)) (show (n : Int) ≠ 0 by omega)
  have h3 := Int.emod_lt_of_pos (L + (n / 2 : Nat)) (show (0 : Int) < n by omega)
  set m := (n : Int) * ((L + (n / 2 : Nat)) / n)
  rw [show (2 : Int) * |m - L| = |2 * (m - L)| by rw [abs_mul]; rfl, abs_le]
  omega

theorem pieceLength_pos {c : Cfg} (hc : Sane c) {a b : Junction} (h : a.p ≠ b.p) : 1 ≤ pieceLength c a b := by
  have hl : 1 ≤ size b.p a.p := by
    have h1 := size_nonneg b.p a.p
    have h2 : size b.p a.p ≠ 0 := fun h0 => h (size_zero.mp h0).symm
    omega
  rcases pieces_le c hc a b with h1 | h1
  · rw [pieceLength_one h1]; exact hl
  · unfold pieceLength
    have hp := pieces_pos c a b
    have hr := hc.resolution
    have h2 : (pieces c a b : Int) ≤ size b.p a.p := by
      calc (pieces c a b : Int) = pieces c a b * 1 := by ring
        _ ≤ pieces c a b * c.resolution := by apply Int.mul_le_mul_of_nonneg_left hr; omega
        _ ≤ _ := h1
    rw [Int.le_ediv_iff_mul_le (by omega)]
    omega

theorem pieceLength_zero {c : Cfg} (hc : Sane c) {a b : Junction} (h : a.p = b.p) : pieceLength c a b = 0 := by
  have hl : size b.p a.p = 0 := size_zero.mpr h.symm
  have h1 : pieces c a b = 1 := by
    rcases pieces_le c hc a b with h1 | h1
    · exact h1
    · have hp := pieces_pos c a b
      have hr := hc.resolution
      have : (1 : Int) * 1 ≤ pieces c a b * c.resolution := by
        apply Int.mul_le_mul <;> omega
      omega
  rw [pieceLength_one h1, hl]

theorem lineWidth_between (a b : Junction) {n piece : Nat} (h : piece < n) :
    min a.w b.w ≤ lineWidth a b n piece ∧ lineWidth a b n piece ≤ max a.w b.w := by
  unfold lineWidth
  have hn : (0 : ℚ) < n := by exact_mod_cast (by omega : 0 < n)
  have h0 : 0 ≤ ((piece : ℚ) + 1 / 2) / n := by positivity
  have h1 : ((piece : ℚ) + 1 / 2) / n ≤ 1 := by
    rw [div_le_one hn]
    have : ((piece + 1 : Nat) : ℚ) ≤ n := by exact_mod_cast h
    push_cast at this
    linarith
  set t := ((piece : ℚ) + 1 / 2) / n
  apply llrint_between
  · rcases le_total a.w b.w with h | h
    · rw [min_eq_left h]
      have : (a.w : ℚ) ≤ b.w := by exact_mod_cast h
      push_cast
      nlinarith
    · rw [min_eq_right h]
      have : (b.w : ℚ) ≤ a.w := by exact_mod_cast h
      push_cast
      nlinarith
  · rcases le_total a.w b.w with h | h
    · rw [max_eq_right h]
      have : (a.w : ℚ) ≤ b.w := by exact_mod_cast h
      push_cast
      nlinarith
    · rw [max_eq_left h]
      have : (b.w : ℚ) ≤ a.w := by exact_mod_cast h
      push_cast
      nlinarith

/-! ## Where parts end -/

theorem stop_bounds {c : Cfg} (hc : Sane c) {done remaining : Int} (hr : 0 < remaining) :
    done < stop c done remaining ∧ stop c done remaining ≤ done + remaining := by
  have h1 := hc.scarfSplit
  have h2 := hc.speedSplit
  unfold stop
  dsimp only
  constructor
  · by_cases e1 : done < c.scarf <;> by_cases e2 : (!c.closure && decide (done < c.accelerate)) = true <;>
      by_cases e3 : (!c.closure && decide (0 < c.decelerate)) = true <;> by_cases e4 : c.wallLength - c.decelerate ≤ done <;>
      simp only [e1, e2, e3, e4, if_true, if_false, Bool.false_eq_true] <;>
      simp only [Bool.and_eq_true, decide_eq_true_eq] at e2 e3 <;> omega
  · by_cases e1 : done < c.scarf <;> by_cases e2 : (!c.closure && decide (done < c.accelerate)) = true <;>
      by_cases e3 : (!c.closure && decide (0 < c.decelerate)) = true <;> by_cases e4 : c.wallLength - c.decelerate ≤ done <;>
      simp only [e1, e2, e3, e4, if_true, if_false, Bool.false_eq_true] <;> omega

theorem stop_scarf {c : Cfg} {done remaining : Int} (h : done < c.scarf) :
    stop c done remaining ≤ c.scarf ∧ stop c done remaining ≤ done + c.scarfSplit := by
  unfold stop
  dsimp only
  rw [if_pos h]
  split_ifs <;> omega

theorem stop_accelerate {c : Cfg} {done remaining : Int} (hn : c.closure = false) (h : done < c.accelerate) :
    stop c done remaining ≤ c.accelerate ∧ stop c done remaining ≤ done + c.speedSplit := by
  unfold stop
  dsimp only
  rw [if_pos (c := (!c.closure && decide (done < c.accelerate)) = true) (by simp [hn, h])]
  split <;> [split; skip] <;> omega

theorem stop_decelerate {c : Cfg} {done remaining : Int} (hn : c.closure = false) (h : 0 < c.decelerate) :
    (done < c.wallLength - c.decelerate → stop c done remaining ≤ c.wallLength - c.decelerate) ∧
    (c.wallLength - c.decelerate ≤ done → stop c done remaining ≤ done + c.speedSplit) := by
  unfold stop
  dsimp only
  rw [if_pos (c := (!c.closure && decide (0 < c.decelerate)) = true) (by simp [hn, h])]
  constructor
  · intro h; rw [if_neg (by omega)]; omega
  · intro h; rw [if_pos h]; omega

/-! ## The loops -/

/-- One round of the innermost loop. -/
def Step (c : Cfg) (st : St) (s : Seg) (st' : St) : Prop :=
  ∃ index a b width sofar remaining, 0 < remaining ∧ st.keep = true ∧ sub c index a b width sofar remaining st = (s, st')

/-- Rounds of the innermost loop. -/
inductive Trace (c : Cfg) : St → List Seg → St → Prop where
  | nil (st : St) : Trace c st [] st
  | cons {st s st' l st''} : Step c st s st' → Trace c st' l st'' → Trace c st (s :: l) st''

theorem Trace.append {c : Cfg} {st st' st'' : St} {l l' : List Seg} (h : Trace c st l st') (h' : Trace c st' l' st'') : Trace c st (l ++ l') st'' := by
  induction h with
  | nil => exact h'
  | cons hs _ ih => exact .cons hs (ih h')

/-- The parts of the line from `a` to `b` between two distances from `a`. -/
inductive Runs (index : Nat) (a b : Junction) (widths : Int → Prop) : Int → List Seg → Int → Prop where
  | nil (x : Int) : Runs index a b widths x [] x
  | cons {x y z : Int} {s : Seg} {l : List Seg} : x < y → s.r0 = (x : ℚ) / size b.p a.p → s.r1 = (y : ℚ) / size b.p a.p →
      (⟨s.b.x, s.b.y⟩ : Pt) = lerpPt a.p b.p s.r1 → s.d1 - s.d0 = y - x → s.index = index → widths s.width →
      Runs index a b widths y l z → Runs index a b widths x (s :: l) z

theorem Runs.append {index : Nat} {a b : Junction} {W : Int → Prop} {x y z : Int} {l l' : List Seg} (h : Runs index a b W x l y)
    (h' : Runs index a b W y l' z) : Runs index a b W x (l ++ l') z := by
  induction h with
  | nil => exact h'
  | cons h1 h2 h3 h4 h5 h6 h7 _ ih => exact .cons h1 h2 h3 h4 h5 h6 h7 (ih h')

theorem Runs.mono {index : Nat} {a b : Junction} {W W' : Int → Prop} (hW : ∀ w, W w → W' w) {x y : Int} {l : List Seg} (h : Runs index a b W x l y) :
    Runs index a b W' x l y := by
  induction h with
  | nil => exact .nil _
  | cons h1 h2 h3 h4 h5 h6 h7 _ ih => exact .cons h1 h2 h3 h4 h5 h6 (hW _ h7) ih

theorem Runs.le {index : Nat} {a b : Junction} {W : Int → Prop} {x y : Int} {l : List Seg} (h : Runs index a b W x l y) : x ≤ y := by
  induction h with
  | nil => exact le_refl _
  | cons h1 _ _ _ _ _ _ _ ih => omega

/-- The state stays sane: when it is the closure, going on means that the scarf has not been covered, and it is not gone beyond. -/
def Ok (c : Cfg) (st : St) : Prop := if c.closure then (st.keep = true ↔ st.done < c.scarf) ∧ st.done ≤ c.scarf else st.keep = true

theorem sub_ok {c : Cfg} {index : Nat} {a b : Junction} {width sofar remaining : Int} {st : St} (hok : Ok c st) (hk : st.keep = true) :
    Ok c (sub c index a b width sofar remaining st).2 := by
  unfold Ok sub at *
  dsimp only
  cases hcl : c.closure
  · rw [hcl] at hok; simpa using hok
  · rw [hcl] at hok
    simp only [if_true, decide_eq_true_eq] at *
    exact ⟨trivial, (stop_scarf (hok.1.mp hk)).1⟩

theorem cut_spec {c : Cfg} (hc : Sane c) (index : Nat) (a b : Junction) (width : Int) (n : Nat) {sofar remaining : Int} {st : St}
    (hr : 0 ≤ remaining) (hn : remaining ≤ n) (hok : Ok c st) :
    ∃ segs e st', cut c index a b width n sofar remaining st = some (segs, e, st') ∧ Trace c st segs st' ∧
      Runs index a b (fun w => w = width) sofar segs e ∧ Ok c st' ∧ st'.done - st.done = e - sofar ∧ e ≤ sofar + remaining ∧
      (st'.keep = true → e = sofar + remaining) := by
  induction n generalizing sofar remaining st with
  | zero =>
    refine ⟨[], sofar, st, ?_, .nil _, .nil _, hok, by omega, by omega, fun _ => by omega⟩
    unfold cut
    rw [if_neg (by omega)]
  | succ n ih =>
    unfold cut
    by_cases hgo : 0 < remaining ∧ st.keep = true
    · rw [if_pos hgo]
      dsimp only
      have hb := stop_bounds hc (done := st.done) hgo.1
      set r := sub c index a b width sofar remaining st with hrdef
      have hd : r.2.done = stop c st.done remaining := rfl
      obtain ⟨segs, e, st', h1, h2, h3, h4, h5, h6, h7⟩ := ih (sofar := sofar + (r.2.done - st.done)) (remaining := remaining - (r.2.done - st.done))
        (st := r.2) (by omega) (by omega) (sub_ok hok hgo.2)
      rw [h1]
      refine ⟨r.1 :: segs, e, st', rfl, .cons ⟨index, a, b, width, sofar, remaining, hgo.1, hgo.2, rfl⟩ h2, ?_, h4, by omega, by omega, fun hk => ?_⟩
      · exact .cons (y := sofar + (r.2.done - st.done)) (by omega) rfl rfl rfl
          (show r.2.done - st.done = sofar + (r.2.done - st.done) - sofar by omega) rfl rfl h3
      · have := h7 hk; omega
    · rw [if_neg hgo]
      refine ⟨[], sofar, st, rfl, .nil _, .nil _, hok, by omega, by omega, fun hk => ?_⟩
      have : ¬0 < remaining := fun h => hgo ⟨h, hk⟩
      omega

theorem cutAll_spec {c : Cfg} (hc : Sane c) (index : Nat) (a b : Junction) (n left : Nat) {piece : Nat} {sofar : Int} {st : St}
    (hn : piece + left = n) (hok : Ok c st) :
    ∃ segs e st', cutAll c index a b n left piece sofar st = some (segs, st') ∧ Trace c st segs st' ∧
      Runs index a b (fun w => min a.w b.w ≤ w ∧ w ≤ max a.w b.w) sofar segs e ∧ Ok c st' ∧ st'.done - st.done = e - sofar ∧
      e ≤ sofar + left * pieceLength c a b ∧ (st'.keep = true → e = sofar + left * pieceLength c a b) := by
  have hp0 : 0 ≤ pieceLength c a b := by
    by_cases h : a.p = b.p
    · rw [pieceLength_zero hc h]
    · have := pieceLength_pos hc h; omega
  induction left generalizing piece sofar st with
  | zero => exact ⟨[], sofar, st, rfl, .nil _, .nil _, hok, by omega, by simp, fun _ => by simp⟩
  | succ left ih =>
    unfold cutAll
    by_cases hk : st.keep = true
    · rw [if_pos hk]
      obtain ⟨segs, e, st', h1, h2, h3, h4, h5, h6, h7⟩ := cut_spec hc index a b (lineWidth a b n piece) (pieceLength c a b).toNat
        (sofar := sofar) (remaining := pieceLength c a b) (st := st) hp0 (by omega) hok
      obtain ⟨segs', e', st'', g1, g2, g3, g4, g5, g6, g7⟩ := ih (piece := piece + 1) (sofar := e) (st := st') (by omega) h4
      rw [h1]
      dsimp only [Option.bind_some]
      rw [g1]
      refine ⟨segs ++ segs', e', st'', rfl, h2.append g2, (h3.mono ?_).append g3, g4, by omega, ?_, fun hk' => ?_⟩
      · rintro w rfl; exact lineWidth_between a b (by omega)
      · push_cast; nlinarith
      · by_cases hk1 : st'.keep = true
        · have := h7 hk1; have := g7 hk'; push_cast; linarith
        · exfalso
          -- nothing is done after stopping
          have : cutAll c index a b n left (piece + 1) e st' = some ([], st') := by
            cases left with
            | zero => rfl
            | succ left => unfold cutAll; rw [if_neg hk1]
          rw [this] at g1
          simp only [Option.some.injEq, Prod.mk.injEq] at g1
          exact hk1 (g1.2 ▸ hk')
    · rw [if_neg hk]
      refine ⟨[], sofar, st, rfl, .nil _, .nil _, hok, by omega, ?_, fun h => absurd h hk⟩
      have : 0 ≤ ((left + 1 : Nat) : Int) * pieceLength c a b := by positivity
      omega

/-! ## What the parts cover -/

theorem Runs.covers {index : Nat} {a b : Junction} {e : Int} {segs : List Seg}
    (h : Runs index a b (fun w => min a.w b.w ≤ w ∧ w ≤ max a.w b.w) 0 segs e) (h0 : a.p = b.p → e = 0) (h1 : a.p ≠ b.p → 0 < e) :
    Covers a b ((e : ℚ) / size b.p a.p) segs ∧ ∀ s ∈ segs, s.index = index := by
  have hL : a.p ≠ b.p → (0 : ℚ) < size b.p a.p := by
    intro hne
    have h1 := size_nonneg b.p a.p
    have h2 : size b.p a.p ≠ 0 := fun h0 => hne (size_zero.mp h0).symm
    exact_mod_cast (by omega : 0 < size b.p a.p)
  have key : ∀ {x : Int} {l : List Seg}, Runs index a b (fun w => min a.w b.w ≤ w ∧ w ≤ max a.w b.w) x l e →
      (∀ s, l.head? = .some s → s.r0 = (x : ℚ) / size b.p a.p) ∧ (l.IsChain fun s t => t.r0 = s.r1) ∧
      (∀ s, l.getLast? = .some s → s.r1 = (e : ℚ) / size b.p a.p) ∧
      (∀ s ∈ l, ∃ x y : Int, x < y ∧ y ≤ e ∧ s.r0 = (x : ℚ) / size b.p a.p ∧ s.r1 = (y : ℚ) / size b.p a.p ∧
        (⟨s.b.x, s.b.y⟩ : Pt) = lerpPt a.p b.p s.r1 ∧ s.d1 - s.d0 = y - x ∧ s.index = index ∧ min a.w b.w ≤ s.width ∧ s.width ≤ max a.w b.w) ∧
      (l = [] → x = e) := by
    clear h h0 h1
    intro x l h
    induction h with
    | nil => exact ⟨by simp, .nil, by simp, by simp, fun _ => rfl⟩
    | cons g1 g2 g3 g4 g5 g6 g7 g8 ih =>
      rename_i x y z s l
      obtain ⟨i1, i2, i3, i4, i5⟩ := ih
      have hyz := g8.le
      refine ⟨?_, ?_, ?_, ?_, by simp⟩
      · intro t ht; simp at ht; rw [← ht, g2]
      · rw [List.isChain_cons]
        exact ⟨fun t ht => by rw [i1 t ht, g3], i2⟩
      · intro t ht
        cases l with
        | nil =>
          simp at ht
          rw [← ht, g3, i5 rfl]
        | cons u l => rw [List.getLast?_cons_cons] at ht; exact i3 t ht
      · intro t ht
        rcases List.mem_cons.mp ht with rfl | ht
        · exact ⟨x, y, g1, hyz, g2, g3, g4, g5, g6, g7⟩
        · exact i4 t ht
  obtain ⟨k1, k2, k3, k4, k5⟩ := key h
  by_cases hab : a.p = b.p
  · have hnil : segs = [] := by
      cases segs with
      | nil => rfl
      | cons s l =>
        exfalso
        cases h with
        | cons g1 _ _ _ _ _ _ g8 =>
          have := g8.le
          have := h0 hab
          omega
    subst hnil
    refine ⟨⟨fun h => absurd hab h, fun _ => rfl, by simp, .nil, by simp, by simp, by simp, by simp, by simp, by simp⟩, by simp⟩
  · have hL := hL hab
    refine ⟨⟨fun _ hn => ?_, fun h => absurd h hab, ?_, k2, k3, ?_, ?_, ?_, ?_, ?_⟩, ?_⟩
    · have := k5 hn
      have := h1 hab
      omega
    · intro s hs; rw [k1 s hs]; simp
    · intro s hs
      obtain ⟨x, y, hxy, -, h2, h3, -⟩ := k4 s hs
      rw [h2, h3, div_lt_div_iff_of_pos_right hL]
      exact_mod_cast hxy
    · intro s hs
      obtain ⟨x, y, hxy, -, h2, h3, h4, -⟩ := k4 s hs
      have e1 : s.b.x = (lerpPt a.p b.p s.r1).x := congrArg Pt.x h4
      have e2 : s.b.y = (lerpPt a.p b.p s.r1).y := congrArg Pt.y h4
      rw [e1, e2]
      unfold lerpPt lerp
      exact ⟨llrint_near _, llrint_near _⟩
    · intro he s hs
      obtain ⟨x, y, hxy, -, h2, h3, h4, -⟩ := k4 s (List.mem_of_getLast? hs)
      rw [k3 s hs, he, lerpPt_one] at h4
      exact ⟨congrArg Pt.x h4, congrArg Pt.y h4⟩
    · intro s hs
      obtain ⟨x, y, hxy, -, h2, h3, h4, -, -, h5⟩ := k4 s hs
      exact h5
    · intro s hs
      obtain ⟨x, y, hxy, -, h2, h3, h4, h5, -⟩ := k4 s hs
      rw [h2, h3, h5]
      push_cast
      field_simp
    · intro s hs
      obtain ⟨x, y, hxy, -, h2, h3, h4, h5, h6, -⟩ := k4 s hs
      exact h6

end Verif.Scarf
