import Verif.Adaptive.Spec
import Mathlib.Tactic.Linarith
import Mathlib.Tactic.Ring
import Mathlib.Data.List.Basic

/-! # Lemmas about the adaptive layers -/

namespace Verif.Adaptive

variable {cfg : Cfg}

/-! ### The allowed heights -/

theorem allowed_mono {lo step : Int} {n : Nat} {h : Int} {l : List Int}
    (e : allowedFrom lo step n h = .ok l) {m : Nat} (hm : n ≤ m) : allowedFrom lo step m h = .ok l := by
  induction n generalizing h l m with
  | zero => rw [allowedFrom] at e; cases e
  | succ n ih =>
    obtain ⟨m, rfl⟩ : ∃ m', m = m' + 1 := ⟨m - 1, by omega⟩
    rw [allowedFrom] at e ⊢
    by_cases h1 : h ≥ lo
    · rw [if_pos h1] at e ⊢
      by_cases h2 : h ≤ 0
      · rw [if_pos h2] at e ⊢; exact e
      · rw [if_neg h2] at e ⊢
        cases hr : allowedFrom lo step n (h - step) with
        | ub => rw [hr] at e; cases e
        | diverge => rw [hr] at e; cases e
        | ok r =>
          rw [hr] at e
          rw [ih hr (by omega)]
          exact e
    · rw [if_neg h1] at e ⊢; exact e

theorem allowed_ok {lo step : Int} (hs : 0 < step) {n : Nat} {h : Int} (hn : (h - lo + 1).toNat < n) :
    ∃ l, allowedFrom lo step n h = .ok l ∧ l.Pairwise (· > ·) ∧
      ∀ x, x ∈ l ↔ (∃ k : Nat, x = h - k * step) ∧ lo ≤ x ∧ 0 < x := by
  have below : ∀ {x h : Int} {k : Nat}, x = h - k * step → x ≤ h := by
    intro x h k e
    have : 0 ≤ (k : Int) * step := mul_nonneg (by positivity) hs.le
    omega
  induction n generalizing h with
  | zero => omega
  | succ n ih =>
    rw [allowedFrom]
    by_cases h1 : h ≥ lo
    · rw [if_pos h1]
      by_cases h2 : h ≤ 0
      · rw [if_pos h2]
        refine ⟨[], rfl, .nil, fun x => ?_⟩
        simp only [List.not_mem_nil, false_iff, not_and, not_lt]
        rintro ⟨k, hk⟩ _
        exact (below hk).trans h2
      · rw [if_neg h2]
        obtain ⟨l, e, hp, hm⟩ := ih (h := h - step) (by omega)
        rw [e]
        refine ⟨h :: l, rfl, ?_, ?_⟩
        · rw [List.pairwise_cons]
          refine ⟨fun x hx => ?_, hp⟩
          obtain ⟨⟨k, hk⟩, -⟩ := (hm x).1 hx
          have := below hk
          omega
        · intro x
          rw [List.mem_cons, hm]
          constructor
          · rintro (rfl | ⟨⟨k, hk⟩, h3⟩)
            · exact ⟨⟨0, by simp⟩, h1, by omega⟩
            · refine ⟨⟨k + 1, ?_⟩, h3⟩
              rw [hk]; push_cast; ring
          · rintro ⟨⟨k, hk⟩, h3⟩
            cases k with
            | zero => left; simpa using hk
            | succ k =>
              right
              refine ⟨⟨k, ?_⟩, h3⟩
              rw [hk]; push_cast; ring
    · rw [if_neg h1]
      refine ⟨[], rfl, .nil, fun x => ?_⟩
      simp only [List.not_mem_nil, false_iff, not_and]
      rintro ⟨k, hk⟩ h3
      have := below hk
      omega

/-! ### The faces of interest -/

theorem upper_eq {z h : Int} (hh : 0 < h) : upper cfg z h = top cfg z h := by
  unfold upper top
  split_ifs
  · rw [Int.tdiv_eq_ediv_of_nonneg hh.le]
  · rfl

theorem top_mono {z h h' : Int} (hh : h ≤ h') : top cfg z h ≤ top cfg z h' := by
  unfold top
  split_ifs <;> omega

/-- The faces that touch a layer, as a list. -/
def touching (cfg : Cfg) (z h : Int) : List Face :=
  cfg.faces.filter (fun f => decide (f.minZ ≤ top cfg z h ∧ f.maxZ ≥ z))

theorem mem_touching {z h : Int} {f : Face} : f ∈ touching cfg z h ↔ Touches cfg z h f := by
  unfold touching Touches
  simp [List.mem_filter]

theorem touching_empty {z h : Int} : touching cfg z h = [] ↔ ¬ ∃ f, Touches cfg z h f := by
  rw [List.eq_nil_iff_forall_not_mem]
  simp only [mem_touching, not_exists]

theorem interesting_next {z h h' first : Int} (hh : 0 < h) (hlt : h ≤ h') (hf : h ≠ first) :
    interesting cfg z h first (touching cfg z h') = touching cfg z h := by
  unfold interesting
  rw [if_neg hf, upper_eq hh]
  unfold touching
  rw [List.filter_filter]
  apply List.filter_congr
  intro f _
  have := top_mono (cfg := cfg) (z := z) hlt
  rw [← Bool.decide_and]
  apply decide_eq_decide.2
  constructor
  · rintro ⟨h1, h2, h3⟩; exact ⟨h1, h3⟩
  · rintro ⟨h1, h2⟩; exact ⟨h1, h1.trans this, h2⟩

theorem interesting_first {z h : Int} {last : List Face} (hh : 0 < h) :
    interesting cfg z h h last = touching cfg z h := by
  unfold interesting touching
  rw [if_pos rfl, upper_eq hh]

theorem minSlope_fold (fs : List Face) (m : ℚ) :
    let r := fs.foldl (fun m f => if m > f.slope then f.slope else m) m
    r ≤ m ∧ (∀ f ∈ fs, r ≤ f.slope) ∧ (r = m ∨ ∃ f ∈ fs, f.slope = r) := by
  induction fs generalizing m with
  | nil => simp
  | cons f fs ih =>
    rw [List.foldl_cons]
    obtain ⟨h1, h2, h3⟩ := ih (if m > f.slope then f.slope else m)
    by_cases hc : m > f.slope
    · rw [if_pos hc] at h1 h2 h3 ⊢
      refine ⟨h1.trans hc.le, ?_, ?_⟩
      · intro g hg
        rcases List.mem_cons.1 hg with rfl | hg
        · exact h1
        · exact h2 g hg
      · right
        rcases h3 with h3 | ⟨g, hg, h3⟩
        · exact ⟨f, by simp, h3.symm⟩
        · exact ⟨g, by simp [hg], h3⟩
    · rw [if_neg hc] at h1 h2 h3 ⊢
      refine ⟨h1, ?_, ?_⟩
      · intro g hg
        rcases List.mem_cons.1 hg with rfl | hg
        · exact h1.trans (not_lt.1 hc)
        · exact h2 g hg
      · rcases h3 with h3 | ⟨g, hg, h3⟩
        · exact .inl h3
        · exact .inr ⟨g, by simp [hg], h3⟩

theorem minSlope_spec {fs : List Face} (hne : fs ≠ []) (hb : ∀ f ∈ fs, f.slope ≤ DBL_MAX) :
    ∃ f ∈ fs, f.slope = minSlope fs ∧ ∀ g ∈ fs, f.slope ≤ g.slope := by
  obtain ⟨h1, h2, h3⟩ := minSlope_fold fs DBL_MAX
  change minSlope fs ≤ _ at h1
  change ∀ f ∈ fs, minSlope fs ≤ f.slope at h2
  change minSlope fs = DBL_MAX ∨ ∃ f ∈ fs, f.slope = minSlope fs at h3
  rcases h3 with h3 | ⟨f, hf, h3⟩
  · obtain ⟨f, hf⟩ := List.exists_mem_of_ne_nil _ hne
    have : f.slope = minSlope fs := le_antisymm (by rw [h3]; exact hb f hf) (h2 f hf)
    exact ⟨f, hf, this, fun g hg => by rw [this]; exact h2 g hg⟩
  · exact ⟨f, hf, h3, fun g hg => by rw [h3]; exact h2 g hg⟩

theorem shallow_iff (hs : cfg.Sane) {z h : Int} (hne : touching cfg z h ≠ []) :
    shallow cfg h (minSlope (touching cfg z h)) = true ↔ Fine cfg z h := by
  obtain ⟨f, hf, h1, h2⟩ := minSlope_spec hne (fun f hf => hs.slopes f (mem_touching.1 hf).1)
  unfold shallow Fine
  rw [← h1, Bool.or_eq_true, decide_eq_true_eq, decide_eq_true_eq]
  constructor
  · intro h
    exact ⟨f, mem_touching.1 hf, fun g hg => h2 g (mem_touching.2 hg), h⟩
  · rintro ⟨g, hg, hg2, h⟩
    have : g.slope = f.slope := le_antisymm (hg2 f (mem_touching.1 hf)) (h2 g (mem_touching.2 hg))
    rw [this] at h
    exact h

/-! ### The choice of a height -/

/-- The choice made for a list of heights from thick to thin: the first suitable one. -/
def Chosen (cfg : Cfg) (z prev : Int) (hs : List Int) : Option Int → Prop
  | some h => h ∈ hs ∧ Suitable cfg z prev h ∧ ∀ h' ∈ hs, Suitable cfg z prev h' → h' ≤ h
  | none => ∀ h' ∈ hs, ¬ Suitable cfg z prev h'

theorem scan_from (hsane : cfg.Sane) {thin first z prev : Int} (hthin : Thinnest cfg thin) :
    ∀ (hs : List Int) (last : List Face), hs.Pairwise (· > ·) → (∀ h ∈ hs, Allowed cfg h) →
      (∀ h ∈ hs.head?, interesting cfg z h first last = touching cfg z h) →
      (∀ h ∈ hs.tail, h ≠ first) →
      Chosen cfg z prev hs (scan cfg thin first z prev hs last) := by
  intro hs
  induction hs with
  | nil => intro last _ _ _ _; rw [scan]; intro h' h; simp at h
  | cons h hs ih =>
    intro last hp hal hint hnf
    have hi : interesting cfg z h first last = touching cfg z h := hint h (by simp)
    have hpos : 0 < h := (hal h (by simp)).2.2
    obtain ⟨hp1, hp2⟩ := List.pairwise_cons.1 hp
    have hthin' : ∀ x, Allowed cfg x → (Thinnest cfg x ↔ x = thin) := by
      intro x hx
      constructor
      · intro ht; exact le_antisymm (ht.2 thin hthin.1) (hthin.2 x hx)
      · rintro rfl; exact hthin
    have hah := hal h (by simp)
    have rest : Chosen cfg z prev hs (scan cfg thin first z prev hs (touching cfg z h)) := by
      apply ih _ hp2 (fun x hx => hal x (by simp [hx]))
      · intro x hx
        have hx' : x ∈ hs := List.mem_of_mem_head? hx
        exact interesting_next (hal x (by simp [hx'])).2.2 (hp1 x hx').le (hnf x (by simpa using hx'))
      · intro x hx
        exact hnf x (by simpa using List.mem_of_mem_tail hx)
    rw [scan, hi]
    by_cases he : touching cfg z h = []
    · rw [if_pos he]
      rw [touching_empty] at he
      intro x hx hsu
      have hle : x ≤ h := by
        rcases List.mem_cons.1 hx with rfl | hx
        · exact le_rfl
        · exact (hp1 x hx).le
      obtain ⟨f, h1, h2, h3⟩ := hsu.1
      exact he ⟨f, h1, h2.trans (top_mono hle), h3⟩
    · rw [if_neg he]
      have hex : ∃ f, Touches cfg z h f := by
        by_contra hc
        exact he (touching_empty.2 hc)
      have hfine := shallow_iff hsane he
      have skip : ¬ Suitable cfg z prev h →
          Chosen cfg z prev (h :: hs) (scan cfg thin first z prev hs (touching cfg z h)) := by
        intro hns
        cases hsc : scan cfg thin first z prev hs (touching cfg z h) with
        | none =>
          rw [hsc] at rest
          intro x hx
          rcases List.mem_cons.1 hx with rfl | hx
          · exact hns
          · exact rest x hx
        | some y =>
          rw [hsc] at rest
          obtain ⟨r1, r2, r3⟩ := rest
          refine ⟨by simp [r1], r2, ?_⟩
          intro x hx hsu
          rcases List.mem_cons.1 hx with rfl | hx
          · exact absurd hsu hns
          · exact r3 x hx hsu
      by_cases hc : ¬ (prev > h ∧ prev - h > cfg.step) ∧ h - prev > cfg.step ∧ h > thin
      · rw [if_pos hc]
        apply skip
        rintro ⟨-, -, h3⟩
        rcases h3 with h3 | h3
        · omega
        · rw [hthin' h hah] at h3; omega
      · rw [if_neg hc]
        have hst := hsane.step
        by_cases hd : shallow cfg h (minSlope (touching cfg z h)) = true ∨ h = thin ∨
            (prev > h ∧ prev - h > cfg.step)
        · rw [if_pos hd]
          refine ⟨by simp, ⟨hex, ?_, ?_⟩, ?_⟩
          · rw [hfine] at hd
            rcases hd with hd | hd | hd
            · exact .inl hd
            · exact .inr (.inl ((hthin' h hah).2 hd))
            · exact .inr (.inr hd.2)
          · by_cases h1 : h = thin
            · exact .inr ((hthin' h hah).2 h1)
            · left
              have := hthin.2 h hah
              omega
          · intro x hx _
            rcases List.mem_cons.1 hx with rfl | hx
            · exact le_rfl
            · exact (hp1 x hx).le
        · rw [if_neg hd]
          apply skip
          rintro ⟨-, h2, -⟩
          apply hd
          rcases h2 with h2 | h2 | h2
          · exact .inl (hfine.2 h2)
          · exact .inr (.inl ((hthin' h hah).1 h2))
          · exact .inr (.inr ⟨by omega, h2⟩)

theorem scan_next (hsane : cfg.Sane) {thin first z prev : Int} (hthin : Thinnest cfg thin) {hs : List Int}
    (hp : (first :: hs).Pairwise (· > ·)) (hal : ∀ h, h ∈ first :: hs ↔ Allowed cfg h) :
    Next cfg z prev ((scan cfg thin first z prev (first :: hs) []).getD thin) := by
  have key := scan_from (z := z) (prev := prev) hsane hthin (first := first) (first :: hs) [] hp
    (fun h hh => (hal h).1 hh)
    (fun h hh => by
      simp only [List.head?_cons, Option.mem_def, Option.some.injEq] at hh
      subst hh
      exact interesting_first ((hal _).1 (by simp)).2.2)
    (fun h hh => ((List.pairwise_cons.1 hp).1 h (by simpa using hh)).ne)
  cases hsc : scan cfg thin first z prev (first :: hs) [] with
  | none =>
    rw [hsc] at key
    exact .inr ⟨hthin, fun h hh => key h ((hal h).2 hh)⟩
  | some y =>
    rw [hsc] at key
    exact .inl ⟨(hal y).1 key.1, key.2.1, fun h hh hsu => key.2.2 h ((hal h).2 hh) hsu⟩

/-! ### The loop -/

/-- The layers that the loop adds. -/
inductive Ext (cfg : Cfg) : Int → Int → Nat → List Layer → Prop
  | nil {z prev n} : cfg.modelMax < z → 2 ≤ n → Ext cfg z prev n []
  | cons {z prev n h l} : (z ≤ cfg.modelMax ∨ n < 2) → Next cfg z prev h → Ext cfg (z + h) h (n + 1) l →
      Ext cfg z prev n (⟨h, z + h⟩ :: l)

theorem loop_mono {allowed : List Int} {thin first lastH : Int} {n m : Nat} {z prev : Int}
    {acc out : List Layer} (e : loop cfg allowed thin first lastH n z prev acc = .ok out) (hm : n ≤ m) :
    loop cfg allowed thin first lastH m z prev acc = .ok out := by
  induction n generalizing m z prev acc with
  | zero => rw [loop] at e; cases e
  | succ n ih =>
    obtain ⟨m, rfl⟩ : ∃ m', m = m' + 1 := ⟨m - 1, by omega⟩
    rw [loop] at e ⊢
    split_ifs at e ⊢
    · exact ih e (by omega)
    · exact e

theorem next_pos {z prev h : Int} (hn : Next cfg z prev h) : 0 < h := by
  rcases hn with ⟨h1, -⟩ | ⟨⟨h1, -⟩, -⟩
  · exact h1.2.2
  · exact h1.2.2

theorem loop_ok (hsane : cfg.Sane) {thin first : Int} (hthin : Thinnest cfg thin) {hs : List Int}
    (hp : (first :: hs).Pairwise (· > ·)) (hal : ∀ h, h ∈ first :: hs ↔ Allowed cfg h) (n : Nat)
    {z prev : Int} {acc : List Layer} (hn : (cfg.modelMax - z + 1).toNat + (2 - acc.length) < n) :
    ∃ l, loop cfg (first :: hs) thin first thin n z prev acc = .ok (acc ++ l) ∧ Ext cfg z prev acc.length l := by
  induction n generalizing z prev acc with
  | zero => omega
  | succ n ih =>
    rw [loop]
    by_cases hc : z ≤ cfg.modelMax ∨ acc.length < 2
    · rw [if_pos hc]
      have hnx := scan_next (z := z) (prev := prev) hsane hthin hp hal
      have hpos := next_pos hnx
      dsimp only
      generalize (scan cfg thin first z prev (first :: hs) []).getD thin = h at *
      obtain ⟨l, e, hl⟩ := ih (z := z + h) (prev := h) (acc := acc ++ [⟨h, z + h⟩]) (by simp; omega)
      refine ⟨⟨h, z + h⟩ :: l, by rw [e]; simp, .cons hc hnx ?_⟩
      simpa using hl
    · rw [if_neg hc]
      push Not at hc
      exact ⟨[], by simp, .nil hc.1 hc.2⟩

theorem ext_tiles {z0 prev0 : Int} {n : Nat} {l : List Layer} (h : Ext cfg z0 prev0 n l) :
    (∀ a, l.getLast? = some a → cfg.modelMax < a.z) ∧ (l = [] → cfg.modelMax < z0) ∧
    (∀ k a b, (⟨prev0, z0⟩ :: l : List Layer)[k]? = some a → (⟨prev0, z0⟩ :: l : List Layer)[k + 1]? = some b →
      b.z = a.z + b.height ∧ Next cfg a.z a.height b.height ∧ (a.z ≤ cfg.modelMax ∨ n + k < 2)) ∧
    2 ≤ n + l.length := by
  induction h with
  | nil h1 h2 =>
    refine ⟨by simp, fun _ => h1, ?_, by simpa using h2⟩
    intro k a b _ hb
    simp at hb
  | @cons z prev n h l h1 h2 h3 ih =>
    obtain ⟨i1, i2, i3, i4⟩ := ih
    refine ⟨?_, by simp, ?_, by simp; omega⟩
    · intro a ha
      cases l with
      | nil =>
        simp only [List.getLast?_singleton, Option.some.injEq] at ha
        subst ha
        exact i2 rfl
      | cons b l =>
        rw [List.getLast?_cons_cons] at ha
        exact i1 a ha
    · intro k a b ha hb
      cases k with
      | zero =>
        simp only [List.getElem?_cons_zero, Option.some.injEq, zero_add, List.getElem?_cons_succ] at ha hb
        subst ha hb
        exact ⟨rfl, h2, by simpa using h1⟩
      | succ k =>
        rw [List.getElem?_cons_succ] at ha hb
        obtain ⟨j1, j2, j3⟩ := i3 k a b ha hb
        exact ⟨j1, j2, by omega⟩

theorem least_last {h : Int} {l : List Int} (hp : (h :: l).Pairwise (· > ·)) :
    least h l = (h :: l).getLastD h ∧ (h :: l).getLastD h ∈ h :: l ∧
      ∀ x ∈ h :: l, (h :: l).getLastD h ≤ x := by
  have e : (h :: l).getLastD h = (h :: l).getLast (by simp) := by
    rw [List.getLastD_eq_getLast?, List.getLast?_eq_some_getLast (by simp)]; rfl
  have hle : ∀ x ∈ h :: l, (h :: l).getLast (by simp) ≤ x := by
    clear e
    induction l generalizing h with
    | nil => simp
    | cons a l ih =>
      obtain ⟨p1, p2⟩ := List.pairwise_cons.1 hp
      intro x hx
      rw [List.getLast_cons (by simp)]
      rcases List.mem_cons.1 hx with rfl | hx
      · exact (ih p2 a (by simp)).trans (p1 a (by simp)).le
      · exact ih p2 x hx
  refine ⟨?_, by rw [e]; exact List.getLast_mem _, by rw [e]; exact hle⟩
  rw [e]
  have key : ∀ (l : List Int) (a : Int), least a l ∈ a :: l ∧ ∀ x ∈ a :: l, least a l ≤ x := by
    intro l
    induction l with
    | nil => intro a; simp [least]
    | cons b l ih =>
      intro a
      have : least a (b :: l) = least (min a b) l := by simp [least]
      rw [this]
      obtain ⟨k1, k2⟩ := ih (min a b)
      constructor
      · rcases List.mem_cons.1 k1 with k | k
        · rw [k]
          rcases min_choice a b with m | m <;> rw [m] <;> simp
        · simp [k]
      · intro x hx
        have hmin := k2 (min a b) (by simp)
        rcases List.mem_cons.1 hx with rfl | hx
        · exact hmin.trans (min_le_left _ _)
        · rcases List.mem_cons.1 hx with rfl | hx
          · exact hmin.trans (min_le_right _ _)
          · exact k2 x (by simp [hx])
  obtain ⟨k1, k2⟩ := key l h
  exact le_antisymm (k2 _ (List.getLast_mem _)) (hle _ k1)

end Verif.Adaptive
