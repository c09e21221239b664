import Verif.Adaptive.Lemmas
import Mathlib.Tactic.NormNum

/-! # C37: adaptive layer heights -/

namespace Verif.Adaptive

variable {cfg : Cfg}

/-- A cone standing on the plate: 2 mm high, a slope that gets flatter, with `tan` replaced by the identity. -/
def demo : Cfg where
  base := 200
  variation := 100
  step := 50
  threshold := 150
  initial := 270
  modelMax := 2000
  middle := false
  faces := [⟨0, 1200, 3⟩, ⟨1200, 1700, 1⟩, ⟨1700, 2000, 1/2⟩]
  tan := fun x => x

theorem demo_sane : demo.Sane := by
  have h : (3 : ℚ) ≤ DBL_MAX := by decide +kernel
  refine ⟨by decide, by decide, by decide, ?_⟩
  intro f hf
  simp only [demo, List.mem_cons, List.not_mem_nil, or_false] at hf
  rcases hf with rfl | rfl | rfl
  · exact h
  · exact le_trans (by norm_num) h
  · exact le_trans (by norm_num) h

/-- **C37.** For every model and all sensible settings the computation ends, and the layers tile the height of
the model by the rule of the specification. -/
theorem C37_layers (hs : cfg.Sane) :
    ∃ layers N, (∀ fuel ≥ N, calculate cfg fuel = .ok layers) ∧ Tiles cfg layers := by
  obtain ⟨l, e, hp, hm⟩ := allowed_ok (lo := cfg.base - cfg.variation) (h := cfg.base + cfg.variation) hs.step
    (lt_add_one _)
  have hal : ∀ x, x ∈ l ↔ Allowed cfg x := hm
  have hne : cfg.base + cfg.variation ∈ l := by
    rw [hal]
    have h1 := hs.variation
    have h2 := hs.positive
    exact ⟨⟨0, by simp⟩, by omega, h2⟩
  cases l with
  | nil => simp at hne
  | cons h hs' =>
    obtain ⟨l1, l2, l3⟩ := least_last hp
    have hthin : Thinnest cfg ((h :: hs').getLastD h) :=
      ⟨(hal _).1 l2, fun x hx => l3 x ((hal x).2 hx)⟩
    obtain ⟨ext, e2, hx⟩ := loop_ok hs hthin hp hal
      ((cfg.modelMax - cfg.initial + 1).toNat + 2) (z := cfg.initial) (prev := cfg.initial)
      (acc := [⟨cfg.initial, cfg.initial⟩]) (by simp)
    obtain ⟨t1, t2, t3, t4⟩ := ext_tiles hx
    simp only [List.length_singleton] at t3 t4
    refine ⟨⟨cfg.initial, cfg.initial⟩ :: ext,
      max ((cfg.base + cfg.variation - (cfg.base - cfg.variation) + 1).toNat + 1)
        ((cfg.modelMax - cfg.initial + 1).toNat + 2), fun fuel hf => ?_, ?_⟩
    · unfold calculate
      rw [allowed_mono e ((le_max_left _ _).trans hf)]
      simp only [Outcome.bind_ok]
      rw [l1]
      exact loop_mono e2 ((le_max_right _ _).trans hf)
    · refine ⟨rfl, by simpa [Nat.add_comm] using t4, fun k a b ha hb => (t3 k a b ha hb).1,
        fun k a b ha hb => (t3 k a b ha hb).2.1, ?_, ?_⟩
      · intro a ha
        cases ext with
        | nil => simp at t4
        | cons b ext =>
          rw [List.getLast?_cons_cons] at ha
          exact t1 a ha
      · intro k a hk hl ha
        obtain ⟨b, hb⟩ : ∃ b, (⟨cfg.initial, cfg.initial⟩ :: ext : List Layer)[k + 1]? = some b :=
          ⟨_, List.getElem?_eq_getElem hl⟩
        have := (t3 k a b ha hb).2.2
        omega

/-- **C37.** The z position of every layer is the sum of the heights up to it, and all heights after the first
are allowed ones. -/
theorem C37_positions {layers : List Layer} (ht : Tiles cfg layers) (k : Nat) (a : Layer)
    (ha : layers[k]? = some a) :
    a.z = ((layers.take (k + 1)).map (·.height)).sum ∧ (1 ≤ k → Allowed cfg a.height) := by
  induction k generalizing a with
  | zero =>
    rw [ht.first] at ha
    obtain rfl := Option.some.inj ha
    refine ⟨?_, by omega⟩
    cases layers with
    | nil => have := ht.two; simp at this
    | cons b l =>
      have := ht.first
      simp only [List.getElem?_cons_zero, Option.some.injEq] at this
      subst this
      simp
  | succ k ih =>
    have hl : k + 1 < layers.length := (List.getElem?_eq_some_iff.1 ha).1
    obtain ⟨b, hb⟩ : ∃ b, layers[k]? = some b := ⟨_, List.getElem?_eq_getElem (by omega)⟩
    obtain ⟨i1, -⟩ := ih b hb
    refine ⟨?_, fun _ => ?_⟩
    · rw [ht.stacked k b a hb ha, i1, List.take_add_one (l := layers) (i := k + 1), ha]
      simp
    · rcases ht.next k b a hb ha with h | h
      · exact h.1
      · exact h.1.1

/-- **C37.** A layer is never thicker than the one before by more than a step, and thinner by at most two
steps as long as some face touches the thinnest layer there. (From the second layer on: the first one has its own
height.) -/
theorem C37_change (hs : cfg.Sane) {layers : List Layer} (ht : Tiles cfg layers) (k : Nat) (hk : 1 ≤ k)
    (a b : Layer) (ha : layers[k]? = some a) (hb : layers[k + 1]? = some b) :
    b.height ≤ a.height + cfg.step ∧
      ((∃ t f, Thinnest cfg t ∧ Touches cfg a.z t f) → a.height - b.height ≤ 2 * cfg.step) := by
  have haa := (C37_positions ht k a ha).2 hk
  have hbb := (C37_positions ht (k + 1) b hb).2 (by omega)
  have hn := ht.next k a b ha hb
  have hst := hs.step
  constructor
  · rcases hn with ⟨-, ⟨-, -, h3⟩, -⟩ | ⟨h1, -⟩
    · rcases h3 with h3 | h3
      · omega
      · have := h3.2 _ haa; omega
    · have := h1.2 _ haa; omega
  · rintro ⟨t, f, ht1, ht2⟩
    by_contra hc
    obtain ⟨⟨i, hi⟩, -⟩ := haa
    have hmul : a.height - 2 * cfg.step = cfg.base + cfg.variation - ((i + 2 : Nat) : Int) * cfg.step := by
      rw [hi]; push_cast; ring
    have h2 : Allowed cfg (a.height - 2 * cfg.step) := by
      refine ⟨⟨i + 2, hmul⟩, ?_, ?_⟩
      · have := hbb.2.1; omega
      · have := hbb.2.2; omega
    have h3 : Suitable cfg a.z a.height (a.height - 2 * cfg.step) := by
      refine ⟨⟨f, ht2.1, ht2.2.1.trans (top_mono (ht1.2 _ h2)), ht2.2.2⟩, .inr (.inr (by omega)),
        .inl (by omega)⟩
    rcases hn with ⟨-, -, h5⟩ | ⟨-, h5⟩
    · have := h5 _ h2 h3; omega
    · exact h5 _ h2 h3

/-- **C37.** A layer that is not the thinnest and not a forced step down is fine: the flattest face that
touches it makes stairs no wider than the threshold. -/
theorem C37_fine {layers : List Layer} (ht : Tiles cfg layers) (k : Nat) (a b : Layer)
    (ha : layers[k]? = some a) (hb : layers[k + 1]? = some b) (h1 : ¬ Thinnest cfg b.height)
    (h2 : a.height - b.height ≤ cfg.step) : Fine cfg a.z b.height := by
  rcases ht.next k a b ha hb with ⟨-, ⟨-, h, -⟩, -⟩ | ⟨h, -⟩
  · rcases h with h | h | h
    · exact h
    · exact absurd h h1
    · omega
  · exact absurd h h1

/-- The cone: thick layers on the steep part, then thinner ones. -/
example : (calculate demo 40).bind (fun l => .ok (l.map (·.height))) =
      .ok [270, 300, 300, 300, 200, 150, 150, 100, 100, 100, 100] ∧
    (calculate demo 40).bind (fun l => .ok (l.map (·.z))) =
      .ok [270, 570, 870, 1170, 1370, 1520, 1670, 1770, 1870, 1970, 2070] := by decide +kernel

/-- **C37.** The documentation calls the step "the maximum difference in layer height between two adjacent
layers"; a layer can be thinner by two steps. -/
theorem C37_two_steps :
    ∃ (cfg : Cfg) (layers : List Layer) (a b : Layer), cfg.Sane ∧ calculate cfg 40 = .ok layers ∧
      layers[3]? = some a ∧ layers[4]? = some b ∧ a.height - b.height = 2 * cfg.step :=
  ⟨demo, [⟨270, 270⟩, ⟨300, 570⟩, ⟨300, 870⟩, ⟨300, 1170⟩, ⟨200, 1370⟩, ⟨150, 1520⟩, ⟨150, 1670⟩,
    ⟨100, 1770⟩, ⟨100, 1870⟩, ⟨100, 1970⟩, ⟨100, 2070⟩], ⟨300, 1170⟩, ⟨200, 1370⟩, demo_sane,
    by decide +kernel, rfl, rfl, rfl⟩

/-- **C37**, a positive step is needed: with step 0 the list of allowed heights never ends. -/
theorem C37_step_zero (hs : cfg.step = 0) (hv : 0 ≤ cfg.variation) (hp : 0 < cfg.base + cfg.variation)
    (fuel : Nat) : calculate cfg fuel = .diverge := by
  have key : ∀ n, allowedFrom (cfg.base - cfg.variation) 0 n (cfg.base + cfg.variation) = .diverge := by
    intro n
    induction n with
    | zero => rfl
    | succ n ih =>
      rw [allowedFrom, if_pos (by omega), if_neg (by omega), sub_zero, ih]
      rfl
  unfold calculate
  rw [hs, key]
  rfl

/-- **C37**, a positive height is needed: without one the smallest allowed height is read from an empty list. -/
theorem C37_no_height (hp : cfg.base + cfg.variation ≤ 0 ∨ cfg.variation < 0) (fuel : Nat) :
    calculate cfg (fuel + 1) = .ub := by
  unfold calculate
  rw [allowedFrom]
  by_cases h1 : cfg.base + cfg.variation ≥ cfg.base - cfg.variation
  · rw [if_pos h1, if_pos (by omega)]; rfl
  · rw [if_neg h1]; rfl

example : calculate { demo with step := 0 } 7 = .diverge ∧ calculate { demo with base := -100 } 7 = .ub := by
  decide +kernel

end Verif.Adaptive
