import Verif.Support.Spec
import Verif.Volumes.Lemmas
import Mathlib.Tactic.Linarith
import Mathlib.Tactic.Ring
import Mathlib.Tactic.Positivity
import Mathlib.Data.Rat.Cast.Order

/-! # Lemmas about support -/

namespace Verif.Support

open Verif.Volumes (Point Region times)

/-! ## Distances -/

theorem dist2_self (p : Point) : dist2 p p = 0 := by simp [dist2]

theorem dist2_comm (p q : Point) : dist2 p q = dist2 q p := by simp only [dist2]; ring

theorem dist2_nonneg (p q : Point) : 0 ≤ dist2 p q := by
  unfold dist2
  positivity

theorem dist2_triangle {a b c : Point} {x y : Rat} (hx : 0 ≤ x) (hy : 0 ≤ y) (h1 : dist2 a b ≤ x ^ 2)
    (h2 : dist2 b c ≤ y ^ 2) : dist2 a c ≤ (x + y) ^ 2 := by
  unfold dist2 at *
  set u := a.1 - b.1
  set v := a.2 - b.2
  set s := b.1 - c.1
  set t := b.2 - c.2
  have e1 : a.1 - c.1 = u + s := by simp only [u, s]; ring
  have e2 : a.2 - c.2 = v + t := by simp only [v, t]; ring
  rw [e1, e2]
  have hcs : (u * s + v * t) ^ 2 ≤ (x * y) ^ 2 := by
    have : (u * s + v * t) ^ 2 ≤ (u ^ 2 + v ^ 2) * (s ^ 2 + t ^ 2) := by nlinarith [sq_nonneg (u * t - v * s)]
    have h3 : (u ^ 2 + v ^ 2) * (s ^ 2 + t ^ 2) ≤ x ^ 2 * y ^ 2 :=
      mul_le_mul h1 h2 (by positivity) (by positivity)
    calc _ ≤ _ := this
      _ ≤ _ := h3
      _ = _ := by ring
  have := abs_le_of_sq_le_sq' hcs (by positivity)
  nlinarith [this.2]

theorem near_self (d : Rat) (r : Region) : r ⊆ Near d r := fun p h => ⟨p, h, by rw [dist2_self]; positivity⟩

theorem disk_self (d : Rat) (p : Point) : p ∈ Disk d p := by
  show dist2 p p ≤ d ^ 2
  rw [dist2_self]
  positivity

theorem free_mono {d e : Rat} {ms : List Region} {p : Point} (he : 0 ≤ e) (hde : e ≤ d) (h : Free d ms p) : Free e ms p :=
  fun q hq => lt_of_le_of_lt (by gcongr) (h q hq)

/-- Around a point that is far away from models there are other points that are. -/
theorem free_disk {d e : Rat} {ms : List Region} {p q : Point} (hd : 0 ≤ d) (he : 0 ≤ e) (h : Free (d + e) ms p)
    (hq : q ∈ Disk d p) : Free e ms q := by
  intro m hm
  by_contra hc
  push Not at hc
  have := dist2_triangle hd he hq hc
  exact absurd (h m hm) (not_lt.2 this)

theorem free_not {d : Rat} {ms : List Region} {p : Point} (h : Free d ms p) : p ∉ solid ms := fun hp =>
  absurd (h p hp) (not_lt.2 (by rw [dist2_self]; positivity))

theorem odd_solid {ms : List Region} {p : Point} (h : p ∈ odd ms) : p ∈ solid ms := by
  by_contra hc
  have : times p ms = 0 := by
    clear h
    induction ms with
    | nil => rfl
    | cons r rs ih =>
      rw [Volumes.times_cons, Volumes.times_zero p r fun hr => hc ⟨r, List.mem_cons_self, hr⟩,
        ih fun ⟨x, hx, hp⟩ => hc ⟨x, List.mem_cons_of_mem _ hx, hp⟩]
  unfold odd at h
  rw [Set.mem_ofPred_eq, this] at h
  omega

theorem solid_odd {ms : List Region} {p : Point} (hs : Single ms p) (h : p ∈ solid ms) : p ∈ odd ms := by
  have : 1 ≤ times p ms := by
    clear hs
    induction ms with
    | nil => obtain ⟨r, hr, _⟩ := h; cases hr
    | cons r rs ih =>
      rw [Volumes.times_cons]
      obtain ⟨x, hx, hp⟩ := h
      rcases List.mem_cons.1 hx with rfl | hx
      · rw [Volumes.times_one p x hp]; omega
      · have := ih ⟨x, hx, hp⟩; omega
  have e : times p ms = 1 := le_antisymm hs this
  show times p ms % 2 = 1
  rw [e]

section
variable {ops : Ops} {keep : Rat} (ok : ops.Ok keep)
include ok

theorem grow_self {d : Int} (hd : 0 ≤ d) (r : Region) : r ⊆ ops.offset d r := fun _ h => ok.grow d r hd (near_self _ _ h)

/-- An offset of models does not reach a point that is far away. -/
theorem not_offset {d : Int} (hd : 0 ≤ d) {ms : List Region} {p : Point} (h : Free (2 * d) ms p) :
    p ∉ ops.offset d (solid ms) := fun hp => by
  obtain ⟨q, hq, hd'⟩ := ok.grown d _ hd hp
  exact absurd (h q hq) (not_lt.2 hd')

end

/-! ## The loop from the top -/

section
variable (ops : Ops) (c : Config) (i : Input)

/-- Where `stair_removal` comes from: from a layer at most a step above that is at the end of a step, if there is one. -/
def StairFrom (l : Nat) (stair : Region) : Prop :=
  stair = ∅ ∨ ∃ l', 1 < c.stairLayers ∧ l < l' ∧ l' ≤ l + c.stairLayers ∧ c.bottomLayers ≤ l' ∧ l' % c.stairLayers = 0 ∧
    stair ⊆ ops.offset c.stairWidth (solid (under i.models (l' - c.bottomLayers))) ∧
    (c.stairLayers ≤ l' - c.bottomLayers + 1 → stair ⊆ odd (i.models (l' - c.bottomLayers + 1 - c.stairLayers)))

/-- The removal before a layer is from a step above, or not used any more. -/
def StairOk (l : Nat) (stair : Region) : Prop := StairFrom ops c i l stair ∨ l < c.bottomLayers

theorem moveUp_stair (stair r : Region) (l : Nat) (h : StairOk ops c i (l + 1) stair) :
    StairOk ops c i l (moveUp ops c i stair r (l + 1)).2 := by
  by_cases hb : l + 1 < c.bottomLayers
  · exact .inr (by omega)
  have hf : StairFrom ops c i (l + 1) stair := h.resolve_right hb
  left
  by_cases hs : c.stairLayers ≤ 1
  · rcases hf with hf | ⟨l', h0, _⟩
    · have : (moveUp ops c i stair r (l + 1)).2 = stair := by
        unfold moveUp
        simp only [hs, if_true]
        split <;> rfl
      rw [this]
      exact .inl hf
    · omega
  · unfold moveUp
    rw [if_neg (by omega)]
    simp only [hs, if_false]
    by_cases hm : (l + 1) % c.stairLayers = 0
    · rw [if_pos hm]
      right
      refine ⟨l + 1, by omega, by omega, by omega, by omega, hm, ?_, ?_⟩
      · split
        · exact fun p hp => hp.2.1
        · exact fun p hp => hp.1
      · intro hk
        rw [if_pos hk]
        exact fun p hp => hp.1
    · rw [if_neg hm]
      rcases hf with hf | ⟨l', h0, h1, h2, h3, h4, h5, h6⟩
      · exact .inl hf
      · right
        refine ⟨l', h0, by omega, ?_, h3, h4, h5, h6⟩
        by_contra hc
        have e : l' = l + 1 + c.stairLayers := by omega
        rw [e, Nat.add_mod_right] at h4
        exact hm h4

theorem moveUp_subset (stair r : Region) (l : Nat) : (moveUp ops c i stair r l).1 ⊆ r := by
  unfold moveUp
  dsimp only
  split
  · exact fun _ h => h
  · split
    · exact fun _ h => h.1
    · exact fun _ h => h.1

/-- A layer of the result is made from the one above it. -/
def Made (r : Nat → Region) (l : Nat) : Prop :=
  ∃ stair, StairOk ops c i l stair ∧ r l = (moveUp ops c i stair (gather ops c i (r (l + 1)) l) l).1

theorem layers_made : ∀ (k : Nat) (s : State), (∀ l, l + 1 = k → StairOk ops c i l s.stair) →
    let r := ((List.range k).reverse.foldl (layer ops c i) s).areas
    (∀ l, k ≤ l → r l = s.areas l) ∧ ∀ l < k, Made ops c i r l := by
  intro k
  induction k with
  | zero => intro s _; exact ⟨fun _ _ => rfl, fun l h => absurd h (Nat.not_lt_zero l)⟩
  | succ k ih =>
    intro s hs
    dsimp only
    rw [List.range_succ, List.reverse_append, List.reverse_singleton, List.singleton_append, List.foldl_cons]
    have hs' := hs k rfl
    have := ih (layer ops c i s k) (by
      rintro l rfl
      exact moveUp_stair ops c i s.stair _ l hs')
    dsimp only at this
    obtain ⟨h1, h2⟩ := this
    have hsame : ∀ l, k < l → (layer ops c i s k).areas l = s.areas l := fun l hl => by
      simp only [layer]
      rw [Function.update_of_ne (by omega)]
    refine ⟨fun l hl => by rw [h1 l (by omega), hsame l (by omega)], fun l hl => ?_⟩
    rcases Nat.lt_succ_iff_lt_or_eq.1 hl with hl | rfl
    · exact h2 l hl
    · refine ⟨s.stair, hs', ?_⟩
      rw [h1 l le_rfl, h1 (l + 1) (by omega), hsame (l + 1) (by omega)]
      simp only [layer]
      rw [Function.update_self]

theorem raw_top (n : Nat) {l : Nat} (h : n - c.topLayers ≤ l) : raw ops c i n l = ∅ :=
  (layers_made ops c i (n - c.topLayers) ⟨fun _ => ∅, ∅⟩ fun _ _ => .inl (.inl rfl)).1 l h

theorem raw_made (n : Nat) {l : Nat} (h : l < n - c.topLayers) : Made ops c i (raw ops c i n) l :=
  (layers_made ops c i (n - c.topLayers) ⟨fun _ => ∅, ∅⟩ fun _ _ => .inl (.inl rfl)).2 l h

theorem raw_gather {n l : Nat} {p : Point} (h : p ∈ raw ops c i n l) :
    l < n - c.topLayers ∧ p ∈ gather ops c i (raw ops c i n (l + 1)) l := by
  by_cases hl : l < n - c.topLayers
  · obtain ⟨st, _, e⟩ := raw_made ops c i n hl
    rw [e] at h
    exact ⟨hl, moveUp_subset ops c i _ _ _ h⟩
  · rw [raw_top ops c i n (by omega)] at h
    cases h

/-! ## The steps after the loop only remove -/

theorem touching_subset (r : Nat → Region) : ∀ l, touching ops c r l ⊆ r l
  | 0 => fun _ h => h
  | _ + 1 => fun _ h => h.1

theorem plateOnly_subset (r : Nat → Region) (l : Nat) : plateOnly ops c r l ⊆ r l := by
  unfold plateOnly
  split
  · exact touching_subset ops c r l
  · exact fun _ h => h

theorem belowModels_subset (n : Nat) (r : Nat → Region) (l : Nat) : belowModels c i n r l ⊆ r l := by
  unfold belowModels
  split
  · exact fun _ h => h.1
  · exact fun _ h => h

theorem sink_subset (r : Nat → Region) (l l' : Nat) : sink r l l' ⊆ r l' := by
  unfold sink
  by_cases h : l' = l
  · subst h
    rw [Function.update_self]
    exact fun _ h => h.1
  · rw [Function.update_of_ne h]

theorem sinks_subset : ∀ (ls : List Nat) (r : Nat → Region) (l : Nat), ls.foldl sink r l ⊆ r l
  | [], _, _ => fun _ h => h
  | a :: ls, r, l => fun _ h => sink_subset r a l (sinks_subset ls (sink r a) l h)

theorem settle_subset (n : Nat) (r : Nat → Region) (l : Nat) : settle n r l ⊆ r l := sinks_subset _ r l

variable {keep : Rat} (ok : ops.Ok keep)
include ok

theorem spaced_subset (hc : c.Ok) (r : Nat → Region) (l : Nat) : spaced ops c i r l ⊆ r l \ disallowed ops c i l := fun _ h =>
  ok.opening _ _ (by unfold Config.feature; have := hc.minWall; omega) (ok.small _ _ h)

/-- Support is part of what every step left. -/
theorem meshAreas_subset (hc : c.Ok) {n l : Nat} {p : Point} (h : p ∈ meshAreas ops c i n l) :
    p ∈ raw ops c i n l ∧ p ∉ disallowed ops c i l ∧
      p ∈ belowModels c i n (plateOnly ops c (spaced ops c i (raw ops c i n))) l := by
  unfold meshAreas at h
  split at h
  · cases h
  · have h1 := settle_subset _ _ _ h
    have h2 := spaced_subset ops c i ok hc _ _ (plateOnly_subset ops c _ _ (belowModels_subset c i _ _ _ h1))
    exact ⟨h2.1, h2.2, h1⟩

end

end Verif.Support
