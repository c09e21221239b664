import Verif.Mold.Spec
import Mathlib.Tactic.Linarith
import Mathlib.Data.Set.SymmDiff

/-! # Molds and conical overhang: theorems -/

namespace Verif.Mold

open Verif.Volumes (Point Region)
open Verif.Support (Ops Near Disk)

variable {ops : Ops} {keep tol : Rat}

/-! ## Molds -/

theorem loop_eq (m : Mesh) {n l : Nat} (h : l < n) : m.loop ops n (n - l) = m.shell ops (m.loop ops n (n - (l + 1))) l := by
  obtain ⟨k, hk⟩ : ∃ k, n - l = k + 1 := ⟨n - l - 1, by omega⟩
  rw [hk, show n - (l + 1) = k by omega]
  unfold Mesh.loop
  rw [show n - 1 - k = l by omega]
  cases k <;> rfl

theorem process_mold {meshes : List Mesh} {n : Nat} {m : Mesh} {l : Nat} (he : m.enabled = true) (p : Point) :
    p ∈ process ops meshes n m l ↔ p ∈ m.loop ops n (n - l) ∧ p ∉ originals meshes l := by
  unfold process
  rw [if_pos he]
  rfl

theorem near_width (hr : RoundOk ops tol) (m : Mesh) (hw : tol ≤ m.width) {r : Region} {p : Point} (h : p ∈ Near (m.width - tol) r) :
    p ∈ ops.round m.width r := hr.grow _ _ hw h

theorem shell_wall (m : Mesh) (above : Region) (l : Nat) : ops.round m.width (m.outline l) ⊆ m.shell ops above l := by
  intro p hp
  unfold Mesh.shell
  dsimp only
  have : p ∈ (if m.upright then ops.round m.width (m.outline l) else ops.offset (-m.inset) above ∪ ops.round m.width (m.outline l)) := by
    split
    · exact hp
    · exact Or.inr hp
  split
  · exact Or.inl this
  · exact this

/-- C88 (part). A mold never is where a model is that is to be cast: neither the mold's own model nor that of any other mold. -/
theorem C88_cavity_partial (meshes : List Mesh) (n : Nat) (m model : Mesh) (he : m.enabled = true) (hm : model ∈ meshes)
    (hc : model.enabled = true) (l : Nat) : Disjoint (process ops meshes n m l) (model.polys l ∪ model.lines l) := by
  rw [Set.disjoint_left]
  intro p hp hq
  exact ((process_mold he p).mp hp).2 ⟨model, hm, hc, hq⟩

/-- C88 (part). Around its model a mold has walls of the width that is set: on each layer everything that near to the model
is mold, unless it is a model that is to be cast. -/
theorem C88_wall_partial (hr : RoundOk ops tol) (meshes : List Mesh) (n : Nat) (m : Mesh) (he : m.enabled = true)
    (hw : tol ≤ m.width) (l : Nat) (hl : l < n) (p : Point) (hp : p ∈ Near (m.width - tol) (m.polys l ∪ m.lines l)) :
    p ∈ process ops meshes n m l ∨ ∃ model ∈ meshes, model.enabled = true ∧ p ∈ model.polys l ∪ model.lines l := by
  by_cases ho : p ∈ originals meshes l
  · exact Or.inr ho
  · exact Or.inl ((process_mold he p).mpr ⟨by rw [loop_eq m hl]; exact shell_wall m _ l (near_width hr m hw hp), ho⟩)

/-- C88 (part). A mold is closed above its model, with a roof of as many layers as set, where the model is at least as thick
as the roof. -/
theorem C88_roof_partial (hr : RoundOk ops tol) (meshes : List Mesh) (n : Nat) (m : Mesh) (he : m.enabled = true)
    (hw : tol ≤ m.width) (top : Nat) (ht : m.roof ≤ top + 1) (p : Point)
    (hp : ∀ k, k ≤ top → top < k + m.roof → p ∈ Near (m.width - tol) (m.polys k))
    (l : Nat) (h1 : top < l) (h2 : l ≤ top + m.roof) (hl : l < n) :
    p ∈ process ops meshes n m l ∨ ∃ model ∈ meshes, model.enabled = true ∧ p ∈ model.polys l ∪ model.lines l := by
  by_cases ho : p ∈ originals meshes l
  · exact Or.inr ho
  · refine Or.inl ((process_mold he p).mpr ⟨?_, ho⟩)
    rw [loop_eq m hl]
    unfold Mesh.shell
    dsimp only
    rw [if_pos ⟨by omega, by omega⟩]
    exact Or.inr (near_width hr m hw (hp (l - m.roof) (by omega) (by omega)))

/-- C88 (part). The outside of a mold with an angle below 90° can be printed: it never sticks out over the layer below by
more than the angle allows. (An offset inwards with mitered corners reaches up to twice as far.) -/
theorem C88_slope_partial (ho : ops.Ok keep) (meshes : List Mesh) (n : Nat) (m : Mesh) (he : m.enabled = true)
    (hu : m.upright = false) (hi : 0 ≤ m.inset) (l : Nat) (hl : l + 1 < n) (p : Point)
    (hp : Disk (2 * m.inset) p ⊆ process ops meshes n m (l + 1)) :
    p ∈ process ops meshes n m l ∨ ∃ model ∈ meshes, model.enabled = true ∧ p ∈ model.polys l ∪ model.lines l := by
  by_cases hor : p ∈ originals meshes l
  · exact Or.inr hor
  · refine Or.inl ((process_mold he p).mpr ⟨?_, hor⟩)
    rw [loop_eq m (by omega)]
    have hoff : p ∈ ops.offset (-m.inset) (m.loop ops n (n - (l + 1))) :=
      ho.shrunk m.inset _ p hi fun q hq => ((process_mold he q).mp (hp hq)).1
    unfold Mesh.shell
    dsimp only
    rw [hu]
    split
    · exact Or.inl (Or.inl hoff)
    · exact Or.inl hoff

theorem loop_reach (ho : ops.Ok keep) (hr : RoundOk ops tol) (m : Mesh) (hw : 0 ≤ m.width) (hi : 0 ≤ m.inset) (n j : Nat) (hj : j ≤ n)
    (p : Point) (hp : p ∈ m.loop ops n j) : ∃ k, k < n ∧ n ≤ k + j + m.roof ∧ p ∈ Near m.width (m.outline k) := by
  induction j with
  | zero => exact absurd hp (Set.notMem_empty p)
  | succ j ih =>
    unfold Mesh.loop Mesh.shell at hp
    dsimp only at hp
    have hwall : p ∈ ops.round m.width (m.outline (n - 1 - j)) → ∃ k, k < n ∧ n ≤ k + (j + 1) + m.roof ∧ p ∈ Near m.width (m.outline k) :=
      fun h => ⟨n - 1 - j, by omega, by omega, hr.grown _ _ hw h⟩
    have hfirst : p ∈ (if m.upright then ops.round m.width (m.outline (n - 1 - j))
        else ops.offset (-m.inset) (m.loop ops n j) ∪ ops.round m.width (m.outline (n - 1 - j))) →
        ∃ k, k < n ∧ n ≤ k + (j + 1) + m.roof ∧ p ∈ Near m.width (m.outline k) := by
      intro h
      split at h
      · exact hwall h
      · rcases h with h | h
        · obtain ⟨k, h1, h2, h3⟩ := ih (by omega) (ho.shrink m.inset _ hi h)
          exact ⟨k, h1, by omega, h3⟩
        · exact hwall h
    split at hp
    · rcases hp with hp | hp
      · exact hfirst hp
      · obtain ⟨q, hq, hd⟩ := hr.grown _ _ hw hp
        exact ⟨n - 1 - j - m.roof, by omega, by omega, q, Or.inl hq, hd⟩
    · exact hfirst hp

/-- C88 (part). There is no mold anywhere else: every point of a mold that does not get wider towards the bottom is within
the width of its model, on a layer that is above it or no further below it than the roof is high. -/
theorem C88_reach_partial (ho : ops.Ok keep) (hr : RoundOk ops tol) (meshes : List Mesh) (n : Nat) (m : Mesh) (he : m.enabled = true)
    (hw : 0 ≤ m.width) (hi : 0 ≤ m.inset) (l : Nat) (hl : l < n) (p : Point) (hp : p ∈ process ops meshes n m l) :
    ∃ k, k < n ∧ l ≤ k + m.roof ∧ p ∈ Near m.width (m.polys k ∪ m.lines k) := by
  obtain ⟨k, h1, h2, h3⟩ := loop_reach ho hr m hw hi n (n - l) (by omega) p ((process_mold he p).mp hp).1
  exact ⟨k, h1, by omega, h3⟩

/-- C88 (part). Meshes that are not to be cast stay as they are. -/
theorem C88_others_partial (meshes : List Mesh) (n : Nat) (m : Mesh) (he : m.enabled = false) (l : Nat) :
    process ops meshes n m l = m.polys l := by
  unfold process
  rw [he]
  rfl

/-! ## Conical overhang -/

theorem conical_eq (tidy : Region → Region) (dist : Int) (holes : Nat → List Region) (layers : Nat → Region) {n l : Nat} (h : l + 1 < n) :
    conical ops tidy dist holes layers n l =
      step ops tidy dist (holes l) (layers l) (conical ops tidy dist holes layers n (l + 1)) := by
  unfold conical
  obtain ⟨k, hk⟩ : ∃ k, n - 1 - l = k + 1 := ⟨n - 2 - l, by omega⟩
  rw [hk, show n - 1 - (l + 1) = k by omega]
  conv_lhs => unfold conicalLoop
  rw [show n - 2 - k = l by omega]

theorem cutHole_subset (a h : Region) : cutHole a h ⊆ a := by
  unfold cutHole
  split
  · exact Set.sdiff_subset
  · exact subset_rfl

theorem cutHoles_subset (hs : List Region) (a : Region) : hs.foldl cutHole a ⊆ a := by
  induction hs generalizing a with
  | nil => exact subset_rfl
  | cons h hs ih => exact subset_trans (ih _) (cutHole_subset a h)

theorem cutHole_keep (a h : Region) (p : Point) (hp : p ∈ a) (hh : p ∉ h) : p ∈ cutHole a h := by
  unfold cutHole
  split
  · exact ⟨hp, hh⟩
  · exact hp

theorem cutHoles_keep (hs : List Region) (a : Region) (p : Point) (hp : p ∈ a) (hh : ∀ h ∈ hs, p ∉ h) : p ∈ hs.foldl cutHole a := by
  induction hs generalizing a with
  | nil => exact hp
  | cons h hs ih => exact ih _ (cutHole_keep a h p hp (hh h List.mem_cons_self)) fun h' hm => hh h' (List.mem_cons_of_mem _ hm)

theorem cutHole_covered (a h : Region) (hne : h.Nonempty) (hs : h ⊆ a) : cutHole a h = a \ h := by
  unfold cutHole
  rw [Set.inter_eq_left.mpr hs, if_pos ⟨hne, symmDiff_self h⟩]

theorem cutHoles_covered (hs : List Region) (a : Region) (h : Region) (hm : h ∈ hs) (hs' : h ⊆ a)
    (hd : hs.Pairwise Disjoint) : Disjoint (hs.foldl cutHole a) h := by
  induction hs generalizing a with
  | nil => cases hm
  | cons g hs ih =>
    rw [List.pairwise_cons] at hd
    rw [List.foldl_cons]
    rcases List.mem_cons.mp hm with rfl | hm
    · rcases h.eq_empty_or_nonempty with he | hne
      · rw [he]; exact Set.disjoint_empty _
      · rw [cutHole_covered a h hne hs']
        exact Set.disjoint_left.mpr fun p hp hq => (cutHoles_subset hs _ hp).2 hq
    · exact ih _ hm (fun p hp => cutHole_keep a g p (hs' hp) fun hg => Set.disjoint_left.mp (hd.1 h hm) hg hp) hd.2

/-- C89 (part). Nothing of the model is removed, and the top layer stays as it is. -/
theorem C89_keep_partial (tidy : Region → Region) (dist : Int) (hd : 5 ≤ |dist|) (holes : Nat → List Region)
    (layers : Nat → Region) (n l : Nat) (hl : l < n) :
    layers l ⊆ conical ops tidy dist holes layers n l ∧ conical ops tidy dist holes layers n (n - 1) = layers (n - 1) := by
  constructor
  · by_cases h : l + 1 < n
    · rw [conical_eq tidy dist holes layers h]
      unfold step
      rw [if_neg (by omega)]
      exact Set.subset_union_left
    · have : l = n - 1 := by omega
      subst this
      unfold conical
      rw [Nat.sub_self]
      exact subset_rfl
  · unfold conical
    rw [Nat.sub_self]
    rfl

/-- C89 (part). No layer sticks out over the layer below by more than the angle allows, except over small holes of that. (An
offset inwards with mitered corners reaches up to twice as far.) -/
theorem C89_overhang_partial (ho : ops.Ok keep) (tidy : Region → Region) (dist : Int) (hd : 5 ≤ dist) (holes : Nat → List Region)
    (layers : Nat → Region) (n l : Nat) (hl : l + 1 < n) (p : Point)
    (hp : Disk (2 * dist) p ⊆ conical ops tidy dist holes layers n (l + 1)) (hh : ∀ h ∈ holes l, Disjoint (Disk (2 * dist) p) h) :
    p ∈ conical ops tidy dist holes layers n l := by
  rw [conical_eq tidy dist holes layers hl]
  unfold step
  rw [if_neg (by rw [abs_of_nonneg (by omega)]; omega)]
  exact Or.inr (ho.shrunk dist _ p (by omega) fun q hq =>
    cutHoles_keep _ _ q (hp hq) fun h hm hqh => Set.disjoint_left.mp (hh h hm) hq hqh)

/-- C89 (part). With a negative angle the model gets wider towards the bottom, by at least what the angle says. -/
theorem C89_foot_partial (ho : ops.Ok keep) (tidy : Region → Region) (dist : Int) (hd : dist ≤ -5) (holes : Nat → List Region)
    (layers : Nat → Region) (n l : Nat) (hl : l + 1 < n) (p q : Point) (hq : q ∈ conical ops tidy dist holes layers n (l + 1))
    (hh : ∀ h ∈ holes l, q ∉ h) (hpq : q ∈ Disk (-dist) p) : p ∈ conical ops tidy dist holes layers n l := by
  rw [conical_eq tidy dist holes layers hl]
  unfold step
  rw [if_neg (by rw [abs_of_nonpos (by omega)]; omega)]
  refine Or.inr (ho.grow (-dist) _ (by omega) ⟨q, cutHoles_keep _ _ q hq hh, ?_⟩)
  have : Verif.Support.dist2 p q ≤ (-(dist : Rat)) ^ 2 := hpq
  push_cast
  exact this

/-- C89 (part). What is added is below the model. -/
theorem C89_below_partial (ho : ops.Ok keep) (tidy : Region → Region) (dist : Int) (hd : 5 ≤ dist) (holes : Nat → List Region)
    (layers : Nat → Region) (n l : Nat) (hl : l < n) (p : Point) (hp : p ∈ conical ops tidy dist holes layers n l) :
    ∃ k, l ≤ k ∧ k < n ∧ p ∈ layers k := by
  induction h : n - 1 - l generalizing l with
  | zero =>
    have : l = n - 1 := by omega
    subst this
    unfold conical at hp
    rw [Nat.sub_self] at hp
    exact ⟨n - 1, le_rfl, hl, hp⟩
  | succ k ih =>
    rw [conical_eq tidy dist holes layers (by omega)] at hp
    unfold step at hp
    rw [if_neg (by rw [abs_of_nonneg (by omega)]; omega)] at hp
    rcases hp with hp | hp
    · exact ⟨l, le_rfl, hl, hp⟩
    · obtain ⟨j, h1, h2, h3⟩ := ih (l + 1) (by omega) (cutHoles_subset _ _ (ho.shrink dist _ (by omega) hp)) (by omega)
      exact ⟨j, by omega, h2, h3⟩

/-- C89 (part). A small hole that the layer above covers completely stays open. -/
theorem C89_hole_partial (ho : ops.Ok keep) (tidy : Region → Region) (dist : Int) (hd : 5 ≤ dist) (holes : Nat → List Region)
    (layers : Nat → Region) (n l : Nat) (hl : l + 1 < n) (hole : Region) (hm : hole ∈ holes l) (hdis : (holes l).Pairwise Disjoint)
    (hlayer : Disjoint (layers l) hole) (hc : hole ⊆ conical ops tidy dist holes layers n (l + 1)) :
    Disjoint (conical ops tidy dist holes layers n l) hole := by
  rw [conical_eq tidy dist holes layers hl]
  unfold step
  rw [if_neg (by rw [abs_of_nonneg (by omega)]; omega), Set.disjoint_union_left]
  exact ⟨hlayer, (cutHoles_covered (holes l) _ hole hm hc hdis).mono_left (ho.shrink dist _ (by omega))⟩

/-- C89 (part). If the angle is (nearly) 0 a layer becomes all that is above it, smoothed and simplified. -/
theorem C89_straight_partial (ho : ops.Ok keep) (tidy : Region → Region) (dist : Int) (hd : |dist| < 5) (holes : Nat → List Region)
    (layers : Nat → Region) (n l : Nat) (hl : l + 1 < n) :
    conical ops tidy dist holes layers n l = tidy (layers l ∪ conical ops tidy dist holes layers n (l + 1)) := by
  rw [conical_eq tidy dist holes layers hl]
  unfold step
  rw [if_pos hd]
  congr 1
  have hs := ho.shrink 20 (layers l) (by omega)
  ext p
  constructor
  · rintro (h | h)
    · exact Or.inl h
    · exact Or.inr h.1
  · rintro (h | h)
    · exact Or.inl h
    · by_cases hp : p ∈ ops.offset (-20) (layers l)
      · exact Or.inl (hs hp)
      · exact Or.inr ⟨h, hp⟩

end Verif.Mold
