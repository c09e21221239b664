import Verif.FirstLayers.Model
import Mathlib.Tactic.Linarith
import Mathlib.Tactic.SplitIfs
import Mathlib.Tactic.Ring
import Mathlib.Data.List.Forall2

/-! # Heights of layers: lemmas -/

namespace Verif.FirstLayers

open Spec

theorem assign_get (h : Heights) : ∀ (ps : List Nat) (i k : Nat), (assign h i ps)[k]? = ps[k]?.map (place h (i + k)) := by
  intro ps
  induction ps with
  | nil => intro i k; simp [assign]
  | cons p ps ih =>
    intro i k
    cases k with
    | zero => simp [assign]
    | succ k =>
      simp only [assign, List.getElem?_cons_succ, ih]
      rw [show i + 1 + k = i + (k + 1) by omega]

theorem assign_length (h : Heights) (ps : List Nat) : ∀ i, (assign h i ps).length = ps.length := by
  induction ps with
  | nil => intro i; rfl
  | cons p ps ih => intro i; simp [assign, ih]

theorem isEmpty_iff (meshes : List (List Layer)) (support : List Bool) (i : Nat) : isEmpty meshes support i = true ↔ EmptyLayer meshes support i := by
  unfold isEmpty EmptyLayer
  rw [Bool.and_eq_true, List.all_eq_true, and_comm]
  apply and_congr
  · constructor
    · intro h m hm a ha
      have := h m hm
      simpa [ha] using this
    · intro h m hm
      cases ha : m[i]? with
      | none => rfl
      | some a => simpa using h m hm a ha
  · rw [List.getD_eq_getElem?_getD]
    cases support[i]? with
    | none => simp
    | some b => cases b <;> simp

theorem topAt_ge (i : Nat) (meshes : List (List Layer)) : ∀ z, z ≤ topAt i meshes z ∧ ∀ m ∈ meshes, ∀ a, m[i]? = some a → a.z ≤ topAt i meshes z := by
  induction meshes with
  | nil => intro z; exact ⟨le_refl _, by simp⟩
  | cons m ms ih =>
    intro z
    rw [topAt]
    cases hm : m[i]? with
    | none =>
      dsimp only
      refine ⟨(ih z).1, ?_⟩
      intro m' hm' a ha
      rcases List.mem_cons.1 hm' with rfl | hm'
      · rw [hm] at ha; simp at ha
      · exact (ih z).2 m' hm' a ha
    | some b =>
      dsimp only
      have h1 := (ih (max z b.z)).1
      refine ⟨le_trans (le_max_left _ _) h1, ?_⟩
      intro m' hm' a ha
      rcases List.mem_cons.1 hm' with rfl | hm'
      · rw [hm] at ha; cases ha
        exact le_trans (le_max_right _ _) h1
      · exact (ih _).2 m' hm' a ha

theorem topAt_mem (i : Nat) (meshes : List (List Layer)) : ∀ z, topAt i meshes z = z ∨ ∃ m ∈ meshes, ∃ a, m[i]? = some a ∧ topAt i meshes z = a.z := by
  induction meshes with
  | nil => intro z; exact .inl rfl
  | cons m ms ih =>
    intro z
    rw [topAt]
    cases hm : m[i]? with
    | none =>
      dsimp only
      rcases ih z with h | ⟨m', h1, a, h2, h3⟩
      · exact .inl h
      · exact .inr ⟨m', by simp [h1], a, h2, h3⟩
    | some b =>
      dsimp only
      rcases ih (max z b.z) with h | ⟨m', h1, a, h2, h3⟩
      · rcases le_total z b.z with hz | hz
        · right; exact ⟨m, by simp, b, hm, by rw [h, max_eq_right hz]⟩
        · left; rw [h, max_eq_left hz]
      · exact .inr ⟨m', by simp [h1], a, h2, h3⟩

theorem count_ok (meshes : List (List Layer)) (support : List Bool) : ∀ (left i : Nat) (top : Int), 0 ≤ top → (∀ k < i, EmptyLayer meshes support k) →
    (∀ k < i, ∀ m ∈ meshes, ∀ a, m[k]? = some a → a.z ≤ top) → (top = 0 ∨ ∃ k < i, ∃ m ∈ meshes, ∃ a, m[k]? = some a ∧ top = a.z) →
    ∃ n t, count meshes support left i i top = (n, t) ∧ i ≤ n ∧ n ≤ i + left ∧ (∀ k < n, EmptyLayer meshes support k) ∧ (n < i + left → ¬ EmptyLayer meshes support n) ∧
      0 ≤ t ∧ (∀ k < n, ∀ m ∈ meshes, ∀ a, m[k]? = some a → a.z ≤ t) ∧ (t = 0 ∨ ∃ k < n, ∃ m ∈ meshes, ∃ a, m[k]? = some a ∧ t = a.z) := by
  intro left
  induction left with
  | zero => intro i top h0 h1 h2 h3; exact ⟨i, top, rfl, le_refl _, le_refl _, h1, by omega, h0, h2, h3⟩
  | succ l ih =>
    intro i top h0 h1 h2 h3
    rw [count]
    by_cases he : isEmpty meshes support i = true
    · rw [if_pos he]
      obtain ⟨n, t, g1, g2, g3, g4, g5, g6⟩ := ih (i + 1) (max top (topAt i meshes 0)) (le_trans h0 (le_max_left _ _)) (by
          intro k hk
          rcases Nat.lt_succ_iff_lt_or_eq.1 hk with hk | rfl
          · exact h1 k hk
          · exact (isEmpty_iff _ _ _).1 he) (by
          intro k hk m hm a ha
          rcases Nat.lt_succ_iff_lt_or_eq.1 hk with hk | rfl
          · exact le_trans (h2 k hk m hm a ha) (le_max_left _ _)
          · exact le_trans ((topAt_ge k meshes 0).2 m hm a ha) (le_max_right _ _)) (by
          rcases le_total top (topAt i meshes 0) with hz | hz
          · rw [max_eq_right hz]
            rcases topAt_mem i meshes 0 with h | ⟨m, g1, a, g2, g3⟩
            · exact .inl h
            · exact .inr ⟨i, by omega, m, g1, a, g2, g3⟩
          · rw [max_eq_left hz]
            rcases h3 with h | ⟨k, hk, r⟩
            · exact .inl h
            · exact .inr ⟨k, by omega, r⟩)
      exact ⟨n, t, g1, by omega, by omega, g4, fun h => g5 (by omega), g6⟩
    · rw [if_neg he]
      exact ⟨i, top, rfl, le_refl _, by omega, h1, fun _ h => he ((isEmpty_iff _ _ _).2 h), h0, h2, h3⟩

/-- What is left of a mesh. -/
def CutTo (n : Nat) (top : Int) (m m' : List Layer) : Prop :=
  m'.length = m.length - n ∧ ∀ i a, m[n + i]? = some a → ∃ b, m'[i]? = some b ∧ b.parts = a.parts ∧ b.z = a.z - top ∧ (i ≠ 0 → b.thick = a.thick) ∧ (i = 0 → ∀ c, m.head? = some c → b.thick = c.thick)

theorem cutMesh_ok (n : Nat) (top : Int) (m : List Layer) (h : n ≤ m.length) : ∃ m', cutMesh n top m = some m' ∧ CutTo n top m m' := by
  unfold cutMesh
  cases ha : m.head? with
  | none =>
    dsimp only
    rw [if_pos h]
    refine ⟨_, rfl, by simp, ?_⟩
    intro i a hi
    rw [List.head?_eq_none_iff] at ha
    subst ha
    simp at hi
  | some a =>
    cases hb : m[n]? with
    | none =>
      dsimp only
      rw [if_pos h]
      refine ⟨_, rfl, by simp, ?_⟩
      intro i b hi
      rw [List.getElem?_eq_none_iff] at hb
      have := (List.getElem?_eq_some_iff.1 hi).1
      omega
    | some b =>
      dsimp only
      rw [if_pos (by simpa using h)]
      refine ⟨_, rfl, by simp, ?_⟩
      intro i c hi
      rw [List.getElem?_map, List.getElem?_drop, List.getElem?_set]
      have hlen := (List.getElem?_eq_some_iff.1 hb).1
      by_cases hz : i = 0
      · subst hz
        rw [Nat.add_zero] at hi ⊢
        rw [hb] at hi
        cases hi
        rw [if_pos rfl, if_pos hlen]
        refine ⟨_, rfl, rfl, rfl, by simp, ?_⟩
        intro _ d hd
        rw [ha] at hd
        cases hd
        rfl
      · rw [if_neg (by omega), hi]
        exact ⟨_, rfl, rfl, rfl, fun _ => rfl, fun h0 => absurd h0 hz⟩

theorem mapM_cut (n : Nat) (top : Int) (meshes : List (List Layer)) (h : ∀ m ∈ meshes, n ≤ m.length) : ∃ ms, meshes.mapM (cutMesh n top) = some ms ∧ List.Forall₂ (CutTo n top) meshes ms := by
  induction meshes with
  | nil => exact ⟨[], rfl, .nil⟩
  | cons m ms ih =>
    obtain ⟨r, h1, h2⟩ := ih (fun x hx => h x (by simp [hx]))
    obtain ⟨m', h3, h4⟩ := cutMesh_ok n top m (h m (by simp))
    exact ⟨m' :: r, by simp [List.mapM_cons, h1, h3], .cons h4 h2⟩

end Verif.FirstLayers
