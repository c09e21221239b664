import Verif.Monotonic.LinkLemmas

/-! # The order of sequences -/

namespace Verif.Monotonic

/-- The lines that are planned behind a line. -/
def chainIds (S : List Nat) (next : Nat → Option Nat) : Nat → Nat → List Nat
  | 0, _ => []
  | n + 1, i => match next i with
    | none => []
    | some j => if j ∈ S then [] else j :: chainIds S next n j

/-- All start vertices are known. -/
def Known (out : List (Nat × Start)) : Prop := ∀ x ∈ out, x.2 ≠ .unknown

theorem closestStart_known (path : Nat → Path) (w : Walk) (i : Nat) : closestStart path w i ≠ .unknown := by
  unfold closestStart
  split
  · split <;> simp
  · assumption

theorem chain_known (path : Nat → Path) (l : Links) (n i : Nat) (checked : List (Nat × Nat)) (w : Walk) (h : Known w.out) :
    Known (chain path l n i checked w).out := by
  induction n generalizing i checked w with
  | zero => exact h
  | succ n ih =>
    unfold chain
    split
    · exact h
    · split
      · exact h
      · split
        · exact h
        · apply ih
          intro x hx
          simp only [Walk.plan, List.mem_append, List.mem_singleton] at hx
          rcases hx with hx | rfl
          · exact h x hx
          · exact closestStart_known _ _ _

theorem chain_ids (path : Nat → Path) (l : Links) (r : Nat → Nat) (hr : ∀ i j, l.next i = some j → r i < r j) (n i : Nat)
    (checked : List (Nat × Nat)) (w : Walk) (hc : ∀ x ∈ checked, r x.1 < r i) :
    (chain path l n i checked w).out.map (·.1) = w.out.map (·.1) ++ chainIds l.starting l.next n i := by
  induction n generalizing i checked w with
  | zero => simp [chain, chainIds]
  | succ n ih =>
    unfold chain chainIds
    cases hx : l.next i with
    | none => simp
    | some j =>
      dsimp only
      by_cases hj : j ∈ l.starting
      · rw [if_pos hj, if_pos hj]; simp
      · rw [if_neg hj, if_neg hj]
        have hl : checked.lookup i = none := by
          rw [List.lookup_eq_none_iff]
          intro x hx
          have := hc x hx
          rw [bne_iff_ne]
          rintro rfl
          omega
        have hij := hr i j hx
        rw [if_neg (by rw [hl]; simp), ih]
        · simp [Walk.plan]
        · intro x hx
          rw [List.mem_append, List.mem_singleton] at hx
          rcases hx with hx | rfl
          · exact (hc x hx).trans hij
          · exact hij

theorem closest_some (path : Nat → Path) (pos : Pt) (l : List Nat) (best : Option (Int × Nat × Start)) (h : best = none → l ≠ []) :
    ∃ x, closest path pos l best = some x ∧ ((x.2.1 ∈ l ∧ x.2.2 ≠ .unknown) ∨ best = some x) := by
  induction l generalizing best with
  | nil =>
    cases best with
    | none => exact absurd rfl (h rfl)
    | some x => exact ⟨x, rfl, .inr rfl⟩
  | cons i l ih =>
    unfold closest
    have key : ∀ (b : Option (Int × Nat × Start)) (s : Start), s ≠ .unknown →
        ∃ y, better path pos i s b = some y ∧ ((y.2.1 = i ∧ y.2.2 ≠ .unknown) ∨ b = some y) := by
      intro b s hs
      match b with
      | none => exact ⟨_, rfl, .inl ⟨rfl, hs⟩⟩
      | some (d, j, t) =>
        unfold better
        dsimp only
        by_cases hd : dist2 pos ((path i).at s) < d
        · rw [if_pos hd]; exact ⟨_, rfl, .inl ⟨rfl, hs⟩⟩
        · rw [if_neg hd]; exact ⟨_, rfl, .inr rfl⟩
    obtain ⟨y, hy, hy'⟩ := key best .first (by simp)
    obtain ⟨z, hz, hz'⟩ := key (some y) .last (by simp)
    rw [hy, hz]
    obtain ⟨x, hx, hx'⟩ := ih (some z) (by simp)
    refine ⟨x, hx, ?_⟩
    rcases hx' with ⟨hx1, hx2⟩ | hx'
    · exact .inl ⟨List.mem_cons_of_mem _ hx1, hx2⟩
    · cases hx'
      rcases hz' with ⟨hz1, hz2⟩ | hz'
      · exact .inl ⟨by rw [hz1]; simp, hz2⟩
      · cases hz'
        rcases hy' with ⟨hy1, hy2⟩ | hy'
        · exact .inl ⟨by rw [hy1]; simp, hy2⟩
        · exact .inr hy'

theorem rows_known (c : Config) (path : Nat → Path) (l : Links) (n m : Nat) (rest : List Nat) (w : Walk) (h : Known w.out) :
    Known (rows c path l n m rest w).out := by
  induction m generalizing rest w with
  | zero => exact h
  | succ m ih =>
    cases rest with
    | nil => exact h
    | cons x rest =>
      unfold rows
      obtain ⟨y, hy, hy'⟩ := closest_some path w.pos ((x :: rest).takeWhile fun i => key c (path i) = key c (path x)) none (by simp)
      rw [hy]
      obtain ⟨d, i, s⟩ := y
      dsimp only
      apply ih
      apply chain_known
      intro z hz
      simp only [Walk.plan, List.mem_append, List.mem_singleton] at hz
      rcases hz with hz | rfl
      · exact h z hz
      · rcases hy' with hy' | hy'
        · exact hy'.2
        · cases hy'

/-- A line with those behind it. -/
def block (S : List Nat) (next : Nat → Option Nat) (n i : Nat) : List Nat := i :: chainIds S next n i

theorem keyLe_trans {a b c : Int × Int} (h1 : keyLe a b = true) (h2 : keyLe b c = true) : keyLe a c = true := by
  simp only [keyLe, decide_eq_true_eq] at *
  omega

theorem keyLe_total (a b : Int × Int) : (keyLe a b || keyLe b a) = true := by
  simp only [keyLe, Bool.or_eq_true, decide_eq_true_eq]
  omega

theorem keyLe_refl (a : Int × Int) : keyLe a a = true := by
  simp [keyLe]

theorem rows_ids (c : Config) (path : Nat → Path) (l : Links) (r : Nat → Nat) (hr : ∀ i j, l.next i = some j → r i < r j) (n m : Nat)
    (rest : List Nat) (w : Walk) (hm : rest.length ≤ m) (hs : rest.Pairwise fun i j => keyLe (key c (path i)) (key c (path j)) = true) :
    ∃ pops : List Nat, pops.Perm rest ∧ pops.Pairwise (fun i j => keyLe (key c (path i)) (key c (path j)) = true) ∧
      (rows c path l n m rest w).out.map (·.1) = w.out.map (·.1) ++ pops.flatMap (block l.starting l.next n) := by
  induction m generalizing rest w with
  | zero =>
    have : rest = [] := by
      cases rest with
      | nil => rfl
      | cons _ _ => simp at hm
    subst this
    exact ⟨[], .refl _, List.Pairwise.nil, by simp [rows]⟩
  | succ m ih =>
    cases rest with
    | nil => exact ⟨[], .refl _, List.Pairwise.nil, by simp [rows]⟩
    | cons x rest =>
      unfold rows
      obtain ⟨y, hy, hy'⟩ := closest_some path w.pos ((x :: rest).takeWhile fun i => key c (path i) = key c (path x)) none (by simp)
      rw [hy]
      obtain ⟨d, i, s⟩ := y
      dsimp only
      have hi : i ∈ (x :: rest).takeWhile fun i => key c (path i) = key c (path x) := by
        rcases hy' with hy' | hy'
        · exact hy'.1
        · cases hy'
      have hmem : i ∈ x :: rest := (List.takeWhile_sublist _).subset hi
      have hkey : key c (path i) = key c (path x) := by
        have := List.all_takeWhile (p := fun i => decide (key c (path i) = key c (path x))) (l := x :: rest)
        rw [List.all_eq_true] at this
        simpa using this i hi
      have hle : ∀ j ∈ x :: rest, keyLe (key c (path i)) (key c (path j)) = true := by
        intro j hj
        rw [hkey]
        rw [List.mem_cons] at hj
        rcases hj with rfl | hj
        · exact keyLe_refl _
        · exact (List.pairwise_cons.mp hs).1 j hj
      obtain ⟨pops, h1, h2, h3⟩ := ih ((x :: rest).erase i) (chain path l n i [] (w.plan path i s))
        (by rw [List.length_erase_of_mem hmem]; simp at hm ⊢; omega) (hs.sublist List.erase_sublist)
      refine ⟨i :: pops, ?_, ?_, ?_⟩
      · exact (h1.cons i).trans (List.perm_cons_erase hmem).symm
      · rw [List.pairwise_cons]
        refine ⟨fun j hj => hle j ?_, h2⟩
        exact List.mem_of_mem_erase (h1.mem_iff.mp hj)
      · rw [h3, chain_ids path l r hr n i [] _ (by simp), List.flatMap_cons, block]
        simp [Walk.plan]

/-! ## Each line once -/

section
variable {S : List Nat} {next : Nat → Option Nat} {r : Nat → Nat} {N : Nat}

theorem chainIds_rank (hr : ∀ i j, next i = some j → r i < r j) (n i : Nat) : ∀ j ∈ chainIds S next n i, r i < r j := by
  induction n generalizing i with
  | zero => simp [chainIds]
  | succ n ih =>
    intro j hj
    unfold chainIds at hj
    split at hj
    · simp at hj
    · rename_i k hk
      split at hj
      · simp at hj
      · rw [List.mem_cons] at hj
        rcases hj with rfl | hj
        · exact hr _ _ hk
        · exact (hr _ _ hk).trans (ih k j hj)

theorem chainIds_not (n i : Nat) : ∀ j ∈ chainIds S next n i, j ∉ S := by
  induction n generalizing i with
  | zero => simp [chainIds]
  | succ n ih =>
    intro j hj
    unfold chainIds at hj
    split at hj
    · simp at hj
    · split at hj
      · simp at hj
      · rename_i h
        rw [List.mem_cons] at hj
        rcases hj with rfl | hj
        · exact h
        · exact ih _ j hj

theorem chainIds_next (n i : Nat) : ∀ j ∈ chainIds S next n i, ∃ k, next k = some j := by
  induction n generalizing i with
  | zero => simp [chainIds]
  | succ n ih =>
    intro j hj
    unfold chainIds at hj
    split at hj
    · simp at hj
    · rename_i k hk
      split at hj
      · simp at hj
      · rw [List.mem_cons] at hj
        rcases hj with rfl | hj
        · exact ⟨_, hk⟩
        · exact ih _ j hj

theorem count_chain (hr : ∀ i j, next i = some j → r i < r j) (hN : ∀ i, r i ≤ N) {j p : Nat} (hj : j ∉ S) (hp : next p = some j)
    (hu : ∀ q, next q = some j → q = p) (n i : Nat) (hn : N < n + r i) (hij : i ≠ j) :
    (chainIds S next n i).count j = (i :: chainIds S next n i).count p := by
  induction n generalizing i with
  | zero =>
    have := hN i
    omega
  | succ n ih =>
    unfold chainIds
    cases hx : next i with
    | none =>
      have : p ≠ i := by rintro rfl; rw [hp] at hx; cases hx
      simp [List.count_cons, this.symm]
    | some k =>
      dsimp only
      by_cases hk : k ∈ S
      · rw [if_pos hk]
        have : p ≠ i := by rintro rfl; rw [hp] at hx; cases hx; exact hj hk
        simp [List.count_cons, this.symm]
      · rw [if_neg hk]
        have hik := hr i k hx
        by_cases hkj : k = j
        · subst hkj
          have hip : i = p := hu i hx
          subst hip
          have h1 : (chainIds S next n k).count k = 0 := by
            rw [List.count_eq_zero]
            intro hm
            exact absurd (chainIds_rank hr n k k hm) (by omega)
          have h2 : (chainIds S next n k).count i = 0 := by
            rw [List.count_eq_zero]
            intro hm
            exact absurd (chainIds_rank hr n k i hm) (by omega)
          simp [List.count_cons, h1, h2, hij.symm]
        · have hpi : i ≠ p := by rintro rfl; rw [hp] at hx; cases hx; exact hkj rfl
          rw [List.count_cons_of_ne hkj, List.count_cons_of_ne hpi]
          exact ih k (by omega) hkj

theorem count_pops_start (pops : List Nat) (n : Nat) {j : Nat} (hj : j ∈ S) : (pops.flatMap (block S next n)).count j = pops.count j := by
  induction pops with
  | nil => rfl
  | cons s pops ih =>
    rw [List.flatMap_cons, List.count_append, ih, block, List.count_cons, List.count_cons]
    have : (chainIds S next n s).count j = 0 := by
      rw [List.count_eq_zero]
      intro hm
      exact chainIds_not n s j hm hj
    omega

theorem count_pops_next (hr : ∀ i j, next i = some j → r i < r j) (hN : ∀ i, r i ≤ N) {j p : Nat} (hj : j ∉ S) (hp : next p = some j)
    (hu : ∀ q, next q = some j → q = p) (n : Nat) (hn : N < n) (pops : List Nat) (hps : ∀ s ∈ pops, s ∈ S) :
    (pops.flatMap (block S next n)).count j = (pops.flatMap (block S next n)).count p := by
  induction pops with
  | nil => rfl
  | cons s pops ih =>
    have hsj : s ≠ j := by rintro rfl; exact hj (hps s (by simp))
    rw [List.flatMap_cons, List.count_append, List.count_append, ih fun x hx => hps x (by simp [hx]), block, List.count_cons_of_ne hsj,
      count_chain hr hN hj hp hu n s (by omega) hsj]

/-- Each line is planned once. -/
theorem count_one (hr : ∀ i j, next i = some j → r i < r j) (hN : ∀ i, r i ≤ N) (ids : List Nat)
    (hback : ∀ j ∈ ids, j ∉ S → ∃ p ∈ ids, next p = some j ∧ ∀ q, next q = some j → q = p) (hSn : S.Nodup) (n : Nat) (hn : N < n)
    (pops : List Nat) (hp : pops.Perm S) (j : Nat) (hj : j ∈ ids) : (pops.flatMap (block S next n)).count j = 1 := by
  induction hk : r j using Nat.strong_induction_on generalizing j with
  | _ k ih =>
    by_cases hjS : j ∈ S
    · rw [count_pops_start pops n hjS, hp.count_eq]
      exact List.count_eq_one_of_mem hSn hjS
    · obtain ⟨p, hpi, hpn, hpu⟩ := hback j hj hjS
      rw [count_pops_next hr hN hjS hpn hpu n hn pops fun s hs => hp.mem_iff.mp hs]
      exact ih (r p) (hk ▸ hr p j hpn) p hpi rfl

end

end Verif.Monotonic
