import Verif.Spiral.FollowLemmas

/-! # The last layer of a spiral -/

namespace Verif.Spiral

variable {len : Pt → Pt → ℚ}

theorem write_top (hl : Lengths len) {c : Cfg} {z t : Int} {wall lastWall : List Pt} {seam : Nat} {lastSeam : Option Nat} {bottom : Bool}
    {o : Pt} {moves : List Move} {n m : Nozzle} {out : List Out} (ht : 0 ≤ t) (hseam : seam < wall.length) (hw : ∃ p ∈ wall, p ≠ o)
    (hd : ∀ p, (once wall seam).head? = some p → p ≠ wall[seam])
    (hs : slice len c t wall lastWall seam lastSeam true bottom = some (o, moves)) (hz : n.z = z)
    (h : write len z t n ((moves.foldl add (addTravel [] o)).reverse) = some (m, out)) :
    ∃ (ms : List Move) (up down : List Out), out = ⟨o, z, none⟩ :: (up ++ down) ∧
      (∃ first, join c o wall seam lastSeam = some first ∧ ms = first ++ spiralMoves len c lastWall bottom
        (speedFactor c true (along len o (once wall seam))) (along len o (once wall seam)) 0 o (once wall seam)) ∧
      up.map Out.dst = ms.map Move.dst ∧ up.map Out.flow = ms.map (fun m => some m.flow) ∧
      down.map Out.dst = (taperMoves len t (speedFactor c true (along len o (once wall seam))) (along len o (once wall seam)) 0 0 wall[seam]
        (once wall seam)).map Move.dst ∧
      down.map Out.flow = (taperMoves len t (speedFactor c true (along len o (once wall seam))) (along len o (once wall seam)) 0 0 wall[seam]
        (once wall seam)).map (fun m => some m.flow) ∧
      (∀ a ∈ up ++ down, a.flow.isSome) ∧ (z :: up.map Out.z).Pairwise (· ≤ ·) ∧
      (∀ a ∈ up, a.z ≤ z + t) ∧ (∃ a, up.getLast? = some a ∧ a.dst = wall[seam]) ∧ ∀ a ∈ down, a.z = z + 2 * (t / 2) := by
  obtain ⟨up, h1, h2, ⟨u, h3, h4, h5⟩, hfirst⟩ := slice_up hl hseam hw hs
  simp only [if_true] at h1
  generalize htm : taperMoves len t (speedFactor c true (along len o (once wall seam))) (along len o (once wall seam)) 0 0 wall[seam] (once wall seam) = taper at h1
  have hk : ∀ m ∈ taper, m.spiral = false ∧ m.z = t.tdiv 2 := by
    rw [← htm]
    intro m hm
    have := taperMoves_kind _ _ _ _ _ _ _ m hm
    exact ⟨this.1, this.2.1⟩
  have hall0 := along_once_ne hl hseam hw
  rw [once_rotate hseam] at hall0
  have hall : 0 < along len o (once wall seam) := lt_of_le_of_ne (along_nonneg hl.nonneg _ _) (Ne.symm hall0)
  have hsep : ∀ m, taper.head? = some m → ∀ v, up.getLast? = some v → v.flow ≠ m.flow := by
    intro m hm v hv
    rw [h3] at hv
    cases hv
    rw [h5]
    cases ho : once wall seam with
    | nil => rw [← htm, ho] at hm; simp [taperMoves] at hm
    | cons p ps =>
      rw [← htm, ho, taperMoves, if_pos (by norm_num)] at hm
      simp only [List.head?_cons, Option.some.injEq] at hm
      subst hm
      have hlt : 0 < len wall[seam] p := lt_of_le_of_ne (hl.nonneg _ _) fun e => hd p (by rw [ho]; rfl) (hl.zero _ _ e.symm).symm
      rw [ho] at hall
      show (1 : ℚ) ≠ _
      have hfl : ∀ f : ℚ, f < 1 → (1 : ℚ) ≠ (⌊f * 20⌋ : ℚ) / 20 := by
        intro f hf e
        have h20 : ((⌊f * 20⌋ : Int) : ℚ) = 20 := by linarith
        have := Int.floor_le (f * 20)
        linarith
      apply hfl
      split
      · norm_num
      · have : 0 < (0 + len wall[seam] p) / along len o (p :: ps) := div_pos (by linarith) hall
        linarith
  have hne : up ≠ [] := by rintro rfl; simp at h3
  rw [h1, write_plan (fun m hm => (h2 m hm).1) (fun m hm => (hk m hm).1) hne hsep] at h
  simp only [Option.bind_eq_some_iff, Option.map_eq_some_iff, hz, ne_eq, not_true_eq_false, if_false, List.nil_append, List.singleton_append] at h
  obtain ⟨q, hq, s, hs', e⟩ := h
  obtain ⟨-, rfl⟩ := Prod.mk.inj e
  obtain ⟨g1, g2, g3, g4, g5, g6⟩ := up_heights (fun m hm => (h2 m hm).2) hq
  obtain ⟨r', o', k1, k2, k3, -⟩ := spiralFlat_end (len := len) (z0 := z) (t := t) (all := along len o ((up ++ taper).map Move.dst)) (r := q.1)
    (l := taper.map Move.step)
  rw [hs'] at k1
  cases k1
  have hA := along_nonneg hl.nonneg o ((up ++ taper).map Move.dst)
  have hA0 := g2 hne
  have hrise := up_rises hl.nonneg ht hA g6
  have hz0 : ∀ x ∈ up.map Move.step, 0 ≤ x.z := by
    intro x hx; obtain ⟨m, hm, rfl⟩ := List.mem_map.mp hx; exact ((h2 m hm).2).ge
  have hz1 : ∀ x ∈ taper.map Move.step, 0 ≤ x.z := by
    intro x hx; obtain ⟨m, hm, rfl⟩ := List.mem_map.mp hx
    show 0 ≤ m.z
    rw [(hk m hm).2]; exact Int.tdiv_nonneg ht (by norm_num)
  obtain ⟨f1, f2⟩ := spiralFlat_flow (r := ⟨o, 0, z⟩) hl.nonneg ht hA (by exact le_refl _) (by exact le_refl _) hz0 hq
  obtain ⟨f3, -⟩ := spiralFlat_flow hl.nonneg ht hA (by rw [g5]; exact along_nonneg hl.nonneg _ _) f2 hz1 hs'
  have hsome : ∀ (x : List Out) (y : List Step), x.map Out.flow = y.map (fun s => some s.flow) → ∀ a ∈ x, a.flow.isSome := by
    intro x y hxy a ha
    have : a.flow ∈ x.map Out.flow := List.mem_map_of_mem ha
    rw [hxy] at this
    obtain ⟨v, -, hv⟩ := List.mem_map.mp this
    rw [← hv]; rfl
  refine ⟨up, q.2, o', rfl, hfirst, g1, by rw [f1, List.map_map]; rfl, by rw [k2, map_step_dst], by rw [f3, List.map_map]; rfl, ?_, hrise, ?_, ?_, ?_⟩
  · intro a ha
    rcases List.mem_append.mp ha with ha | ha
    · exact hsome _ _ f1 a ha
    · exact hsome _ _ f3 a ha
  · intro a ha
    obtain ⟨i, hi⟩ := List.getElem?_of_mem ha
    rw [g6 i a hi]
    have hle : (t : ℚ) * along len o ((q.2.map Out.dst).take (i + 1)) / along len o ((up ++ taper).map Move.dst) ≤ t := by
      rw [div_le_iff₀ (lt_of_le_of_ne hA (Ne.symm hA0))]
      apply mul_le_mul_of_nonneg_left _ (by exact_mod_cast ht)
      calc along len o ((q.2.map Out.dst).take (i + 1)) ≤ along len o (q.2.map Out.dst) := along_take_le hl.nonneg _ _ _
        _ = along len o (up.map Move.dst) := by rw [g1]
        _ ≤ along len o ((up ++ taper).map Move.dst) := by
          rw [List.map_append, along_append]
          have := along_nonneg hl.nonneg ((up.map Move.dst).getLast?.getD o) (taper.map Move.dst)
          linarith
    have := roundAway_mono (div_nonneg (mul_nonneg (by exact_mod_cast ht) (along_nonneg hl.nonneg _ _)) hA) hle
    rw [roundAway_int t ht] at this
    omega
  · have : (q.2.map Out.dst).getLast? = some wall[seam] := by rw [g1, List.getLast?_map, h3, ← h4]; rfl
    rw [List.getLast?_map, Option.map_eq_some_iff] at this
    exact this
  · intro a ha
    have : a.z ∈ o'.map Out.z := List.mem_map_of_mem ha
    rw [k3] at this
    obtain ⟨x, hx, hxz⟩ := List.mem_map.mp this
    obtain ⟨m', hm', rfl⟩ := List.mem_map.mp hx
    have hmz := (hk m' hm').2
    have e : (m'.step).z = m'.z := rfl
    rw [← hxz, e, hmz, Int.tdiv_eq_ediv_of_nonneg ht]
    omega


/-- A property that stays once it holds begins somewhere. -/
theorem exists_first (low : Nat → Prop) (hm : ∀ i j, i ≤ j → low i → low j) (n : Nat) : ∃ k ≤ n, (∀ i, i < k → ¬low i) ∧ ∀ i, k ≤ i → i < n → low i := by
  classical
  induction n with
  | zero => exact ⟨0, le_refl _, by simp, by simp⟩
  | succ n ih =>
    obtain ⟨k, h1, h2, h3⟩ := ih
    by_cases hn : low n
    · refine ⟨k, by omega, h2, ?_⟩
      intro i hi hlt
      rcases Nat.lt_succ_iff_lt_or_eq.mp hlt with h | rfl
      · exact h3 i hi h
      · exact hn
    · have hk : k = n := by
        by_contra hne
        exact hn (hm k n h1 (h3 k (le_refl _) (by omega)))
      subst hk
      refine ⟨k + 1, le_refl _, ?_, by intro i h h'; omega⟩
      intro i hi
      rcases Nat.lt_succ_iff_lt_or_eq.mp hi with h | rfl
      · exact h2 i h
      · exact hn

theorem taperMoves_prefix (t : Int) (speed all acc coasted : ℚ) (p0 : Pt) (l : List Pt) :
    (taperMoves len t speed all acc coasted p0 l).map Move.dst <+: l := by
  induction l generalizing acc coasted p0 with
  | nil => simp [taperMoves]
  | cons p ps ih =>
    rw [taperMoves]
    split
    · simp only [List.map_cons, List.prefix_cons_inj]
      exact ih _ _ _
    · simp

theorem taperMoves_flow (t : Int) (speed all acc coasted : ℚ) (p0 : Pt) (l : List Pt) (i : Nat) (m : Move)
    (h : (taperMoves len t speed all acc coasted p0 l)[i]? = some m) :
    m.flow = (⌊(if 1 - (acc + along len p0 (l.take (i + 1))) / all < 1 / 4 then 0 else 1 - (acc + along len p0 (l.take (i + 1))) / all) * 20⌋ : ℚ) / 20 := by
  induction l generalizing acc coasted p0 i with
  | nil => simp [taperMoves] at h
  | cons p ps ih =>
    rw [taperMoves] at h
    split at h
    · cases i with
      | zero =>
        simp only [List.getElem?_cons_zero, Option.some.injEq] at h
        subst h
        simp [along]
      | succ i =>
        simp only [List.getElem?_cons_succ] at h
        have := ih _ _ _ i h
        simp only [List.take_succ_cons, along, ← add_assoc] at this ⊢
        exact this
    · simp at h

theorem taperMoves_length (hlen : ∀ p q, 0 ≤ len p q) (t : Int) (speed : ℚ) {all : ℚ} (acc coasted : ℚ) (p0 : Pt) (l : List Pt) (k : Nat)
    (h1 : ∀ i, i < k → i < l.length → ¬(1 - (acc + along len p0 (l.take (i + 1))) / all < 1 / 4))
    (h2 : ∀ i, k ≤ i → i < l.length → 1 - (acc + along len p0 (l.take (i + 1))) / all < 1 / 4) (i : Nat) (hi : i < l.length) :
    i < (taperMoves len t speed all acc coasted p0 l).length ↔ coasted + along len p0 (l.take i) - along len p0 (l.take (min i k)) < 10 := by
  induction l generalizing acc coasted p0 k i with
  | nil => simp at hi
  | cons p ps ih =>
    rw [taperMoves]
    by_cases hc : coasted < 10
    · rw [if_pos hc]
      cases i with
      | zero => simpa [along] using hc
      | succ i =>
        simp only [List.length_cons, Nat.add_lt_add_iff_right] at hi ⊢
        have shift : ∀ j, acc + along len p0 ((p :: ps).take (j + 1 + 1)) = acc + len p0 p + along len p (ps.take (j + 1)) := by
          intro j; simp only [List.take_succ_cons, along, ← add_assoc]
        cases k with
        | zero =>
          have h0 := h2 0 (le_refl _) (by simp)
          simp only [zero_add, List.take_succ_cons, List.take_zero, along, add_zero] at h0
          rw [ih (acc + len p0 p) _ p 0 (by intro j hj; omega) (by
            intro j _ hj; have := h2 (j + 1) (by omega) (by simpa using hj); rwa [shift] at this) i hi]
          simp only [h0, decide_true, if_true, Nat.min_zero, List.take_zero, along, List.take_succ_cons, sub_zero, add_assoc]
        | succ k =>
          have h0 := h1 0 (by omega) (by simp)
          simp only [zero_add, List.take_succ_cons, List.take_zero, along, add_zero] at h0
          rw [ih (acc + len p0 p) _ p k (by
            intro j hj hj'; have := h1 (j + 1) (by omega) (by simpa using hj'); rwa [shift] at this) (by
            intro j hk hj; have := h2 (j + 1) (by omega) (by simpa using hj); rwa [shift] at this) i hi]
          simp only [h0, decide_false, Nat.add_min_add_right, along, List.take_succ_cons]
          rw [show coasted + (len p0 p + along len p (ps.take i)) - (len p0 p + along len p (ps.take (min i k))) =
            coasted + along len p (ps.take i) - along len p (ps.take (min i k)) by ring]
          simp
    · rw [if_neg hc]
      have := along_take_mono hlen p0 (p :: ps) (min_le_left i k)
      simp only [List.length_nil, Nat.not_lt_zero, false_iff, not_lt]
      linarith

/-- The taper as it is written. -/
theorem tapers_of (hlen : ∀ p q, 0 ≤ len p q) {t : Int} {speed all : ℚ} (hall : 0 < all) {p0 : Pt} {l : List Pt} {out : List Out}
    (hdst : out.map Out.dst = (taperMoves len t speed all 0 0 p0 l).map Move.dst)
    (hflow : out.map Out.flow = (taperMoves len t speed all 0 0 p0 l).map (fun m => some m.flow)) : Tapers len all p0 l out := by
  have hlength : out.length = (taperMoves len t speed all 0 0 p0 l).length := by
    have := congrArg List.length hdst
    simpa using this
  have hf : ∀ i m, out[i]? = some m → m.flow = some ((⌊(if 1 - (along len p0 (l.take (i + 1))) / all < 1 / 4 then 0 else
      1 - (along len p0 (l.take (i + 1))) / all) * 20⌋ : ℚ) / 20) := by
    intro i m hm
    have e := congrArg (fun x => x[i]?) hflow
    simp only [List.getElem?_map, hm, Option.map_some] at e
    cases hq : (taperMoves len t speed all 0 0 p0 l)[i]? with
    | none => rw [hq] at e; simp at e
    | some q =>
      rw [hq] at e
      simp only [Option.map_some, Option.some.injEq] at e
      rw [e, taperMoves_flow _ _ _ _ _ _ _ _ _ hq]
      simp only [zero_add]
  obtain ⟨k, hk1, hk2, hk3⟩ := exists_first (fun i => 1 - (along len p0 (l.take (i + 1))) / all < 1 / 4) (by
    intro i j hij h
    have := along_take_mono hlen p0 l (Nat.add_le_add_right hij 1)
    have := div_le_div_of_nonneg_right this hall.le
    linarith) l.length
  refine ⟨by rw [hdst]; exact taperMoves_prefix _ _ _ _ _ _ _, k, ?_, ?_, ?_⟩
  · intro i m hm hik
    have hn := hk2 i hik
    rw [hf i m hm, if_neg hn]
    have h1 := Int.floor_le ((1 - along len p0 (l.take (i + 1)) / all) * 20)
    have h2 := Int.lt_floor_add_one ((1 - along len p0 (l.take (i + 1)) / all) * 20)
    refine ⟨_, rfl, ?_, ?_, not_lt.mp hn⟩
    · rw [div_le_iff₀ (by norm_num)]; exact h1
    · rw [lt_div_iff₀ (by norm_num)]; exact h2
  · intro i m hm hik
    have hi : i < l.length := by
      have h1 := (List.getElem?_eq_some_iff.mp hm).1
      have h2 := (taperMoves_prefix (len := len) t speed all 0 0 p0 l).length_le
      rw [List.length_map] at h2
      omega
    have hlow := hk3 i hik hi
    rw [hf i m hm, if_pos hlow]
    exact ⟨by simp, hlow⟩
  · intro i hi
    rw [hlength, taperMoves_length hlen t speed 0 0 p0 l k (by intro j hj _; rw [zero_add]; exact hk2 j hj)
      (by intro j hj hj'; rw [zero_add]; exact hk3 j hj hj') i hi, zero_add]
    by_cases hik : i ≤ k
    · rw [min_eq_left hik]
      have := along_take_mono hlen p0 l hik
      constructor
      · intro _; linarith
      · intro _; linarith
    · rw [min_eq_right (by omega)]

theorem roundSqrt_lt {n m : Nat} (hm : 0 < m) : Simplify.roundSqrt n < m ↔ n ≤ m * m - m := by
  unfold Simplify.roundSqrt
  have h1 : Nat.sqrt n * Nat.sqrt n ≤ n := Nat.sqrt_le n
  have h2 : n < (Nat.sqrt n + 1) * (Nat.sqrt n + 1) := Nat.lt_succ_sqrt n
  generalize Nat.sqrt n = s at *
  obtain ⟨k, rfl⟩ : ∃ k, m = k + 1 := ⟨m - 1, by omega⟩
  have e : (k + 1) * (k + 1) - (k + 1) = k * k + k := by
    have : (k + 1) * (k + 1) = k * k + k + (k + 1) := by ring
    omega
  rw [e]
  split
  · constructor
    · intro h
      have : s + 1 ≤ k := by omega
      nlinarith
    · intro h
      by_contra hc
      have : k ≤ s := by omega
      nlinarith
  · constructor
    · intro h
      have : s ≤ k := by omega
      nlinarith
    · intro h
      by_contra hc
      have : k + 1 ≤ s := by omega
      nlinarith

theorem size_lt {p q : Pt} {m : Int} (hm : 0 < m) : Simplify.size p q < m ↔ square p q ≤ m * m - m := by
  obtain ⟨k, rfl⟩ : ∃ k : Nat, m = k := ⟨m.toNat, by omega⟩
  have hk : 0 < k := by exact_mod_cast hm
  have hs : 0 ≤ square p q := by unfold square; nlinarith [sq_nonneg (p.1 - q.1), sq_nonneg (p.2 - q.2)]
  have hle : k ≤ k * k := Nat.le_mul_self k
  unfold Simplify.size
  rw [size2_square]
  have := @roundSqrt_lt (square p q).toNat k hk
  constructor
  · intro h
    have h' := this.mp (by exact_mod_cast h)
    zify [hle] at h'
    omega
  · intro h
    have h' := this.mpr (by zify [hle]; omega)
    exact_mod_cast h'

theorem nearestLoop_best (p : Pt) (best : Option (Nat × Int)) (i : Nat) (l all : List Pt)
    (hb : ∀ b, best = some b → (∃ v, all[b.1]? = some v ∧ b.2 = square v p) ∧ ∀ v ∈ all.take i, b.2 ≤ square v p) (hn : best = none → i = 0)
    (hall : all.drop i = l) (r : Nat × Int) (h : nearestLoop p best i l = some r) :
    ∃ v, all[r.1]? = some v ∧ ∀ u ∈ all, square v p ≤ square u p := by
  induction l generalizing best i with
  | nil =>
    simp only [nearestLoop] at h
    obtain ⟨⟨v, hv1, hv2⟩, hle⟩ := hb r h
    refine ⟨v, hv1, ?_⟩
    intro u hu
    rw [← hv2]
    apply hle
    rw [List.take_of_length_le (by rw [List.drop_eq_nil_iff] at hall; exact hall)]
    exact hu
  | cons w ws ih =>
    simp only [nearestLoop] at h
    have hw : all[i]? = some w := by rw [← List.head?_drop, hall]; rfl
    have hi := (List.getElem?_eq_some_iff.mp hw).1
    have htake : all.take (i + 1) = all.take i ++ [w] := by
      rw [List.take_succ_eq_append_getElem hi, (List.getElem?_eq_some_iff.mp hw).2]
    have hdrop : all.drop (i + 1) = ws := by rw [← List.tail_drop, hall]; rfl
    refine ih _ (i + 1) ?_ ?_ hdrop h
    · intro b hb'
      rw [htake]
      cases best with
      | none =>
        simp only [Option.some.injEq] at hb'
        subst hb'
        refine ⟨⟨w, hw, rfl⟩, ?_⟩
        rw [hn rfl]
        simp [size2_square]
      | some b0 =>
        obtain ⟨h1, h2⟩ := hb b0 rfl
        simp only at hb'
        split at hb'
        · rename_i hlt
          simp only [Option.some.injEq] at hb'
          subst hb'
          refine ⟨⟨w, hw, rfl⟩, ?_⟩
          intro v hv
          rw [size2_square] at hlt
          rcases List.mem_append.mp hv with hv | hv
          · exact le_trans hlt.le (h2 v hv)
          · rw [List.mem_singleton.mp hv]; exact le_refl _
        · rename_i hlt
          simp only [Option.some.injEq] at hb'
          subst hb'
          refine ⟨h1, ?_⟩
          intro v hv
          rw [size2_square] at hlt
          rcases List.mem_append.mp hv with hv | hv
          · exact h2 v hv
          · rw [List.mem_singleton.mp hv]; exact not_lt.mp hlt
    · intro hnone
      exfalso
      cases best with
      | none => simp at hnone
      | some b0 => simp only at hnone; split at hnone <;> simp at hnone

theorem nearest_spec {p : Pt} {l : List Pt} {i : Nat} (h : nearest p l = some i) : ∃ v, l[i]? = some v ∧ ∀ u ∈ l, square v p ≤ square u p := by
  simp only [nearest, Option.map_eq_some_iff] at h
  obtain ⟨r, hr, rfl⟩ := h
  exact nearestLoop_best p none 0 l l (by simp) (by simp) rfl r hr

theorem findSeams_next {S : Seams} {last : Option (List Pt × Nat)} {layers : List Layer} {outlines : List (Option (List Pt × Nat))}
    (h : findSeams S last layers = some outlines) (k : Nat) (w v : List Pt) (i j : Nat) (hk : outlines[k]? = some (some (w, i)))
    (hk' : outlines[k + 1]? = some (some (v, j))) : findSeam S (some (w, i)) v = some j := by
  induction layers generalizing last outlines k with
  | nil =>
    simp only [findSeams, Option.some.injEq] at h
    subst h
    simp at hk
  | cons l ls ih =>
    rw [findSeams] at h
    cases hwalls : l.walls with
    | nil =>
      rw [hwalls] at h
      simp only [Option.map_eq_some_iff] at h
      obtain ⟨r, hr, rfl⟩ := h
      cases k with
      | zero => simp at hk
      | succ k => exact ih hr k (by simpa using hk) (by simpa using hk')
    | cons x xs =>
      rw [hwalls] at h
      simp only [Option.bind_eq_some_iff, Option.map_eq_some_iff] at h
      obtain ⟨i0, h0, r, hr, rfl⟩ := h
      cases k with
      | succ k => exact ih hr k (by simpa using hk) (by simpa using hk')
      | zero =>
        simp only [List.getElem?_cons_zero, Option.some.injEq, Prod.mk.injEq] at hk
        obtain ⟨rfl, rfl⟩ := hk
        simp only [zero_add, List.getElem?_cons_succ] at hk'
        cases ls with
        | nil =>
          simp only [findSeams, Option.some.injEq] at hr
          subst hr
          simp at hk'
        | cons l' ls' =>
          rw [findSeams] at hr
          cases hwalls' : l'.walls with
          | nil =>
            rw [hwalls'] at hr
            simp only [Option.map_eq_some_iff] at hr
            obtain ⟨r', hr', rfl⟩ := hr
            simp at hk'
          | cons x' xs' =>
            rw [hwalls'] at hr
            simp only [Option.bind_eq_some_iff, Option.map_eq_some_iff] at hr
            obtain ⟨i1, h1, r', hr', rfl⟩ := hr
            simp only [List.getElem?_cons_zero, Option.some.injEq, Prod.mk.injEq] at hk'
            obtain ⟨rfl, rfl⟩ := hk'
            exact h1

end Verif.Spiral
