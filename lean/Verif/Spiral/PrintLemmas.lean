import Verif.Spiral.LayerLemmas

/-! # Lemmas on the whole print -/

namespace Verif.Spiral

variable {len : Pt → Pt → ℚ}

/-- What is written for a layer that is not the last. -/
theorem write_layer (hl : Lengths len) {c : Cfg} {z t : Int} {wall lw : List Pt} {seam : Nat} {ls : Option Nat} {bottom : Bool} {o : Pt}
    {moves : List Move} {n m : Nozzle} {out : List Out} (ht : 0 ≤ t) (hseam : seam < wall.length) (hw : ∃ p ∈ wall, p ≠ o)
    (hs : slice len c t wall lw seam ls false bottom = some (o, moves)) (hz : n.z = z)
    (h : write len z t n ((moves.foldl add (addTravel [] o)).reverse) = some (m, out)) :
    ∃ rest, out = ⟨o, z, none⟩ :: rest ∧ Climbs len z t o wall[seam] rest ∧ rest.map Out.flow = moves.map (fun m => some m.flow) ∧
      rest.map Out.dst = moves.map Move.dst ∧ m = ⟨wall[seam], z + t⟩ := by
  obtain ⟨up, h1, h2, ⟨u, h3, h4, h5⟩, -⟩ := slice_up hl hseam hw hs
  simp only [Bool.false_eq_true, if_false, List.append_nil] at h1
  subst h1
  have hne : moves ≠ [] := by rintro rfl; simp at h3
  have := write_plan (len := len) (z := z) (t := t) (n := n) (o := o) (taper := []) (fun m hm => (h2 m hm).1) (by simp) hne (by simp)
  rw [List.append_nil] at this
  rw [this] at h
  simp only [List.map_nil, spiralFlat, Option.map_some, Option.bind_eq_some_iff, hz, ne_eq, not_true_eq_false, if_false, List.nil_append,
    List.append_nil] at h
  obtain ⟨q, hq, e⟩ := h
  simp only [Option.some.injEq, Prod.mk.injEq] at e
  obtain ⟨rfl, rfl⟩ := e
  have he : (moves.map Move.dst).getLast? = some wall[seam] := by rw [List.getLast?_map, h3, ← h4]; rfl
  obtain ⟨g1, g2, g3, g4, g5⟩ := climbs_of hl ht (fun m hm => (h2 m hm).2) he hq
  exact ⟨q.2, rfl, g1, g2, g3, by rw [g4, g5]⟩

theorem closestLoop_index (p : Pt) (best : Pt × Nat) (i : Nat) (es : List (Pt × Pt)) :
    (closestLoop p best i es).2 = best.2 ∨ (closestLoop p best i es).2 < i + es.length := by
  induction es generalizing best i with
  | nil => exact Or.inl rfl
  | cons e es ih =>
    simp only [closestLoop, List.length_cons]
    rcases ih (if Simplify.size2 p (onSegment p e.1 e.2) < Simplify.size2 p best.1 then (onSegment p e.1 e.2, i) else best) (i + 1) with h | h
    · rw [h]
      split
      · right; show i < _; omega
      · left; rfl
    · right; omega

theorem findSeam_lt {S : Seams} {last : Option (List Pt × Nat)} {wall : List Pt} {i : Nat} (h : findSeam S last wall = some i) : i < wall.length := by
  unfold findSeam at h
  cases last with
  | none =>
    simp only [Option.map_eq_some_iff] at h
    obtain ⟨q, hq, rfl⟩ := h
    cases wall with
    | nil => simp [closest] at hq
    | cons a l =>
      simp only [closest, Option.some.injEq] at hq
      rcases closestLoop_index S.hint (a, 0) 0 (edges (a :: l)) with h | h
      · rw [← hq, h]; simp
      · rw [← hq]
        simpa [edges] using h
  | some l =>
    simp only [Option.bind_eq_some_iff, Option.map_eq_some_iff] at h
    obtain ⟨v, -, j, -, w, hw, next, hnext, e⟩ := h
    have h1 := (List.getElem?_eq_some_iff.mp hw).1
    have h2 := (List.getElem?_eq_some_iff.mp hnext).1
    split at e
    · split at e <;> omega
    · omega

theorem findSeams_get {S : Seams} {last : Option (List Pt × Nat)} {layers : List Layer} {outlines : List (Option (List Pt × Nat))}
    (h : findSeams S last layers = some outlines) :
    outlines.length = layers.length ∧ ∀ (k : Nat) (l : Layer) (w : List Pt) (ws : List (List Pt)), layers[k]? = some l → l.walls = w :: ws →
      ∃ i, outlines[k]? = some (some (w, i)) ∧ i < w.length := by
  induction layers generalizing last outlines with
  | nil =>
    simp only [findSeams, Option.some.injEq] at h
    subst h
    simp
  | cons l ls ih =>
    rw [findSeams] at h
    cases hwalls : l.walls with
    | nil =>
      rw [hwalls] at h
      simp only [Option.map_eq_some_iff] at h
      obtain ⟨r, hr, rfl⟩ := h
      obtain ⟨h1, h2⟩ := ih hr
      refine ⟨by simp [h1], ?_⟩
      intro k l' w ws hk hw
      cases k with
      | zero =>
        simp only [List.getElem?_cons_zero, Option.some.injEq] at hk
        subst hk
        rw [hwalls] at hw
        simp at hw
      | succ k => simpa using h2 k l' w ws (by simpa using hk) hw
    | cons wall rest =>
      rw [hwalls] at h
      simp only [Option.bind_eq_some_iff, Option.map_eq_some_iff] at h
      obtain ⟨i, hi, r, hr, rfl⟩ := h
      obtain ⟨h1, h2⟩ := ih hr
      refine ⟨by simp [h1], ?_⟩
      intro k l' w ws hk hw
      cases k with
      | zero =>
        simp only [List.getElem?_cons_zero, Option.some.injEq] at hk
        subst hk
        rw [hwalls] at hw
        obtain ⟨rfl, rfl⟩ := List.cons.inj hw
        exact ⟨i, by simp, findSeam_lt hi⟩
      | succ k => simpa using h2 k l' w ws (by simpa using hk) hw

/-- The vertex at which the spiral of a layer ends. -/
def seamOf (outlines : List (Option (List Pt × Nat))) (k : Nat) : Pt := ((outlines[k]?).join.bind fun w => w.1[w.2]?).getD (0, 0)

theorem seamOf_eq {outlines : List (Option (List Pt × Nat))} {k i : Nat} {w : List Pt} (h : outlines[k]? = some (some (w, i))) (hi : i < w.length) :
    seamOf outlines k = w[i] := by
  simp [seamOf, h, hi]

/-- The plan of one layer. -/
theorem planLayer_eq {S : Seams} {c : Cfg} {b k : Nat} {layers : List Layer} {outlines : List (Option (List Pt × Nat))} {l : Layer} {paths : List Path}
    (hv : Vase b layers) (hs : findSeams S none layers = some outlines) (hk : b ≤ k) (hl : layers[k]? = some l)
    (h : planLayer len c b outlines k l = some paths) :
    ∃ w i lw ls o moves, l.walls = [w] ∧ ∃ hi : i < w.length, seamOf outlines k = w[i] ∧ o = (if k = b then seamOf outlines k else seamOf outlines (k - 1)) ∧
      slice len c l.thickness w lw i ls (decide (layers.length ≤ k + 1)) (decide (k = b)) = some (o, moves) ∧
      paths = (moves.foldl add (addTravel [] o)).reverse := by
  obtain ⟨w, hw, -⟩ := hv.walls k l hk hl
  obtain ⟨hlen, hget⟩ := findSeams_get hs
  obtain ⟨i, hi, hiw⟩ := hget k l w [] hl hw
  have htop : (outlines[k + 1]?).join.isNone = decide (layers.length ≤ k + 1) := by
    by_cases hk1 : k + 1 < layers.length
    · obtain ⟨w', hw', -⟩ := hv.walls (k + 1) layers[k + 1] (by omega) (by simp [hk1])
      obtain ⟨i', hi', -⟩ := hget (k + 1) layers[k + 1] w' [] (by simp [hk1]) hw'
      simp [hi', hk1]
    · rw [List.getElem?_eq_none (by omega)]
      simp; omega
  rw [planLayer, hw] at h
  dsimp only at h
  rw [htop] at h
  simp only [hi, Option.join_some, Option.map_some, Option.getD_some, planWalls, Option.map_eq_some_iff, Option.bind_eq_some_iff] at h
  obtain ⟨r, ⟨s, hs1, hs2⟩, rfl⟩ := h
  simp only [Option.some.injEq] at hs2
  refine ⟨w, i, _, _, s.1, s.2, hw, hiw, seamOf_eq hi hiw, ?_, hs1, by rw [hs2]⟩
  obtain ⟨h1, -⟩ := slice_eq hs1
  by_cases hkb : k = b
  · rw [if_pos hkb, seamOf_eq hi hiw]
    have : start w (Option.getD (Option.map (fun x => x.1) (if k = 0 then none else outlines[k - 1]?.join)) w) i
        (Option.map (fun x => x.2) (if k = 0 then none else outlines[k - 1]?.join)) (decide (k = b)) = w[i]? := by
      unfold start
      simp only [hkb, decide_true]
      split <;> simp_all
    rw [this] at h1
    simpa [hiw] using h1.symm
  · rw [if_neg hkb]
    have hk1 : k - 1 < layers.length := by
      have := (List.getElem?_eq_some_iff.mp hl).1
      omega
    obtain ⟨w', hw', -⟩ := hv.walls (k - 1) layers[k - 1] (by omega) (by simp [hk1])
    obtain ⟨i', hi', hiw'⟩ := hget (k - 1) layers[k - 1] w' [] (by simp [hk1]) hw'
    rw [if_neg (show ¬ k = 0 by omega), hi'] at h1
    simp only [Option.join_some, Option.map_some, Option.getD_some, start, hkb, decide_false] at h1
    rw [seamOf_eq hi' hiw']
    simpa [hiw'] using h1.symm

theorem foldl_add_base (moves : List Move) (qs : List Path) (p : Path) (hp : p.travel = true) : ∃ qs', moves.foldl add (qs ++ [p]) = qs' ++ [p] := by
  induction moves generalizing qs with
  | nil => exact ⟨qs, rfl⟩
  | cons m ms ih =>
    have : ∃ qs', add (qs ++ [p]) m = qs' ++ [p] := by
      cases qs with
      | nil =>
        refine ⟨[⟨false, m.spiral, m.flow, m.speed, [(m.dst, m.z)]⟩], ?_⟩
        dsimp only [List.nil_append, add]
        rw [if_neg (by simp [hp])]
        rfl
      | cons q qs =>
        dsimp only [List.cons_append, add]
        split
        · exact ⟨_ :: qs, rfl⟩
        · exact ⟨_ :: q :: qs, rfl⟩
    obtain ⟨qs', h⟩ := this
    rw [List.foldl_cons, h]
    exact ih qs'

theorem lastPos_add (ps : List Path) (m : Move) : lastPos (add ps m).reverse = some m.dst := by
  unfold add
  split
  · simp [lastPos]
  · split <;> simp [lastPos]

theorem lastPos_plan (o : Pt) (moves : List Move) (e : Pt) (h : (moves.map Move.dst).getLast? = some e) :
    lastPos (moves.foldl add (addTravel [] o)).reverse = some e := by
  rcases List.eq_nil_or_concat moves with rfl | ⟨l, m, rfl⟩
  · simp at h
  · rw [List.concat_eq_append, List.foldl_append, List.foldl_cons, List.foldl_nil, lastPos_add]
    simpa using h

theorem plan_head (o : Pt) (moves : List Move) : ∃ rest, (moves.foldl add (addTravel [] o)).reverse = ⟨true, false, 0, 1, [(o, 0)]⟩ :: rest := by
  obtain ⟨qs, h⟩ := foldl_add_base moves [] ⟨true, false, 0, 1, [(o, 0)]⟩ rfl
  refine ⟨qs.reverse, ?_⟩
  rw [addTravel]
  rw [List.nil_append] at h
  rw [h, List.reverse_append]
  rfl

theorem write_head {z t : Int} {n m : Nozzle} {o : Pt} {rest : List Path} {out : List Out} (hz : n.z = z)
    (h : write len z t n (⟨true, false, 0, 1, [(o, 0)]⟩ :: rest) = some (m, out)) : ∃ r, out = ⟨o, z, none⟩ :: r := by
  rw [write, if_neg (by simp)] at h
  simp only [plainPoints, lift, add_zero, if_true, hz, ne_eq, not_true_eq_false, if_false, List.nil_append, Option.map_eq_some_iff] at h
  obtain ⟨s, -, e⟩ := h
  exact ⟨s.2, (Prod.mk.inj e).2.symm⟩

/-- What holds for the layers from `k` on. -/
theorem print_layers (hl : Lengths len) {S : Seams} {c : Cfg} {b : Nat} {layers : List Layer} {outlines : List (Option (List Pt × Nat))}
    (hv : Vase b layers) (hs : findSeams S none layers = some outlines) :
    ∀ (ls : List Layer) (k : Nat) (plans : List (Layer × List Path)), layers.drop k = ls → b ≤ k → planLayers len c b outlines k ls = some plans →
      connect plans = plans ∧
      ((∀ l, ls.head? = some l → ∃ p, plans.head? = some p ∧ firstPos p.2 = some (if k = b then seamOf outlines k else seamOf outlines (k - 1)))) ∧
      ∀ (n : Nozzle) (out : List (List Out)), (∀ l, ls.head? = some l → n.z = l.z) → writeLayers len n plans = some out →
        out.length = ls.length ∧ ∀ (j : Nat) (l : Layer) (o : List Out), ls[j]? = some l → out[j]? = some o →
          ∃ rest, o = ⟨if k + j = b then seamOf outlines (k + j) else seamOf outlines (k + j - 1), l.z, none⟩ :: rest ∧
            (k + j + 1 < layers.length → Climbs len l.z l.thickness (if k + j = b then seamOf outlines (k + j) else seamOf outlines (k + j - 1))
              (seamOf outlines (k + j)) rest) := by
  intro ls
  induction ls with
  | nil =>
    intro k plans _ _ h
    simp only [planLayers, Option.some.injEq] at h
    subst h
    refine ⟨rfl, by simp, ?_⟩
    intro n out _ h
    simp only [writeLayers, Option.some.injEq] at h
    subst h
    simp
  | cons l ls ih =>
    intro k plans hd hk h
    have hlk : layers[k]? = some l := by
      have := congrArg List.head? hd
      simpa [List.head?_drop] using this
    have hd' : layers.drop (k + 1) = ls := by
      rw [← List.drop_drop, hd]; rfl
    simp only [planLayers, Option.bind_eq_some_iff, Option.map_eq_some_iff] at h
    obtain ⟨paths, hp, rest, hr, rfl⟩ := h
    obtain ⟨w, i, lw, lsm, o, moves, hw, hi, hseam, ho, hslice, hpaths⟩ := planLayer_eq hv hs hk hlk hp
    obtain ⟨ih1, ih2, ih3⟩ := ih (k + 1) rest hd' (by omega) hr
    obtain ⟨pr, hpr⟩ := plan_head o moves
    have hfirst : firstPos paths = some o := by rw [hpaths, hpr]; rfl
    have hdist : ∃ p ∈ w, p ≠ o := by
      obtain ⟨w', hw', p, hp, q, hq, hpq⟩ := hv.walls k l hk hlk
      rw [hw] at hw'
      obtain rfl := (List.cons.inj hw').1
      by_cases hpo : p = o
      · exact ⟨q, hq, fun h => hpq (hpo.trans h.symm)⟩
      · exact ⟨p, hp, hpo⟩
    refine ⟨?_, ?_, ?_⟩
    · cases rest with
      | nil => rfl
      | cons r rs =>
        have hne : ls ≠ [] := by
          rintro rfl
          simp [planLayers] at hr
        obtain ⟨l', ls', rfl⟩ := List.exists_cons_of_ne_nil hne
        obtain ⟨p', hp', hf'⟩ := ih2 l' rfl
        simp only [List.head?_cons, Option.some.injEq] at hp'
        subst hp'
        rw [if_neg (by omega), Nat.add_sub_cancel] at hf'
        have hk1 : k + 1 < layers.length := by
          have := congrArg List.length hd'
          simp at this
          omega
        rw [decide_eq_false (show ¬ layers.length ≤ k + 1 by omega)] at hslice
        obtain ⟨up, h1, h2, ⟨u, h3, h4, h5⟩, -⟩ := slice_up hl hi hdist hslice
        simp only [Bool.false_eq_true, if_false, List.append_nil] at h1
        subst h1
        have hlast : lastPos paths = some (seamOf outlines k) := by
          rw [hpaths, hseam]
          exact lastPos_plan o moves _ (by rw [List.getLast?_map, h3, ← h4]; rfl)
        rw [connect, ih1]
        simp only [hf', hlast, if_true]
    · intro l' hl'
      exact ⟨(l, paths), rfl, by rw [hfirst, ho]⟩
    · intro n out hn h
      simp only [writeLayers, Option.bind_eq_some_iff, Option.map_eq_some_iff] at h
      obtain ⟨q, hq, r, hr', rfl⟩ := h
      have hnz : n.z = l.z := hn l rfl
      by_cases hk1 : k + 1 < layers.length
      · rw [decide_eq_false (show ¬ layers.length ≤ k + 1 by omega)] at hslice
        rw [hpaths] at hq
        obtain ⟨rest', e1, e2, -, -, e3⟩ := write_layer hl (hv.thick k l hk hlk) hi hdist hslice hnz hq
        obtain ⟨h1, h2⟩ := ih3 q.1 r (by
          intro l' hl'
          have : layers[k + 1]? = some l' := by
            rw [← hl', ← hd', List.head?_drop]
          rw [hv.heights k l l' hk hlk this, e3]) hr'
        refine ⟨by simp [h1], ?_⟩
        intro j l' o' hj ho'
        cases j with
        | zero =>
          simp only [List.getElem?_cons_zero, Option.some.injEq] at hj ho'
          subst hj ho'
          rw [Nat.add_zero, ← ho, hseam]
          exact ⟨rest', e1, fun _ => e2⟩
        | succ j =>
          have := h2 j l' o' (by simpa using hj) (by simpa using ho')
          rw [show k + 1 + j = k + (j + 1) by omega] at this
          exact this
      · have hls : ls = [] := by
          rw [← hd', List.drop_eq_nil_iff]; omega
        subst hls
        simp only [planLayers, Option.some.injEq] at hr
        subst hr
        simp only [writeLayers, Option.some.injEq] at hr'
        subst hr'
        refine ⟨rfl, ?_⟩
        intro j l' o' hj ho'
        cases j with
        | zero =>
          simp only [List.getElem?_cons_zero, Option.some.injEq] at hj ho'
          subst hj ho'
          rw [hpaths, hpr] at hq
          obtain ⟨r, hr⟩ := write_head hnz hq
          rw [Nat.add_zero, ← ho]
          exact ⟨r, hr, fun h => absurd h hk1⟩
        | succ j => simp at hj

end Verif.Spiral
