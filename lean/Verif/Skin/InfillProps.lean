import Verif.Skin.Gradual
import Verif.Skin.Combine

/-! # Density of the infill, combined infill layers and infill only as support (C71 to C73) -/

namespace Verif.Skin

open Verif.Box (AABB)
open Verif.Volumes (Point Region WithinFlat times)

/-! ## C71: gradual infill -/

section Gradual

variable (c : Gradual) (layers : List (List InfillPart)) (l : Nat) (q : InfillPart) (infill : Region) (fuel : Nat)

theorem infillOn_out (box : AABB) (k : Nat) (h : layers.length ≤ k) : infillOn layers box k = ∅ := by
  ext p
  unfold infillOn
  rw [List.getD_eq_getElem?_getD, List.getElem?_eq_none h]
  simp

theorem deep_iff (hok : InfillOk layers) (hq : q ∈ layers.getD l []) (hin : infill ⊆ q.own) (m : Nat) (p : Point) :
    p ∈ deep (infillOn layers q.box) l infill m ↔ p ∈ infill ∧ FilledAbove layers l m p := by
  unfold deep FilledAbove
  simp only [Set.mem_ofPred_eq]
  refine and_congr_right fun hp => ?_
  refine forall_congr' fun j => forall_congr' fun _ => forall_congr' fun _ => ?_
  exact infillOn_iff hok hq (l + j) (hin hp)

/-- The areas are computed. -/
theorem densities_ok (hg : c.gaps = false) (hc : 1 ≤ c.count) (hfuel : c.count + 1 < fuel) :
    ∃ areas, densities c (infillOn layers q.box) layers.length l fuel infill = .ok areas ∧ areas ≠ [] := by
  unfold densities
  split
  · exact ⟨_, rfl, by simp⟩
  · have h := steps_ok c hg hc (infillOn layers q.box) layers.length (infillOn_out layers q.box) l fuel hfuel infill c.steps 0 ∅
    have e : deep (infillOn layers q.box) l infill (0 * c.count) = infill := by
      ext p
      unfold deep
      simp only [Set.mem_ofPred_eq, and_iff_left_iff_imp]
      intro _ j h1 h2
      omega
    rw [e] at h
    exact h

theorem densities_steps {p : Point} (hp : p ∈ infill) (hb : c.initialBottom ≤ l) (ht : l + c.top < layers.length)
    {areas : List Region} (h : densities c (infillOn layers q.box) layers.length l fuel infill = .ok areas) :
    steps c (infillOn layers q.box) layers.length l fuel infill c.steps 0 (deep (infillOn layers q.box) l infill (0 * c.count))
      ∅ = .ok areas := by
  have e : deep (infillOn layers q.box) l infill (0 * c.count) = infill := by
    ext p
    unfold deep
    simp only [Set.mem_ofPred_eq, and_iff_left_iff_imp]
    intro _ j h1 h2
    omega
  rw [e]
  unfold densities at h
  rwa [if_neg (by
    rintro (h | h | h)
    · rw [h] at hp
      exact hp
    · omega
    · omega)] at h

/-- Infill lines that are not connected: the density is halved for every full step of infill above a place, up to the
number of steps. Missing: patterns whose lines are connected (see the counterexample below) and the heuristic that
ignores small gaps. -/
theorem C71_density_partial (hg : c.gaps = false) (hcon : c.connected = false) (hx : c.cross = false) (hc : 1 ≤ c.count)
    (hd : 0 < c.lineDistance) (hfuel : c.count + 1 < fuel) (hok : InfillOk layers) (hq : q ∈ layers.getD l [])
    (hin : infill ⊆ q.own) (hb : c.initialBottom ≤ l) (ht : l + c.top < layers.length) (p : Point) (hp : p ∈ infill)
    (k : Nat) (hk : k ≤ c.steps) (hdeep : FilledAbove layers l (k * c.count) p)
    (hnot : k < c.steps → ¬ FilledAbove layers l ((k + 1) * c.count) p) :
    ∃ areas, densities c (infillOn layers q.box) layers.length l fuel infill = .ok areas ∧
      density c.lineDistance p (printed c areas) = 1 / 2 ^ k := by
  obtain ⟨areas, h, hne⟩ := densities_ok c layers l q infill fuel hg hc hfuel
  refine ⟨areas, h, ?_⟩
  have hlen : 0 < areas.length := List.length_pos_iff.2 hne
  unfold printed
  rw [density_eq c hd p areas 0 _ (by omega)]
  have := steps_over c hg hc hx hcon (infillOn layers q.box) layers.length (infillOn_out layers q.box) l fuel hfuel infill p hp
    k ((deep_iff layers l q infill hok hq hin _ p).2 ⟨hp, hdeep⟩) c.steps 0 (by omega)
    (fun h h2 => hnot (by omega) ((deep_iff layers l q infill hok hq hin _ p).1 h2).2) areas
    (densities_steps c layers l q infill fuel hp hb ht h)
  rw [this]
  simp

/-- The same for the cross patterns with connected lines, whose areas do not overlap. -/
theorem C71_cross (hg : c.gaps = false) (hcon : c.connected = true) (hx : c.cross = true) (hc : 1 ≤ c.count)
    (hd : 0 < c.lineDistance) (hfuel : c.count + 1 < fuel) (hok : InfillOk layers) (hq : q ∈ layers.getD l [])
    (hin : infill ⊆ q.own) (hb : c.initialBottom ≤ l) (ht : l + c.top < layers.length) (p : Point) (hp : p ∈ infill)
    (k : Nat) (hk : k ≤ c.steps) (hdeep : FilledAbove layers l (k * c.count) p)
    (hnot : k < c.steps → ¬ FilledAbove layers l ((k + 1) * c.count) p) :
    ∃ areas, densities c (infillOn layers q.box) layers.length l fuel infill = .ok areas ∧
      density c.lineDistance p (printed c areas) = 1 / 2 ^ k := by
  obtain ⟨areas, h, hne⟩ := densities_ok c layers l q infill fuel hg hc hfuel
  refine ⟨areas, h, ?_⟩
  have hlen : 0 < areas.length := List.length_pos_iff.2 hne
  unfold printed
  rw [density_eq c hd p areas 0 _ (by omega)]
  have hs := densities_steps c layers l q infill fuel hp hb ht h
  have e : (∅ : Region) = infill \ deep (infillOn layers q.box) l infill (0 * c.count) := by
    ext x
    unfold deep
    simp only [Set.mem_empty_iff_false, Set.mem_sdiff, Set.mem_ofPred_eq, false_iff, not_and]
    intro hx
    exact fun h => h hx fun j h1 h2 => by omega
  rw [e] at hs
  have := steps_part c hg hc hcon (infillOn layers q.box) layers.length (infillOn_out layers q.box) l fuel hfuel infill p hp
    k ((deep_iff layers l q infill hok hq hin _ p).2 ⟨hp, hdeep⟩) c.steps 0 (by omega)
    (fun h h2 => hnot (by omega) ((deep_iff layers l q infill hok hq hin _ p).1 h2).2) areas hs
  rw [this, if_neg (by omega), if_pos (.inl hx)]

/-- With any other pattern whose lines are connected the density is only half of that wherever there is a less dense
area elsewhere in the part. -/
theorem C71_connected_counterexample (hg : c.gaps = false) (hcon : c.connected = true) (hx : c.cross = false)
    (hc : 1 ≤ c.count)
    (hd : 0 < c.lineDistance) (hfuel : c.count + 1 < fuel) (hok : InfillOk layers) (hq : q ∈ layers.getD l [])
    (hin : infill ⊆ q.own) (hb : c.initialBottom ≤ l) (ht : l + c.top < layers.length) (p : Point) (hp : p ∈ infill)
    (k : Nat) (hk : k < c.steps) (hdeep : FilledAbove layers l (k * c.count) p)
    (hnot : ¬ FilledAbove layers l ((k + 1) * c.count) p)
    (hother : ∃ p' ∈ infill, FilledAbove layers l ((k + 1) * c.count) p') :
    ∃ areas, densities c (infillOn layers q.box) layers.length l fuel infill = .ok areas ∧
      density c.lineDistance p (printed c areas) = 1 / 2 ^ (k + 1) := by
  obtain ⟨areas, h, hne⟩ := densities_ok c layers l q infill fuel hg hc hfuel
  refine ⟨areas, h, ?_⟩
  have hlen : 0 < areas.length := List.length_pos_iff.2 hne
  unfold printed
  rw [density_eq c hd p areas 0 _ (by omega)]
  have hs := densities_steps c layers l q infill fuel hp hb ht h
  have e : (∅ : Region) = infill \ deep (infillOn layers q.box) l infill (0 * c.count) := by
    ext x
    unfold deep
    simp only [Set.mem_empty_iff_false, Set.mem_sdiff, Set.mem_ofPred_eq, false_iff, not_and]
    intro hx
    exact fun h => h hx fun j h1 h2 => by omega
  rw [e] at hs
  have := steps_part c hg hc hcon (infillOn layers q.box) layers.length (infillOn_out layers q.box) l fuel hfuel infill p hp
    k ((deep_iff layers l q infill hok hq hin _ p).2 ⟨hp, hdeep⟩) c.steps 0 (by omega)
    (fun h h2 => hnot ((deep_iff layers l q infill hok hq hin _ p).1 h2).2) areas hs
  rw [this, if_neg (by omega), if_neg]
  rintro (h | h | h)
  · rw [hx] at h
    exact Bool.false_ne_true h
  · omega
  · obtain ⟨p', hp', h'⟩ := hother
    have := (deep_iff layers l q infill hok hq hin _ p').2 ⟨hp', h'⟩
    rw [h] at this
    exact this

/-- If the height of a step is rounded to no layers at all, the loop over the layers above never ends. -/
theorem C71_hang_counterexample (hc : c.count = 0) (hsteps : 0 < c.steps) (p : Point) (hp : p ∈ infill)
    (hb : c.initialBottom ≤ l) (ht : l + c.top < layers.length) :
    densities c (infillOn layers q.box) layers.length l fuel infill = .diverge := by
  have hscan : ∀ (fuel : Nat) (r : Region), scan (infillOn layers q.box) layers.length 0 (l : Rat) fuel (l : Rat) r = .diverge := by
    intro fuel
    induction fuel with
    | zero => intro r; rfl
    | succ fuel ih =>
      intro r
      unfold scan
      rw [if_pos le_rfl, if_neg (by
        intro h
        have : layers.length ≤ l := by exact_mod_cast h
        omega), add_zero]
      exact ih _
  unfold densities
  rw [if_neg (by
    rintro (h | h | h)
    · rw [h] at hp
      exact hp
    · omega
    · omega)]
  obtain ⟨n, hn⟩ : ∃ n, c.steps = n + 1 := ⟨c.steps - 1, by omega⟩
  rw [hn]
  unfold steps
  rw [hc, skip_zero c hc]
  simp only [Nat.mul_zero, Nat.add_zero, Int.floor_zero, Int.toNat_zero]
  rw [hscan]

end Gradual

/-! ## C72: combined infill layers -/

section Combine

variable (opening : Region → Region) (c : Combine) (layers : List (List CombinePart))

/-- Combining layers changes neither where there is infill nor how much: the height of every layer is filled at every
point as many times as there was infill, that is once. `opening` stands for the removal of narrow areas. Missing: several
densities, and parts with extra infill walls or infill meshes in them (see the counterexample). -/
theorem C72_once_partial (hopen : ∀ r, opening r ⊆ r) (hfresh : ∀ m ∈ layers, ∀ q ∈ m, q.Fresh) (p : Point)
    (hone : ∀ m ∈ layers, times p (m.map CombinePart.area) ≤ 1) (l : Nat) :
    fills p l (combine opening c layers) = times p ((layers.getD l []).map CombinePart.area) := by
  have getD_mem : ∀ j, layers.getD j [] = [] ∨ layers.getD j [] ∈ layers := by
    intro j
    rw [List.getD_eq_getElem?_getD]
    cases h : layers[j]? with
    | none => exact .inl rfl
    | some m => exact .inr (List.mem_of_getElem? h)
  have hf : ∀ j, ∀ q ∈ layers.getD j [], q.Fresh := by
    intro j q hq
    rcases getD_mem j with h | h
    · rw [h] at hq
      simp at hq
    · exact hfresh _ h q hq
  have ho : ∀ j, times p ((layers.getD j []).map CombinePart.area) ≤ 1 := by
    intro j
    rcases getD_mem j with h | h
    · rw [h]
      simp [times]
    · exact hone _ h
  unfold combine
  split
  · exact fills_fresh p layers hf l
  · split
    · exact fills_fresh p layers hf l
    · dsimp only
      next h _ =>
      rw [combineFrom_spec opening hopen p _ _ _ _ layers (by omega) (fun j _ => hf j) (fun j _ => ho j) l]
      exact fills_fresh p layers hf l

/-- Infill that is on all layers that are combined is printed once, with their whole thickness, on the uppermost
of them. These are the layers above a multiple of the number of layers to combine up to the next one. -/
theorem C72_thick (hfresh : ∀ m ∈ layers, ∀ q ∈ m, q.Fresh) (p : Point)
    (hone : ∀ m ∈ layers, times p (m.map CombinePart.area) ≤ 1) (hline : 0 < c.lineDistance) (ham : 1 < c.amount) (L : Nat)
    (hL : c.amount ∣ L) (hbot : c.initialBottom + c.amount ≤ L) (htop : L + c.top < layers.length)
    (hall : ∀ j, j ≤ L → L < j + c.amount → ∃ q ∈ layers.getD j [], p ∈ q.area ∧ WithinFlat q.box p) :
    ∃ q ∈ (combine id c layers).getD L [], p ∈ q.combine.getD (c.amount - 1) ∅ := by
  have getD_mem : ∀ j, layers.getD j [] = [] ∨ layers.getD j [] ∈ layers := by
    intro j
    rw [List.getD_eq_getElem?_getD]
    cases h : layers[j]? with
    | none => exact .inl rfl
    | some m => exact .inr (List.mem_of_getElem? h)
  have hf : ∀ j, ∀ q ∈ layers.getD j [], q.Fresh := by
    intro j q hq
    rcases getD_mem j with h | h
    · rw [h] at hq
      simp at hq
    · exact hfresh _ h q hq
  have ho : ∀ j, times p ((layers.getD j []).map CombinePart.area) ≤ 1 := by
    intro j
    rcases getD_mem j with h | h
    · rw [h]
      simp [times]
    · exact hone _ h
  have hmul : ∀ x, c.amount ∣ x - x % c.amount := fun x => Nat.dvd_sub_mod x
  unfold combine
  rw [if_neg (by omega), if_neg (by omega)]
  dsimp only
  obtain ⟨t, rfl⟩ := hL
  have hmod : ∀ x, x % c.amount < c.amount := fun x => Nat.mod_lt _ (by omega)
  have hround : ∀ x, c.amount * t ≤ x → c.amount * t ≤ x - x % c.amount := by
    intro x hx
    have h1 := Nat.div_add_mod x c.amount
    have h2 : t ≤ x / c.amount := (Nat.le_div_iff_mul_le (by omega)).2 (by rw [Nat.mul_comm]; exact hx)
    have h3 := Nat.mul_le_mul_left c.amount h2
    omega
  have hfirst : c.initialBottom + c.amount - 1 - (c.initialBottom + c.amount - 1) % c.amount + c.amount ≤ c.amount * t + 1 := by
    obtain ⟨s, hs⟩ := hmul (c.initialBottom + c.amount - 1)
    have h1 : c.amount * s ≤ c.initialBottom + c.amount - 1 := by omega
    rw [hs]
    have h2 : s + 1 ≤ t := by
      by_contra hlt
      have : t ≤ s := by omega
      have := Nat.mul_le_mul_left c.amount this
      omega
    have := Nat.mul_le_mul_left c.amount h2
    rw [Nat.mul_add, Nat.mul_one] at this
    omega
  refine combineFrom_thick p c.amount _ _ (by omega) _ layers (by omega) (fun j _ => hf j) (fun j _ => ho j) (c.amount * t)
    (hround _ (by omega)) (by omega) ?_ hfirst hall
  exact Nat.dvd_sub (Nat.dvd_mul_right _ _) (hmul _)

end Combine

/-! ## C73: infill only where it supports something -/

section Support

variable (ops : Ops) (dist : Int)

/-- Parts are paired with what becomes of them. -/
theorem infillSupport_get : ∀ (layers : List (List InfillPart)) (l : Nat), l + 1 < layers.length →
    (infillSupport ops dist layers).getD l [] =
      (layers.getD l []).map (supportPart ops dist ((infillSupport ops dist layers).getD (l + 1) [])) ∧
    (infillSupport ops dist layers).length = layers.length
  | [], l, h => by simp at h
  | [_], l, h => by simp at h
  | m :: above :: rest, l, h => by
    have hne : ∀ x xs, infillSupport ops dist (x :: xs) ≠ [] := by
      intro x xs
      cases xs with
      | nil => simp [infillSupport]
      | cons y ys =>
        unfold infillSupport
        split <;> simp
    have hlen : ∀ ls : List (List InfillPart), (infillSupport ops dist ls).length = ls.length := by
      intro ls
      induction ls with
      | nil => rfl
      | cons x xs ih =>
        cases xs with
        | nil => rfl
        | cons y ys =>
          unfold infillSupport
          split
          · next h => exact absurd h (hne y ys)
          · next a as h =>
            rw [h] at ih
            simp only [List.length_cons] at ih ⊢
            omega
    refine ⟨?_, hlen _⟩
    cases hr : infillSupport ops dist (above :: rest) with
    | nil => exact absurd hr (hne above rest)
    | cons a as =>
      have e : infillSupport ops dist (m :: above :: rest) = m.map (supportPart ops dist a) :: a :: as := by
        rw [infillSupport, hr]
      rw [e]
      cases l with
      | zero => rfl
      | succ l =>
        have := (infillSupport_get (above :: rest) l (by simp at h ⊢; omega)).1
        rw [hr] at this
        simpa using this

/-- The uppermost layer keeps its infill. -/
theorem C73_top (layers : List (List InfillPart)) (l : Nat) (h : l + 1 = layers.length) :
    (infillSupport ops dist layers).getD l [] = layers.getD l [] := by
  induction layers generalizing l with
  | nil => simp at h
  | cons m rest ih =>
    cases rest with
    | nil =>
      have : l = 0 := by simpa using h
      subst this
      rfl
    | cons above rest =>
      obtain ⟨l, rfl⟩ : ∃ k, l = k + 1 := ⟨l - 1, by simp at h; omega⟩
      have := ih l (by simpa using h)
      unfold infillSupport
      split
      · next h0 =>
        rw [h0] at this
        simp only [List.getD_nil, List.getD_cons_succ] at this ⊢
        exact this
      · next a as h0 =>
        rw [h0] at this
        rw [List.getD_cons_succ, List.getD_cons_succ]
        exact this

variable (layers : List (List InfillPart)) (l : Nat) (hl : l + 1 < layers.length) (q : InfillPart) (hq : q ∈ layers.getD l [])
  (hsub : q.own ⊆ q.area)

include hl hq hsub

/-- Every part is kept, with the same infill area. Of its own infill is left: everything that is below infill that is left
on the layer above; everything inside the infill area by the distance that may overhang and not below the infill area of
the layer above; and nothing but what is below infill on the layer above or near such a place and not below the infill
area of the layer above. -/
theorem C73_support (hops : ops.Ok) (hdist : 0 ≤ dist) :
    ∃ q' ∈ (infillSupport ops dist layers).getD l [], q'.area = q.area ∧ q'.box = q.box ∧ q'.own ⊆ q.own ∧
      (∀ p ∈ q.own, (∃ a ∈ (infillSupport ops dist layers).getD (l + 1) [], p ∈ a.own) → p ∈ q'.own) ∧
      (∀ p ∈ q.own, p ∈ ops.offset (-dist) q.area →
        (¬ ∃ a ∈ (infillSupport ops dist layers).getD (l + 1) [], p ∈ a.area) → p ∈ q'.own) ∧
      ∀ p ∈ q'.own, (∃ a ∈ (infillSupport ops dist layers).getD (l + 1) [], p ∈ a.own) ∨
        (¬ ∃ a ∈ (infillSupport ops dist layers).getD (l + 1) [], p ∈ a.area) ∧
          p ∈ ops.offset (dist + 50) (ops.offset (-dist) q.area \
            {p | ∃ a ∈ (infillSupport ops dist layers).getD (l + 1) [], p ∈ a.area}) := by
  have h1 := (infillSupport_get ops dist layers l hl).1
  generalize (infillSupport ops dist layers).getD (l + 1) [] = above at h1 ⊢
  rw [h1]
  refine ⟨supportPart ops dist above q, List.mem_map_of_mem hq, ?_⟩
  unfold supportPart
  split
  · next h0 =>
    have : ∀ p, p ∉ q.own := by
      intro p hp
      have := hsub hp
      rw [h0] at this
      exact this
    exact ⟨rfl, rfl, fun _ h => h, fun p hp => absurd hp (this p), fun p hp => absurd hp (this p),
      fun p hp => absurd hp (this p)⟩
  · dsimp only
    refine ⟨rfl, rfl, fun p h => h.2, fun p hp h => ⟨.inl h, hp⟩, fun p hp h1 h2 => ⟨.inr ⟨?_, h2⟩, hp⟩, ?_⟩
    · exact hops.grow _ _ (by omega) ⟨h1, h2⟩
    · rintro p ⟨h | h, hp⟩
      · exact .inl h
      · exact .inr ⟨h.2, h.1⟩

omit hl hq hsub in
/-- Infill that is kept is held up by a column of infill: it is kept on every layer further down that had infill there
on all layers in between. -/
theorem C73_column (hops : ops.Ok) (hdist : 0 ≤ dist) (hsub : ∀ m ∈ layers, ∀ q ∈ m, q.own ⊆ q.area) (p : Point) (k : Nat)
    (hk : l + k < layers.length) (htop : Filled (infillSupport ops dist layers) (l + k) p)
    (hall : ∀ j, j < k → Filled layers (l + j) p) : Filled (infillSupport ops dist layers) l p := by
  induction k with
  | zero => exact htop
  | succ k ih =>
    refine ih (by omega) ?_ (fun j hj => hall j (by omega))
    obtain ⟨q, hq, hp⟩ := hall k (by omega)
    have hm : ∃ m ∈ layers, q ∈ m := by
      rw [List.getD_eq_getElem?_getD, List.getElem?_eq_getElem (by omega : l + k < layers.length)] at hq
      exact ⟨_, List.getElem_mem _, hq⟩
    obtain ⟨m, hm, hqm⟩ := hm
    obtain ⟨q', hq', _, _, _, h, _⟩ := C73_support ops dist layers (l + k) (by omega) q hq (hsub m hm q hqm) hops hdist
    exact ⟨q', hq', h p hp htop⟩

end Support

end Verif.Skin
