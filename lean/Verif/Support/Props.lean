import Verif.Support.Lemmas

/-! # Properties of support areas (C74, C75, C78, C79) -/

namespace Verif.Support

open Verif.Volumes (Point Region times)

section
variable (ops : Ops) (keep : Rat) (ok : ops.Ok keep)
include ok

/-- C74. No support is where a model is on the same layer, as long as the models do not overlap there. -/
theorem C74_clear_partial (ms : List (Config × Input)) (hms : ∀ m ∈ ms, m.1.Ok) (models : Nat → List Region)
    (hm : ∀ m ∈ ms, m.2.models = models) (n l : Nat) (p : Point) (hs : Single (models l) p) (h : p ∈ areas ops ms n l) :
    p ∉ solid (models l) := by
  obtain ⟨⟨c, i⟩, hmem, h⟩ := h
  obtain rfl := hm _ hmem
  have hc := hms _ hmem
  dsimp only at *
  obtain ⟨hr, hd, _⟩ := meshAreas_subset ops c i ok hc h
  intro hp
  unfold disallowed at hd
  by_cases h0 : l = 0
  · subst h0
    exact hd (grow_self ok hc.xy _ hp)
  rw [if_neg h0] at hd
  by_cases hmesh : c.mesh = true
  · rw [hmesh, Bool.true_or, if_pos rfl] at hd
    exact hd (grow_self ok hc.xy _ hp)
  · have hg := (raw_gather ops c i hr).2
    have hmf : c.mesh = false := by simpa using hmesh
    unfold gather at hg
    simp only [Config.nonDrop, hmf, Bool.false_and, Bool.false_eq_true, if_false, h0] at hg
    exact hg.2 (solid_odd hs hp)

/-- C74. Support for a mesh keeps the X/Y distance from all models on the first layer, on every layer if the X/Y distance
has priority, and if it is for support meshes. -/
theorem C74_distance_partial (c : Config) (hc : c.Ok) (i : Input) (n l : Nat) (h : l = 0 ∨ c.zFirst = false ∨ c.mesh = true) :
    ∀ p ∈ meshAreas ops c i n l, ∀ q ∈ solid (i.models l), (c.xy : Rat) ^ 2 < dist2 p q := by
  intro p hp q hq
  have hd := (meshAreas_subset ops c i ok hc hp).2.1
  unfold disallowed at hd
  by_contra hcon
  push Not at hcon
  have hnear : p ∈ ops.offset c.xy (solid (i.models l)) := ok.grow _ _ hc.xy ⟨q, hq, hcon⟩
  by_cases h0 : l = 0
  · subst h0
    rw [if_pos rfl] at hd
    exact hd hnear
  · rw [if_neg h0, if_pos (by rcases h.resolve_left h0 with h | h <;> simp [h])] at hd
    exact hd hnear

/-- C74. If the Z distance has priority, support for a mesh keeps the minimum X/Y distance from that mesh. -/
theorem C74_own (c : Config) (hc : c.Ok) (i : Input) (n l : Nat) (hl : 0 < l) (hz : c.zFirst = true) (hm : c.mesh = false) :
    ∀ p ∈ meshAreas ops c i n l, ∀ q ∈ i.own l, (c.xyOverhang : Rat) ^ 2 < dist2 p q := by
  intro p hp q hq
  have hd := (meshAreas_subset ops c i ok hc hp).2.1
  unfold disallowed at hd
  rw [if_neg (by omega), hz, hm, if_neg (by decide)] at hd
  by_contra hcon
  push Not at hcon
  exact hd (.inl (ok.grow _ _ hc.xyOverhang ⟨q, hq, hcon⟩))

/-- C75. Support ends below a model with the distance that is set, in whole layers: there is no model exactly that far
above it. -/
theorem C75_top_partial (c : Config) (hc : c.Ok) (i : Input) (n l : Nat) (hd : c.height ≤ c.top)
    (hl : l + c.top / c.height < n) (p : Point) (hs : Single (i.models (l + c.top / c.height)) p)
    (h : p ∈ meshAreas ops c i n l) : p ∉ solid (i.models (l + c.top / c.height)) := by
  have hb := (meshAreas_subset ops c i ok hc h).2.2
  have h1 : 1 ≤ c.top / c.height := (Nat.one_le_div_iff hc.height).2 hd
  unfold belowModels at hb
  have e : c.topLayers - 1 = c.top / c.height := rfl
  have e2 : l + c.topLayers - 1 = l + c.top / c.height := rfl
  rw [e, e2, if_pos ⟨by unfold Config.topLayers; omega, by omega⟩] at hb
  exact fun hp => hb.2 (solid_odd hs hp)

/-- C75. Support starts above a model with the distance that is set, in whole layers: there is no model exactly that far
below it. -/
theorem C75_bottom_partial (c : Config) (hc : c.Ok) (i : Input) (n l : Nat) (hd : 0 < c.bottom) (hl : c.bottomLayers ≤ l)
    (p : Point) (hs : Single (i.models (l - c.bottomLayers)) p) (h : p ∈ meshAreas ops c i n l) :
    p ∉ solid (i.models (l - c.bottomLayers)) := by
  have hr := (meshAreas_subset ops c i ok hc h).1
  obtain ⟨hl', -⟩ := raw_gather ops c i hr
  obtain ⟨st, _, e⟩ := raw_made ops c i n hl'
  rw [e] at hr
  have hb : 0 < c.bottomLayers := by
    unfold Config.bottomLayers
    exact Nat.div_pos (by omega) hc.height
  unfold moveUp at hr
  rw [if_neg (by omega)] at hr
  dsimp only at hr
  intro hp
  split at hr
  · exact hr.2 (solid_odd hs hp)
  · exact hr.2 (.inr hp)

end

/-! ## Build plate only -/

theorem sink_keep {r : Nat → Region} {a l : Nat} {p : Point} (h : p ∈ r l) (hn : l = a → p ∈ r (l + 1) ∨ p ∈ r (l - 1)) :
    p ∈ sink r a l := by
  unfold sink
  by_cases e : l = a
  · subst e
    rw [Function.update_self]
    exact ⟨h, hn rfl⟩
  · rw [Function.update_of_ne e]
    exact h

/-- A column of support on the layers from `a` to `b` stays if it starts on the first layer, or has two layers. -/
theorem sinks_keep {p : Point} {a b : Nat} (hab : a = 0 ∨ a < b) : ∀ (ls : List Nat) (r : Nat → Region),
    (∀ l, a ≤ l → l ≤ b → p ∈ r l) → (∀ l ∈ ls, 0 < l) → ∀ l, a ≤ l → l ≤ b → p ∈ ls.foldl sink r l := by
  intro ls
  induction ls with
  | nil => intro r h _; exact h
  | cons x ls ih =>
    intro r h hx
    rw [List.foldl_cons]
    apply ih
    · intro l h1 h2
      refine sink_keep (h l h1 h2) fun e => ?_
      have := hx x List.mem_cons_self
      by_cases hlb : l < b
      · exact .inl (h (l + 1) (by omega) (by omega))
      · exact .inr (h (l - 1) (by omega) (by omega))
    · exact fun l hl => hx l (List.mem_cons_of_mem _ hl)

theorem settle_keep {p : Point} {a b : Nat} (hab : a = 0 ∨ a < b) (n : Nat) (r : Nat → Region)
    (h : ∀ l, a ≤ l → l ≤ b → p ∈ r l) (l : Nat) (h1 : a ≤ l) (h2 : l ≤ b) : p ∈ settle n r l := by
  refine sinks_keep hab _ r h (fun l hl => ?_) l h1 h2
  rw [List.mem_range'_1] at hl
  omega

theorem touching_down {ops : Ops} {c : Config} (hc : c.conical = none) (r : Nat → Region) {p : Point} : ∀ (l : Nat),
    p ∈ touching ops c r l → ∀ k ≤ l, p ∈ touching ops c r k
  | 0, h, k, hk => by rw [Nat.le_zero.1 hk]; exact h
  | l + 1, h, k, hk => by
    rcases Nat.lt_or_ge k (l + 1) with hk' | hk'
    · refine touching_down hc r l ?_ k (by omega)
      simp only [touching, hc] at h
      exact h.2
    · rw [le_antisymm hk hk']
      exact h

/-- C78. With support on the build plate only (and not conical), below every point of support there is support on all
layers down to the build plate, except for what is removed below models. -/
theorem C78_plate_partial (ops : Ops) (c : Config) (i : Input) (n l : Nat) (hp : c.plate = true) (hc : c.conical = none)
    (p : Point) (h : p ∈ meshAreas ops c i n l) (hfree : ∀ k < l, c.height ≤ c.top → p ∉ solid (i.models (k + c.top / c.height))) :
    ∀ k ≤ l, p ∈ meshAreas ops c i n k := by
  unfold meshAreas at *
  split at h
  · cases h
  · rename_i hn
    rw [if_neg hn]
    have h1 := settle_subset _ _ _ h
    refine fun k hk => settle_keep (a := 0) (b := l) (.inl rfl) n _ (fun k _ hk => ?_) k (Nat.zero_le _) hk
    rcases Nat.lt_or_ge k l with hkl | hkl
    · have h2 := belowModels_subset c i n _ _ h1
      unfold plateOnly at h2
      rw [if_pos hp] at h2
      have h3 := touching_down hc _ l h2 k (by omega)
      unfold belowModels plateOnly
      rw [if_pos hp]
      split
      · rename_i ht
        refine ⟨h3, fun ho => hfree k hkl ?_ (odd_solid ho)⟩
        by_contra hlt
        have := Nat.div_eq_of_lt (not_le.1 hlt)
        unfold Config.topLayers at ht
        omega
      · exact h3
    · rw [le_antisymm hk hkl]
      exact h1

/-! ## Floating support -/

theorem sinks_other : ∀ (ls : List Nat) (r : Nat → Region) (l : Nat), l ∉ ls → ls.foldl sink r l = r l
  | [], _, _, _ => rfl
  | a :: ls, r, l, h => by
    rw [List.foldl_cons, sinks_other ls _ l fun h' => h (List.mem_cons_of_mem _ h')]
    unfold sink
    rw [Function.update_of_ne (by rintro rfl; exact h List.mem_cons_self)]

/-- After a range of layers, what is left on them is next to support on the layer above or below. -/
theorem sinks_next (r : Nat → Region) (p : Point) : ∀ (m a : Nat), 0 < a → ∀ l, a ≤ l → l < a + m →
    p ∈ (List.range' a m).foldl sink r l →
      p ∈ (List.range' a m).foldl sink r (l + 1) ∨ p ∈ (List.range' a m).foldl sink r (l - 1) := by
  intro m
  induction m generalizing r with
  | zero => intro a _ l h1 h2; omega
  | succ m ih =>
    intro a ha l h1 h2 h
    rw [List.range'_succ, List.foldl_cons] at *
    rcases Nat.lt_or_ge a l with hl | hl
    · exact ih (sink r a) (a + 1) (by omega) l (by omega) (by omega) h
    · obtain rfl : l = a := by omega
      have hnot : l ∉ List.range' (l + 1) m := by rw [List.mem_range'_1]; omega
      have hnot' : l - 1 ∉ List.range' (l + 1) m := by rw [List.mem_range'_1]; omega
      rw [sinks_other _ _ _ hnot] at h
      have hs := h
      unfold sink at h
      rw [Function.update_self] at h
      rcases h.2 with hab | hab
      · left
        -- the layer above keeps the point, as this one has it
        cases m with
        | zero => 
          simp only [List.range'_zero, List.foldl_nil]
          unfold sink
          rw [Function.update_of_ne (by omega)]
          exact hab
        | succ m =>
          rw [List.range'_succ, List.foldl_cons]
          rw [sinks_other _ _ _ (by rw [List.mem_range'_1]; omega)]
          refine sink_keep ?_ fun _ => .inr ?_
          · unfold sink
            rw [Function.update_of_ne (by omega)]
            exact hab
          · exact hs
      · right
        rw [sinks_other _ _ _ hnot']
        unfold sink
        rw [Function.update_of_ne (by omega)]
        exact hab

/-- C79. Above the first layer no support is on a single layer only: there is more of it in the same place on the layer
above or on the layer below. -/
theorem C79_two (ops : Ops) (keep : Rat) (ok : ops.Ok keep) (ms : List (Config × Input)) (hms : ∀ m ∈ ms, m.1.Ok)
    (n l : Nat) (hl : 0 < l) (p : Point) (h : p ∈ areas ops ms n l) : p ∈ areas ops ms n (l + 1) ∨ p ∈ areas ops ms n (l - 1) := by
  obtain ⟨⟨c, i⟩, hmem, h⟩ := h
  have key : p ∈ meshAreas ops c i n (l + 1) ∨ p ∈ meshAreas ops c i n (l - 1) := by
    dsimp only at h
    have hr := raw_gather ops c i (meshAreas_subset ops c i ok (hms _ hmem) h).1
    unfold meshAreas at *
    split at h
    · cases h
    · rename_i hn
      rw [if_neg hn]
      by_cases hln : l < 1 + (n - 2)
      · exact sinks_next _ p _ _ Nat.one_pos l hl hln h
      · have : 1 ≤ c.topLayers := Nat.succ_le_succ (Nat.zero_le _)
        omega
  exact key.imp (fun h => ⟨_, hmem, h⟩) (fun h => ⟨_, hmem, h⟩)

end Verif.Support
