import Verif.Extruders.Lemmas

/-! # C62 (the order of extruders), C63 (priming) and C64 (the prime tower) -/

namespace Verif.Extruders

open Verif.Layers (LayerType)

variable (g : Group)

/-! ## C62 -/

/-- No extruder has two turns on a layer. -/
theorem C62_once (first : Nat) (o : List Use) (h : o ∈ g.orders first) : (o.map Use.extruder).Nodup := by
  obtain ⟨i, hi⟩ := List.mem_iff_getElem?.1 h
  rcases orders_map g first i o hi with h | ⟨_, _, h⟩
  · rw [h]; exact order_nodup g _ _
  · rw [h]; simp

/-- Every layer has an order, and every extruder that has something to print on the layer is in it.

Partial: not for spiralized models, of which only the outer wall counts (see `C62_spiral_counterexample`), and not for
support in the gap above a raft if layer 0 has another support extruder (see `C62_filler_counterexample`). -/
theorem C62_complete_partial (first : Nat) (hfit : Fits g)
    (l : Int) (h1 : -(g.extra : Int) ≤ l) (h2 : l < g.layerCount) (e : Nat) (h : Needs g l e) :
    ∃ o, (g.orders first)[(l + g.extra).toNat]? = some o ∧ ∃ u ∈ o, u.extruder = e := by
  have hlt : (l + g.extra).toNat < (g.orders first).length := by rw [orders_length]; omega
  refine ⟨_, List.getElem?_eq_getElem hlt, ?_⟩
  have hget := List.getElem?_eq_getElem hlt
  generalize (g.orders first)[(l + g.extra).toNat] = o at hget
  have hl : (((l + g.extra).toNat : Nat) : Int) - g.extra = l := by omega
  have key : e ∈ (g.order (lastBefore first (g.orders first) (l + g.extra).toNat) l).map Use.extruder := by
    by_cases hb : g.type l = .raftBase
    · obtain ⟨hr, hlow⟩ := (type_base_iff g l h1).1 hb
      have heq : e = g.eBase := by
        have hex : g.extra = 1 + g.interfaceLayers + g.surfaceLayers + g.fillers := by unfold Group.extra; rw [if_pos hr]
        have hneg : l < -(g.fillers : Int) := by rw [hlow, hex]; push_cast; omega
        cases h with
        | raftBase => rfl
        | outerWall hp => have := hp.2.2.2.1; omega
        | innerWall hp => have := hp.2.2.2.1; omega
        | infill hp => have := hp.2.2.2.1; omega
        | skin hp => have := hp.2.2.2.1; omega
        | roofing hp => have := hp.2.2.2.1; omega
        | flooring hp => have := hp.2.2.2.1; omega
        | lines _ _ _ hp => omega
        | firstSupport hp => have := hp.1; omega
        | support hp => have := hp.1; omega
        | supportRoof hp => have := hp.1; omega
        | supportBottom hp => have := hp.1; omega
        | skirtBrim hp => rw [hr] at hp; rcases hp with hp | hp <;> cases hp
        | raftInterface => omega
        | raftSurface => omega
      rw [heq]
      unfold Group.order
      rw [if_pos hb]
      simp
    · obtain ⟨u1, u2⟩ := needs_used g hfit.exist hfit.asked hfit.plain hfit.support hfit.filler l h1 e h hb
      obtain ⟨u, hu, rfl⟩ := order_complete g _ e l hb u1 u2
      exact List.mem_map_of_mem hu
  rcases orders_map g first _ o hget with hm | ⟨_, hm, _⟩
  · rw [hl] at hm
    rw [← hm] at key
    obtain ⟨u, hu, he⟩ := List.mem_map.1 key
    exact ⟨u, hu, he⟩
  · rw [hl] at hm
    rw [hm] at key
    simp at key

/-- Without a prime tower no extruder is selected on a layer that it does not print on, except on the lowest one. -/
theorem C62_idle (first : Nat) (hf : FillerSupport g) (ht : g.tower = .none) (i : Nat) (hi : 0 < i) (o : List Use)
    (h : (g.orders first)[i]? = some o) (u : Use) (hu : u ∈ o) :
    Needs g ((i : Int) - g.extra) u.extruder := by
  rcases (orders_get g first i o h).2 with ⟨_, ho⟩ | ⟨h', _⟩
  · have hb : g.type ((i : Int) - g.extra) ≠ .raftBase := by
      intro hb
      have := ((type_base_iff g _ (by omega)).1 hb).2
      omega
    refine used_needs g hf _ (by omega) _ hb ?_
    rw [ho] at hu
    unfold Group.order at hu
    rw [if_neg hb] at hu
    rcases pick_used g _ _ _ _ u hu with h | h
    · simpa [show ¬ (i : Int) - g.extra = -(g.extra : Int) by omega] using h
    · exfalso
      obtain ⟨pre, post, hp⟩ := List.append_of_mem hu
      exact h (by rw [pick_prime g _ _ _ _ pre post u hp]; simp [Group.primeFor, ht])
  · rw [ht] at h'; cases h'

/-- A layer is printed with as few tool changes as possible, given the extruder with which the layer below ended and
the extruders that have a turn. -/
theorem C62_minimal (first i : Nat) (hr : i = 0 → g.adhesion = .raft → first = g.eBase) (o : List Use)
    (h : (g.orders first)[i]? = some o) (xs : List Nat) (hx : ∀ u ∈ o, u.extruder ∈ xs) :
    changes (lastBefore first (g.orders first) i :: o.map Use.extruder) ≤
      changes (lastBefore first (g.orders first) i :: xs) := by
  refine changes_minimal _ _ xs (C62_once g first o (List.mem_of_getElem? h)) ?_ (by
    intro y hy
    obtain ⟨u, hu, rfl⟩ := List.mem_map.1 hy
    exact hx u hu)
  rcases orders_map g first i o h with hm | ⟨_, _, hm⟩
  · rw [hm]
    by_cases hb : g.type ((i : Int) - g.extra) = .raftBase
    · obtain ⟨h1, h2⟩ := (type_base_iff g _ (by omega)).1 hb
      have hi : i = 0 := by omega
      subst hi
      rw [lastBefore_zero, hr rfl h1]
      intro _
      unfold Group.order
      rw [if_pos hb]
      rfl
    · exact order_head g _ _ hb
  · rw [hm]; simp

/-- A layer begins with the first extruder of its order, and an empty layer with the one that the print below it ended
with, which for the first mesh group is the start extruder below the lowest layer. -/
theorem C62_begin (os : List (List Use)) (i : Nat) :
    g.findUsed os false i =
      match (os[i]?.getD []).head? with
      | some u => u.extruder
      | none => lastBefore g.start os i := by
  have last : ∀ i, g.findUsed os true i = lastBefore g.start os (i + 1) := by
    intro i
    induction i with
    | zero =>
      unfold Group.findUsed lastBefore
      cases os with
      | nil => rfl
      | cons o t =>
        cases o with
        | nil => rfl
        | cons u r =>
          simp only [List.getElem?_cons_zero, Option.getD_some, if_true, lastOf]
          simp only [Nat.zero_add, List.take_succ_cons, List.take_zero, List.flatten_cons, List.flatten_nil,
            List.append_nil, List.getLast?_cons]
          cases r.getLast? <;> rfl
    | succ i ih =>
      unfold Group.findUsed
      have ht : os.take (i + 1 + 1) = os.take (i + 1) ++ os[i + 1]?.toList := List.take_add_one
      cases ho : os[i + 1]? with
      | none =>
        rw [ho] at ht
        simp only [Option.getD_none]
        rw [ih]
        unfold lastBefore
        rw [ht]
        simp
      | some o =>
        rw [ho] at ht
        cases o with
        | nil =>
          simp only [Option.getD_some]
          rw [ih]
          unfold lastBefore
          rw [ht]
          simp
        | cons u r =>
          simp only [Option.getD_some, if_true]
          unfold lastBefore lastOf
          rw [ht]
          simp only [Option.toList_some, List.flatten_append, List.flatten_cons, List.flatten_nil, List.append_nil,
            List.getLast?_append, List.getLast?_cons]
          cases r.getLast? <;> simp
  cases i with
  | zero =>
    unfold Group.findUsed
    cases ho : os[0]?.getD [] with
    | nil => simp [lastBefore_zero]
    | cons u r => simp
  | succ i =>
    unfold Group.findUsed
    cases ho : os[i + 1]?.getD [] with
    | nil => simpa using last i
    | cons u r => simp

/-! ## C64 -/

theorem highest_ge (low : Int) (p : Int → Bool) (n : Nat) : low ≤ highest low p n := by
  induction n with
  | zero => exact le_refl _
  | succ n ih =>
    simp only [highest]
    split
    · split
      · omega
      · exact ih
    · exact le_refl _

theorem highest_ge_of (low : Int) (p : Int → Bool) (n k : Nat) (hk : k < n) (hp : p k = true) :
    (k : Int) ≤ highest low p n := by
  induction n with
  | zero => omega
  | succ n ih =>
    simp only [highest]
    by_cases h : (n : Int) > low
    · rw [if_pos h]
      by_cases hpn : p n = true
      · rw [if_pos hpn]; omega
      · rw [if_neg hpn]
        exact ih (by
          rcases Nat.lt_succ_iff_lt_or_eq.1 hk with h | h
          · exact h
          · subst h; exact absurd hp hpn)
    · rw [if_neg h]; omega

theorem fold_height_ge (e : Nat) (ms : List Mesh) (h : Int) :
    h ≤ ms.foldl (fun h m => if !m.printed || m.supportMesh then h else highest h (m.usesOn e) m.layers.length) h := by
  induction ms generalizing h with
  | nil => exact le_refl _
  | cons m t ih =>
    rw [List.foldl_cons]
    refine le_trans ?_ (ih _)
    split
    · exact le_refl _
    · exact highest_ge _ _ _

theorem fold_height_ge_of (e : Nat) (l : Int) (ms : List Mesh) (h : Int) (m : Mesh) (hm : m ∈ ms)
    (hu : m.usesOn e l = true) :
    l ≤ ms.foldl (fun h m => if !m.printed || m.supportMesh then h else highest h (m.usesOn e) m.layers.length) h := by
  induction ms generalizing h with
  | nil => simp at hm
  | cons c t ih =>
    rw [List.foldl_cons]
    rcases List.mem_cons.1 hm with rfl | hm
    · refine le_trans ?_ (fold_height_ge e t _)
      have hl : 0 ≤ l := by
        unfold Mesh.usesOn at hu
        split at hu
        · cases hu
        · omega
      have hex : ∃ ly, m.layers[l.toNat]? = some ly ∧ ¬ (!m.printed || m.supportMesh) = true := by
        unfold Mesh.usesOn at hu
        rw [if_neg (by omega)] at hu
        cases hly : m.layers[l.toNat]? with
        | none => rw [hly] at hu; cases hu
        | some ly =>
          rw [hly] at hu
          dsimp only at hu
          refine ⟨ly, rfl, fun hc => ?_⟩
          rw [if_pos hc] at hu
          cases hu
      obtain ⟨ly, hly, hc⟩ := hex
      rw [if_neg hc]
      have := highest_ge_of h (m.usesOn e) m.layers.length l.toNat (List.getElem?_eq_some_iff.1 hly).1 (by
        rw [Int.toNat_of_nonneg hl]; exact hu)
      omega
    · exact ih _ hm

/-- The recorded height of an extruder is at least every layer above the first one on which it is used. -/
theorem height_ge (hm : ∀ (k : Nat) s, g.support[k]? = some s → s.infill = true ∨ s.bottom = true ∨ s.roof = true →
    (k : Int) ≤ g.maxFilled) (l : Int) (hl : 0 < l) (e : Nat) (hu : g.usedOn l e = true) : l ≤ g.height e := by
  have hfold : (∃ m ∈ g.meshes, m.usesOn e l = true) ∨ ((e = g.eSupport ∨ e = g.eRoof ∨ e = g.eBottom) ∧ l ≤ g.maxFilled) := by
    unfold Group.usedOn at hu
    simp only [Bool.and_eq_true, Bool.or_eq_true, decide_eq_true_eq] at hu
    rcases hu.2 with (⟨h, _⟩ | ⟨_, h⟩) | ⟨_, h⟩
    · simp [hl, show ¬ l < 0 by omega] at h
    · right
      unfold Group.supportUses at h
      split at h
      · cases hg : g.support[(max 0 l).toNat]? with
        | none => rw [hg] at h; cases h
        | some s =>
          rw [hg] at h
          dsimp only at h
          rw [if_neg (by omega)] at h
          have h0 : ((max 0 l).toNat : Int) = l := by omega
          simp only [Bool.or_eq_true, Bool.and_eq_true, beq_iff_eq] at h
          have hmax := hm _ s hg
          rw [h0] at hmax
          rcases h with (⟨a, b⟩ | ⟨a, b⟩) | ⟨a, b⟩
          · exact ⟨.inl b.symm, hmax (.inl a)⟩
          · exact ⟨.inr (.inr b.symm), hmax (.inr (.inl a))⟩
          · exact ⟨.inr (.inl b.symm), hmax (.inr (.inr a))⟩
      · cases h
    · exact .inl (List.any_eq_true.1 h)
  unfold Group.height
  dsimp only
  generalize hF : g.meshes.foldl (fun h m =>
    if !m.printed || m.supportMesh then h else highest h (m.usesOn e) m.layers.length) (-((g.extra : Int) + 1)) = F
  have hF' : l ≤ F ∨ ((e = g.eSupport ∨ e = g.eRoof ∨ e = g.eBottom) ∧ l ≤ g.maxFilled) := by
    rcases hfold with ⟨m, hmem, hmu⟩ | h
    · left
      rw [← hF]
      exact fold_height_ge_of e l g.meshes _ m hmem hmu
    · exact .inr h
  have step : ∀ (c : Prop) [Decidable c] (h x : Int), h ≤ (if c then max h x else h) := by
    intro c _ h x
    split
    · exact le_max_left _ _
    · exact le_refl _
  have step' : ∀ (c : Prop) [Decidable c] (h x : Int), h ≤ (if c then max x h else h) := by
    intro c _ h x
    split
    · exact le_max_right _ _
    · exact le_refl _
  have hG : l ≤ (if e = g.eBottom then max (if e = g.eRoof then max (if e = g.eSupport then max F g.maxFilled else F)
      g.maxFilled else if e = g.eSupport then max F g.maxFilled else F) g.maxFilled else if e = g.eRoof then
      max (if e = g.eSupport then max F g.maxFilled else F) g.maxFilled else if e = g.eSupport then max F g.maxFilled
      else F) := by
    rcases hF' with h | ⟨h | h | h, h'⟩
    · exact le_trans h (le_trans (step (e = g.eSupport) F g.maxFilled) (le_trans (step (e = g.eRoof) _ g.maxFilled)
        (step (e = g.eBottom) _ g.maxFilled)))
    · rw [if_pos h]
      exact le_trans h' (le_trans (le_max_right _ _) (le_trans (step (e = g.eRoof) _ g.maxFilled)
        (step (e = g.eBottom) _ g.maxFilled)))
    · rw [if_pos h]
      exact le_trans h' (le_trans (le_max_right _ _) (step (e = g.eBottom) _ g.maxFilled))
    · rw [if_pos h]
      exact le_trans h' (le_max_right _ _)
  revert hG
  generalize (if e = g.eBottom then max (if e = g.eRoof then max (if e = g.eSupport then max F g.maxFilled else F)
      g.maxFilled else if e = g.eSupport then max F g.maxFilled else F) g.maxFilled else if e = g.eRoof then
      max (if e = g.eSupport then max F g.maxFilled else F) g.maxFilled else if e = g.eSupport then max F g.maxFilled
      else F) = G
  intro hG
  cases g.adhesion with
  | skirt => exact le_trans hG (step' _ _ _)
  | brim => exact le_trans hG (step' _ _ _)
  | none => exact hG
  | raft =>
    exact le_trans hG (le_trans (step' (e = g.eBase) _ _) (le_trans (step' (e = g.eInterface) _ _)
      (step' (e = g.eSurface) _ _)))

theorem second_ge (e1 e2 : Nat) (h1 : e1 < g.count) (h2 : e2 < g.count) (hne : e1 ≠ e2) :
    g.height e1 ≤ g.second ∨ g.height e2 ≤ g.second := by
  have hc : g.count ≥ 2 := by omega
  unfold Group.second
  rw [if_pos hc]
  have hperm : (sortedIndices g.count g.height).Perm (List.range g.count) := List.perm_insertionSort _ _
  have hlen : (sortedIndices g.count g.height).length = g.count := by rw [hperm.length_eq, List.length_range]
  have hsorted : (sortedIndices g.count g.height).Pairwise fun i j => g.height i ≤ g.height j := by
    have : Std.Total (fun i j : Nat => g.height i ≤ g.height j) := ⟨fun i j => le_total _ _⟩
    have : IsTrans Nat (fun i j : Nat => g.height i ≤ g.height j) := ⟨fun _ _ _ => le_trans⟩
    exact List.pairwise_insertionSort _ _
  rw [List.pairwise_iff_getElem] at hsorted
  have hlt : g.count - 2 < (sortedIndices g.count g.height).length := by omega
  rw [List.getElem?_eq_getElem hlt]
  dsimp only
  have below : ∀ (i : Nat) (hi : i < (sortedIndices g.count g.height).length), i ≤ g.count - 2 →
      g.height ((sortedIndices g.count g.height)[i]) ≤ g.height ((sortedIndices g.count g.height)[g.count - 2]) := by
    intro i hi hle
    rcases Nat.lt_or_eq_of_le hle with h | h
    · exact hsorted i (g.count - 2) hi hlt h
    · subst h; exact le_refl _
  obtain ⟨i1, hi1, e1h⟩ := List.getElem_of_mem (hperm.mem_iff.2 (List.mem_range.2 h1))
  obtain ⟨i2, hi2, e2h⟩ := List.getElem_of_mem (hperm.mem_iff.2 (List.mem_range.2 h2))
  have hi : i1 ≠ i2 := by
    rintro rfl
    exact hne (e1h.symm.trans e2h)
  by_cases hle : i1 ≤ g.count - 2
  · left; rw [← e1h]; exact below i1 hi1 hle
  · right; rw [← e2h]; exact below i2 hi2 (by omega)

/-- Above the height that the prime tower is made for, only one extruder still prints, so that no tool change is
without a tower (`maxFilled` is the highest layer with support).

Partial: for the layers above the first one (see `C64_layer0_counterexample`). -/
theorem C64_height_partial (hfit : Fits g)
    (hm : ∀ (k : Nat) s, g.support[k]? = some s → s.infill = true ∨ s.bottom = true ∨ s.roof = true →
      (k : Int) ≤ g.maxFilled) (l l1 l2 : Int) (hl : 0 < l) (hs : g.second < l) (h1 : l ≤ l1) (h2 : l ≤ l2)
    (e1 e2 : Nat) (hu1 : Needs g l1 e1) (hu2 : Needs g l2 e2) : e1 = e2 := by
  have u1 := (needs_used g hfit.exist hfit.asked hfit.plain hfit.support hfit.filler l1 (by omega) e1 hu1
    (type_model g l1 (by omega))).1
  have u2 := (needs_used g hfit.exist hfit.asked hfit.plain hfit.support hfit.filler l2 (by omega) e2 hu2
    (type_model g l2 (by omega))).1
  by_contra hne
  have a := height_ge g hm l1 (by omega) e1 u1
  have b := height_ge g hm l2 (by omega) e2 u2
  rcases second_ge g e1 e2 (usedOn_lt g u1) (usedOn_lt g u2) hne with h | h <;> omega

/-- With a normal prime tower every extruder that prints anything in the print also prints on the tower on every layer
up to that height. -/
theorem C64_normal (hfit : Fits g) (first : Nat) (ht : g.tower = .normal) (i : Nat) (hb : g.adhesion = .raft → 0 < i)
    (hi : (i : Int) - g.extra ≤ g.second) (o : List Use) (h : (g.orders first)[i]? = some o) (l : Int)
    (hl : -(g.extra : Int) ≤ l) (e : Nat) (hn : Needs g l e) : ∃ u ∈ o, u.extruder = e ∧ u.prime ≠ .none := by
  have he := needs_ever g hfit l hl e hn
  rcases (orders_get g first i o h).2 with ⟨_, ho⟩ | ⟨h', _⟩
  · have hb' : g.type ((i : Int) - g.extra) ≠ .raftBase := by
      intro hb'
      obtain ⟨a, b⟩ := (type_base_iff g _ (by omega)).1 hb'
      have := hb a
      omega
    unfold Group.order at ho
    rw [if_neg hb'] at ho
    dsimp only at ho
    generalize (fun e => g.usedOn ((i : Int) - g.extra) e ||
      (decide ((i : Int) - g.extra = -(g.extra : Int)) && g.needsBlob e)) = used at ho
    have hne : ∀ e last, g.primeFor ((i : Int) - g.extra) used e last ≠ .none := by
      intro e last
      unfold Group.primeFor
      rw [ht]
      dsimp only
      split <;> simp
    have hall : ∀ cs last, (g.pick ((i : Int) - g.extra) used cs last).map Use.extruder = cs := by
      intro cs
      induction cs with
      | nil => intro; rfl
      | cons c t ih =>
        intro last
        simp only [Group.pick]
        rw [if_pos (by simp [hne c last])]
        simp [ih c]
    have hmem : e ∈ o.map Use.extruder := by
      rw [ho, hall]
      exact (mem_candidates g _ e).2 (.inr ⟨usedEver_lt g he, he⟩)
    obtain ⟨u, hu, hue⟩ := List.mem_map.1 hmem
    refine ⟨u, hu, hue, ?_⟩
    rw [ho] at hu
    obtain ⟨pre, post, hp⟩ := List.append_of_mem hu
    rw [pick_prime g _ _ _ _ pre post u hp]
    exact hne _ _
  · rw [ht] at h'; cases h'

theorem polishLayer_split (last : Nat) (o pre post : List Use) (u : Use) (h : polishLayer last o = pre ++ u :: post)
    (ho : o ≠ []) : ∃ pre' u' post', o = pre' ++ u' :: post' ∧ u'.extruder = u.extruder ∧
      pre'.map Use.extruder = pre.map Use.extruder ∧ (u'.prime = u.prime ∨ (∀ v ∈ o, v.prime = .none)) := by
  unfold polishLayer at h
  rw [List.getLast?_eq_some_getLast ho] at h
  dsimp only at h
  split at h
  · rename_i hall
    have hlen : pre.length < o.length := by
      have := congrArg List.length h
      have h2 := List.length_pos_of_ne_nil ho
      simp at this
      omega
    have hmap := polishLayer_map last o ho
    unfold polishLayer at hmap
    rw [List.getLast?_eq_some_getLast ho] at hmap
    dsimp only at hmap
    rw [if_pos hall, h] at hmap
    refine ⟨o.take pre.length, o[pre.length], o.drop (pre.length + 1), ?_, ?_, ?_, .inr ?_⟩
    · rw [← List.drop_eq_getElem_cons hlen, List.take_append_drop]
    · have := congrArg (fun x => x[pre.length]?) hmap
      simp [List.getElem?_eq_getElem hlen] at this
      exact this.symm
    · have := congrArg (fun x => x.take pre.length) hmap
      simp only [List.map_append] at this
      rw [List.take_left' (by simp)] at this
      rw [this, List.map_take]
    · intro v hv
      simpa using List.all_eq_true.1 hall v hv
  · exact ⟨pre, u, post, h, rfl, rfl, .inl rfl⟩

/-- Whenever a tool change brings in an extruder that prints on the layer, it is primed on the prime tower. -/
theorem C64_prime (hfit : Fits g) (first : Nat) (ht : g.tower ≠ .none) (i : Nat) (hb : g.adhesion = .raft → 0 < i)
    (o pre post : List Use) (u : Use) (h : (g.orders first)[i]? = some o) (ho : o = pre ++ u :: post)
    (hn : Needs g ((i : Int) - g.extra) u.extruder)
    (hc : u.extruder ≠ lastOf (lastBefore first (g.orders first) i) pre) : u.prime = .prime := by
  have hb' : g.type ((i : Int) - g.extra) ≠ .raftBase := by
    intro hb'
    obtain ⟨a, b⟩ := (type_base_iff g _ (by omega)).1 hb'
    have := hb a
    omega
  have hu := (needs_used g hfit.exist hfit.asked hfit.plain hfit.support hfit.filler _ (by omega) _ hn hb').1
  have key : ∀ pre' post' u', g.order (lastBefore first (g.orders first) i) ((i : Int) - g.extra) = pre' ++ u' :: post' →
      u'.extruder = u.extruder → pre'.map Use.extruder = pre.map Use.extruder → u'.prime = .prime := by
    intro pre' post' u' hsplit he hpre
    unfold Group.order at hsplit
    rw [if_neg hb'] at hsplit
    dsimp only at hsplit
    rw [pick_prime g _ _ _ _ pre' post' u' hsplit]
    have hl : lastOf (lastBefore first (g.orders first) i) pre' = lastOf (lastBefore first (g.orders first) i) pre := by
      rw [lastOf_map, lastOf_map, hpre]
    rw [hl, he]
    have hreq : requiresPrime (fun e => g.usedOn ((i : Int) - g.extra) e ||
        (decide ((i : Int) - g.extra = -(g.extra : Int)) && g.needsBlob e)) u.extruder
        (lastOf (lastBefore first (g.orders first) i) pre) = true := by
      simp [requiresPrime, hu, hc]
    unfold Group.primeFor
    simp only [hreq, if_true]
    cases hT : g.tower with
    | none => exact absurd hT ht
    | normal => rfl
    | interleaved => rfl
  rcases (orders_get g first i o h).2 with ⟨_, h'⟩ | ⟨_, h'⟩
  · exact key pre post u (h'.symm.trans ho) rfl rfl
  · by_cases hn : g.order (lastBefore first (g.orders first) i) ((i : Int) - g.extra) = []
    · rw [hn, polishLayer_nil] at h'
      have hs : pre = [] ∧ u = ⟨lastBefore first (g.orders first) i, .support⟩ := by
        rw [ho] at h'
        cases pre with
        | nil => simp at h'; exact ⟨rfl, h'.1⟩
        | cons v pre => simp at h'
      obtain ⟨rfl, rfl⟩ := hs
      exact absurd rfl hc
    · obtain ⟨pre', u', post', s1, s2, s3, s4⟩ := polishLayer_split _ _ pre post u (h'.symm.trans ho) hn
      have := key pre' post' u' s1 s2 s3
      rcases s4 with s4 | s4
      · rw [← s4]; exact this
      · rw [s4 u' (by rw [s1]; simp)] at this
        cases this

/-- Every extruder with a turn on a layer up to the height of the prime tower prints on the tower, once. -/
theorem C64_planned (first i : Nat) (ht : g.tower ≠ .none) (hi : (i : Int) - g.extra ≤ g.second) (o : List Use)
    (h : (g.orders first)[i]? = some o) :
    (g.processLayer first (g.orders first) i).towered.Nodup ∧
      ∀ e, e ∈ (g.processLayer first (g.orders first) i).towered ↔ ∃ u ∈ o, u.extruder = e := by
  unfold Group.processLayer
  dsimp only
  rw [h, Option.getD_some]
  have key : ∀ (us : List Use) (p : Plan), (∀ u ∈ us, u ∈ o) → p.towered.Nodup →
      let r := us.foldl (fun p u => g.setExtruder first o ((i : Int) - g.extra) true u.extruder p) p
      r.towered.Nodup ∧ ∀ e, e ∈ r.towered ↔ e ∈ p.towered ∨ ∃ u ∈ us, u.extruder = e := by
    intro us
    induction us with
    | nil => intro p _ hp; simpa using hp
    | cons u us ih =>
      intro p hus hp
      have huo : o.any (fun v => v.extruder == u.extruder) = true :=
        List.any_eq_true.2 ⟨u, hus u (by simp), by simp⟩
      have hle : ¬ ((i : Int) - g.extra > g.second + 1) := by omega
      have step : (g.setExtruder first o ((i : Int) - g.extra) true u.extruder p).towered.Nodup ∧
          ∀ e, e ∈ (g.setExtruder first o ((i : Int) - g.extra) true u.extruder p).towered ↔
            e ∈ p.towered ∨ u.extruder = e := by
        unfold Group.setExtruder Group.addTower
        dsimp only
        rw [if_pos rfl]
        by_cases hm : u.extruder ∈ p.towered
        · rw [if_pos (.inr (.inl hm))]
          refine ⟨hp, fun e => ⟨.inl, ?_⟩⟩
          rintro (h | rfl)
          · exact h
          · exact hm
        · rw [if_neg (by simp only [ht, hm, hle, huo, false_or, not_true, not_false_iff])]
          refine ⟨?_, fun e => by simp [eq_comm]⟩
          rw [List.nodup_append]
          exact ⟨hp, by simp, fun a ha b hb hab => hm (by simp at hb; subst hb; exact hab ▸ ha)⟩
      obtain ⟨r1, r2⟩ := ih _ (fun v hv => hus v (by simp [hv])) step.1
      refine ⟨r1, fun e => ?_⟩
      rw [List.foldl_cons, r2 e, step.2 e]
      simp [or_assoc]
  obtain ⟨k1, k2⟩ := key o ⟨g.findUsed (g.orders first) false i, [], []⟩ (fun _ h => h) (by simp)
  exact ⟨k1, fun e => by rw [k2 e]; simp⟩

/-- With an interleaved prime tower something is printed for the tower on every layer. -/
theorem C64_interleaved (first : Nat) (ht : g.tower = .interleaved) (o : List Use) (h : o ∈ g.orders first) :
    ∃ u ∈ o, u.prime ≠ .none := by
  obtain ⟨i, hi⟩ := List.mem_iff_getElem?.1 h
  rcases (orders_get g first i o hi).2 with ⟨h', _⟩ | ⟨_, h'⟩
  · exact absurd ht h'
  · rw [h']
    unfold polishLayer
    cases hl : (g.order (lastBefore first (g.orders first) i) ((i : Int) - g.extra)).getLast? with
    | none => exact ⟨_, List.mem_singleton.2 rfl, by simp⟩
    | some v =>
      dsimp only
      split
      · exact ⟨_, List.mem_append_right _ (List.mem_singleton.2 rfl), by simp⟩
      · rename_i hall
        rw [Bool.not_eq_true, List.all_eq_false] at hall
        obtain ⟨w, hw, hne⟩ := hall
        exact ⟨w, hw, by simpa using hne⟩

/-! ## C63 -/

theorem setExtruder_current (first : Nat) (o : List Use) (l : Int) (t : Bool) (e : Nat) (p : Plan) :
    (g.setExtruder first o l t e p).current = e := by
  unfold Group.setExtruder Group.addTower
  dsimp only
  split
  · split <;> rfl
  · rfl

theorem setExtruder_events (first : Nat) (o : List Use) (l : Int) (t : Bool) (e : Nat) (p : Plan) :
    (g.setExtruder first o l t e p).events =
      p.events ++ ((if e ≠ p.current ∧ g.primeLayer first e = some l then [.prime e] else []) ++ [.turn e]) := by
  unfold Group.setExtruder Group.addTower
  dsimp only
  split
  · split <;> simp [List.append_assoc]
  · simp [List.append_assoc]

/-- All turns are of extruders in a set. -/
def TurnsIn (S : Nat → Prop) (tr : List Event) : Prop := ∀ e, .turn e ∈ tr → S e

theorem TurnsIn.append {S : Nat → Prop} {a b : List Event} (ha : TurnsIn S a) (hb : TurnsIn S b) : TurnsIn S (a ++ b) := by
  intro e he
  rcases List.mem_append.1 he with h | h
  · exact ha e h
  · exact hb e h

theorem setExtruder_turns {S : Nat → Prop} (first : Nat) (o : List Use) (l : Int) (t : Bool) (e : Nat) (p : Plan)
    (he : S e) (h : TurnsIn S p.events) : TurnsIn S (g.setExtruder first o l t e p).events := by
  rw [setExtruder_events]
  refine h.append ?_
  intro x hx
  rcases List.mem_append.1 hx with hx | hx
  · split at hx <;> simp at hx
  · simp at hx; exact hx ▸ he

theorem PrimedBefore.append {first : Nat} {S : Nat → Prop} {a b : List Event} (ha : PrimedBefore first a)
    (hS : ∀ e, S e → e = first ∨ .prime e ∈ a) (hb : TurnsIn S b) : PrimedBefore first (a ++ b) := by
  intro pre post e h
  rcases List.append_eq_append_iff.1 h with ⟨c, h1, h2⟩ | ⟨c, h1, h2⟩
  · have : Event.turn e ∈ b := by rw [h2]; simp
    rcases hS e (hb e this) with h | h
    · exact .inl h
    · exact .inr (by rw [h1]; exact List.mem_append_left _ h)
  · cases c with
    | nil =>
      simp only [List.nil_append] at h2
      have : Event.turn e ∈ b := by rw [← h2]; simp
      rcases hS e (hb e this) with h | h
      · exact .inl h
      · rw [List.append_nil] at h1
        exact .inr (h1 ▸ h)
    | cons x c =>
      simp only [List.cons_append, List.cons.injEq] at h2
      obtain ⟨rfl, h2⟩ := h2
      exact ha pre c e h1

/-- The extruders that a print can use. -/
def Group.known (first e : Nat) : Prop := e = first ∨ g.usedEver e = true

theorem known_order (first start : Nat) (hx : g.eBase < g.count) (hs : g.known first start) (l : Int)
    (hl : -(g.extra : Int) ≤ l) (u : Use) (hu : u ∈ g.order start l) : g.known first u.extruder := by
  by_cases hb : g.type l = .raftBase
  · have hr := ((type_base_iff g l hl).1 hb).1
    unfold Group.order at hu
    rw [if_pos hb] at hu
    rcases List.mem_cons.1 hu with rfl | hu
    · exact .inr (by simp [Group.usedEver, hx, hr])
    · split at hu
      · obtain ⟨e, he, rfl⟩ := List.mem_map.1 hu
        have := (List.mem_filter.1 he).2
        simp only [Bool.and_eq_true] at this
        exact .inr ((needsBlob_iff g e).1 this.2).2.1
      · simp at hu
  · have := (order_sublist_other g start l hb).subset (List.mem_map_of_mem hu)
    rcases (mem_candidates g start _).1 this with h | h
    · rw [h]; exact hs
    · exact .inr h.2

theorem known_orders (first : Nat) (hx : g.eBase < g.count) (i : Nat) :
    g.known first (lastBefore first (g.orders first) i) ∧
      ∀ u ∈ (g.orders first)[i]?.getD [], g.known first u.extruder := by
  have step : ∀ i, g.known first (lastBefore first (g.orders first) i) →
      ∀ u ∈ (g.orders first)[i]?.getD [], g.known first u.extruder := by
    intro i hk u hu
    cases ho : (g.orders first)[i]? with
    | none => rw [ho] at hu; simp at hu
    | some o =>
      rw [ho, Option.getD_some] at hu
      rcases orders_map g first i o ho with hm | ⟨_, _, hm⟩
      · have : u.extruder ∈ o.map Use.extruder := List.mem_map_of_mem hu
        rw [hm] at this
        obtain ⟨v, hv, he⟩ := List.mem_map.1 this
        rw [← he]
        exact known_order g first _ hx hk _ (by omega) v hv
      · rw [hm] at hu
        simp at hu
        rw [hu]; exact hk
  induction i with
  | zero =>
    have : g.known first (lastBefore first (g.orders first) 0) := by rw [lastBefore_zero]; exact .inl rfl
    exact ⟨this, step 0 this⟩
  | succ i ih =>
    have : g.known first (lastBefore first (g.orders first) (i + 1)) := by
      have ht : (g.orders first).take (i + 1) = (g.orders first).take i ++ (g.orders first)[i]?.toList := List.take_add_one
      obtain ⟨h1, h2⟩ := ih
      unfold lastBefore at h1 ⊢
      rw [ht, List.flatten_append, List.getLast?_append]
      cases ho : (g.orders first)[i]? with
      | none => simpa using h1
      | some o =>
        rw [ho, Option.getD_some] at h2
        simp only [Option.toList_some, List.flatten_cons, List.flatten_nil, List.append_nil]
        cases hl : o.getLast? with
        | none => simpa using h1
        | some u => simpa using h2 u (List.mem_of_getLast? hl)
    exact ⟨this, step _ this⟩

theorem processLayer_turns (first : Nat) (hx : g.eBase < g.count) (i : Nat) :
    TurnsIn (g.known first) (g.processLayer first (g.orders first) i).events := by
  unfold Group.processLayer
  dsimp only
  have h := (known_orders g first hx i).2
  generalize (g.orders first)[i]?.getD [] = o at h
  have : ∀ (us : List Use) (p : Plan), (∀ u ∈ us, g.known first u.extruder) → TurnsIn (g.known first) p.events →
      TurnsIn (g.known first) (us.foldl (fun p u => g.setExtruder first o ((i : Int) - g.extra) true u.extruder p) p).events := by
    intro us
    induction us with
    | nil => intro p _ hp; exact hp
    | cons u t ih =>
      intro p hu hp
      rw [List.foldl_cons]
      exact ih _ (fun v hv => hu v (List.mem_cons_of_mem _ hv)) (setExtruder_turns g _ _ _ _ _ _ (hu u (by simp)) hp)
  exact this o _ h (fun e he => by simp at he)

theorem endRaft_turns {S : Nat → Prop} (first : Nat) (o : List Use) (l : Int) (t : Bool) (p : Plan) (hc : S p.current)
    (ho : ∀ u ∈ o, S u.extruder) (h : TurnsIn S p.events) :
    TurnsIn S (g.endRaft first o l t p).events ∧ S (g.endRaft first o l t p).current := by
  unfold Group.endRaft
  dsimp only
  have : ∀ (us : List Use) (p : Plan), (∀ u ∈ us, S u.extruder) → TurnsIn S p.events → S p.current →
      TurnsIn S (us.foldl (fun p u =>
        if t = false ∨ (u.extruder ∉ p.towered ∧ u.prime ≠ .none) then g.setExtruder first o l t u.extruder p else p) p).events ∧
      S (us.foldl (fun p u =>
        if t = false ∨ (u.extruder ∉ p.towered ∧ u.prime ≠ .none) then g.setExtruder first o l t u.extruder p else p) p).current := by
    intro us
    induction us with
    | nil => intro p _ hp hc; exact ⟨hp, hc⟩
    | cons u r ih =>
      intro p hu hp hc
      rw [List.foldl_cons]
      refine ih _ (fun v hv => hu v (List.mem_cons_of_mem _ hv)) ?_ ?_
      · split
        · exact setExtruder_turns g _ _ _ _ _ _ (hu u (by simp)) hp
        · exact hp
      · split
        · rw [setExtruder_current]; exact hu u (by simp)
        · exact hc
  exact this o _ ho (setExtruder_turns g _ _ _ _ _ _ hc h) (by rw [setExtruder_current]; exact hc)

theorem raftLayer_turns (first : Nat) (hx : Exist g) (hr : g.adhesion = .raft) (i cur : Nat)
    (hi : i < g.extra - g.fillers) (hc : g.known first cur) :
    TurnsIn (g.known first) (g.raftLayer first (g.orders first) i cur).events ∧
      g.known first (g.raftLayer first (g.orders first) i cur).current := by
  have ho := (known_orders g first hx.raft.1 i).2
  have hbase : g.known first g.eBase := .inr (by simp [Group.usedEver, hx.raft.1, hr])
  have he : g.extra = 1 + g.interfaceLayers + g.surfaceLayers + g.fillers := by unfold Group.extra; rw [if_pos hr]
  unfold Group.raftLayer
  dsimp only
  generalize (g.orders first)[i]?.getD [] = o at ho
  by_cases h0 : i = 0
  · rw [if_pos h0]
    exact endRaft_turns g first o _ _ _ hbase ho (fun e he => by simp at he; rw [he]; exact hbase)
  · rw [if_neg h0]
    have hlayer : g.known first (if i ≤ g.interfaceLayers then g.eInterface else g.eSurface) := by
      right
      split
      · have : 0 < g.interfaceLayers := by omega
        simp [Group.usedEver, hx.raft.2.1, hr, this]
      · have : 0 < g.surfaceLayers := by omega
        simp [Group.usedEver, hx.raft.2.2, hr, this]
    generalize (if i ≤ g.interfaceLayers then g.eInterface else g.eSurface) = e at hlayer
    have hstart : ∀ l, TurnsIn (g.known first) (g.startRaft first o l e ⟨cur, [], []⟩).events ∧
        g.known first (g.startRaft first o l e ⟨cur, [], []⟩).current := by
      intro l
      have hn : TurnsIn (g.known first) ([] : List Event) := fun e he => by simp at he
      unfold Group.startRaft
      dsimp only
      split
      · exact ⟨setExtruder_turns g _ _ _ _ _ _ hlayer (setExtruder_turns g _ _ _ _ _ _ hc hn),
          by rw [setExtruder_current]; exact hlayer⟩
      · exact ⟨setExtruder_turns g _ _ _ _ _ _ hc hn, by rw [setExtruder_current]; exact hc⟩
    exact endRaft_turns g first o _ _ _ (hstart _).2 ho (hstart _).1

theorem raftFrom_turns (first : Nat) (hx : Exist g) (hr : g.adhesion = .raft) (n i cur : Nat)
    (hi : i + n ≤ g.extra - g.fillers) (hc : g.known first cur) :
    TurnsIn (g.known first) (g.raftFrom first (g.orders first) n i cur) := by
  induction n generalizing i cur with
  | zero => intro e he; simp [Group.raftFrom] at he
  | succ n ih =>
    simp only [Group.raftFrom]
    obtain ⟨h1, h2⟩ := raftLayer_turns g first hx hr i cur (by omega) hc
    exact h1.append (ih (i + 1) _ (by omega) h2)

/-- Switching to different extruders one after the other primes each on its layer. -/
theorem fold_primes (first : Nat) (os : List Use) (l : Int) (t : Bool) (us : List Use) (p : Plan)
    (hn : (us.map Use.extruder).Nodup) (hf : ∀ u ∈ us, u.extruder ≠ p.current)
    (hp : ∀ u ∈ us, g.primeLayer first u.extruder = some l) (hb : PrimedBefore first p.events) :
    PrimedBefore first (us.foldl (fun p u => g.setExtruder first os l t u.extruder p) p).events ∧
      (∀ x ∈ p.events, x ∈ (us.foldl (fun p u => g.setExtruder first os l t u.extruder p) p).events) ∧
      ∀ u ∈ us, .prime u.extruder ∈ (us.foldl (fun p u => g.setExtruder first os l t u.extruder p) p).events := by
  induction us generalizing p with
  | nil => exact ⟨hb, fun x hx => hx, fun u hu => by simp at hu⟩
  | cons u r ih =>
    rw [List.foldl_cons]
    have hev : (g.setExtruder first os l t u.extruder p).events = p.events ++ ([.prime u.extruder] ++ [.turn u.extruder]) := by
      rw [setExtruder_events, if_pos ⟨hf u (by simp), hp u (by simp)⟩]
    have hb' : PrimedBefore first (p.events ++ [.prime u.extruder]) := by
      refine hb.append (S := fun _ => False) (fun e h => h.elim) ?_
      intro e he
      simp at he
    have hb2 : PrimedBefore first (g.setExtruder first os l t u.extruder p).events := by
      rw [hev, ← List.append_assoc]
      refine hb'.append (S := fun e => e = u.extruder) (fun e h => .inr (by simp [h])) ?_
      intro e he
      simpa using he
    rw [List.map_cons, List.nodup_cons] at hn
    obtain ⟨i1, i2, i3⟩ := ih (g.setExtruder first os l t u.extruder p) hn.2 (by
      intro v hv
      rw [setExtruder_current]
      intro heq
      exact hn.1 (List.mem_map.2 ⟨v, hv, heq⟩)) (fun v hv => hp v (List.mem_cons_of_mem _ hv)) hb2
    refine ⟨i1, fun x hx => i2 x (by rw [hev]; exact List.mem_append_left _ hx), ?_⟩
    intro v hv
    rcases List.mem_cons.1 hv with rfl | hv
    · exact i2 _ (by rw [hev]; simp)
    · exact i3 v hv

theorem primeLayer_blob (first e : Nat) (he : e ≠ first) (hb : g.needsBlob e = true) :
    g.primeLayer first e = some (-(g.extra : Int)) := by
  unfold Group.primeLayer
  rw [if_neg (fun h => he h.2), if_pos hb]

/-- The first layer primes all extruders, if all that are used have a prime blob. -/
theorem first_order (first : Nat) (hg : g.griffin = true) (hb : ∀ e, g.usedEver e = true → g.blob e = true)
    (hx : g.eBase < g.count) (hfirst : g.usedEver first = true) (hr : g.adhesion = .raft → first = g.eBase)
    (o : List Use) (h : (g.orders first)[0]? = some o) :
    ∃ rest, o.map Use.extruder = first :: rest ∧ (first :: rest).Nodup ∧
      (∀ e, e ∈ rest → g.primeLayer first e = some (-(g.extra : Int))) ∧ (∀ e, g.usedEver e = true → e ∈ first :: rest) := by
  have hne : ∀ e, g.usedEver e = true → g.needsBlob e = true := fun e he => (needsBlob_iff g e).2 ⟨hg, he, hb e he⟩
  have hnd := C62_once g first o (List.mem_of_getElem? h)
  have hk := (known_orders g first hx 0).2
  rw [h, Option.getD_some] at hk
  have hall : ∀ e, g.usedEver e = true → e ∈ (g.order first (-(g.extra : Int))).map Use.extruder := by
    intro e he
    by_cases hbase : g.type (-(g.extra : Int)) = .raftBase
    · unfold Group.order
      rw [if_pos hbase, if_pos rfl]
      by_cases h : e = g.eBase
      · simp [h]
      · simp [h, hne e he, usedEver_lt g he]
    · unfold Group.order
      rw [if_neg hbase]
      obtain ⟨u, hu, hue⟩ := pick_complete g (-(g.extra : Int)) (fun e => g.usedOn (-(g.extra : Int)) e ||
        (decide (-(g.extra : Int) = -(g.extra : Int)) && g.needsBlob e)) (g.candidates first) first e
        ((mem_candidates g first e).2 (.inr ⟨usedEver_lt g he, he⟩)) (by simp [hne e he])
      exact List.mem_map.2 ⟨u, hu, hue⟩
  have hmap : o.map Use.extruder = (g.order first (-(g.extra : Int))).map Use.extruder := by
    have hz : ((0 : Nat) : Int) - g.extra = -(g.extra : Int) := by simp
    rcases orders_map g first 0 o h with hm | ⟨_, hm, _⟩
    · rw [hm, lastBefore_zero, hz]
    · rw [lastBefore_zero, hz] at hm
      have := hall first hfirst
      rw [hm] at this
      simp at this
  have hhead : (o.map Use.extruder).head? = some first := by
    rw [hmap]
    by_cases hbase : g.type (-(g.extra : Int)) = .raftBase
    · have := hr ((type_base_iff g _ (le_refl _)).1 hbase).1
      unfold Group.order
      rw [if_pos hbase, this]
      rfl
    · exact order_head g first _ hbase (hall first hfirst)
  cases ho : o.map Use.extruder with
  | nil => rw [ho] at hhead; cases hhead
  | cons a rest =>
    have : a = first := by rw [ho] at hhead; simpa using hhead
    subst this
    refine ⟨rest, rfl, ho ▸ hnd, ?_, ?_⟩
    · intro e he
      rw [ho, List.nodup_cons] at hnd
      have hne' : e ≠ a := fun h => hnd.1 (h ▸ he)
      have hmem : e ∈ o.map Use.extruder := by rw [ho]; exact List.mem_cons_of_mem _ he
      obtain ⟨u, hu, hue⟩ := List.mem_map.1 hmem
      rcases hk u hu with hk | hk
      · exact absurd (hue ▸ hk) hne'
      · rw [hue] at hk
        exact primeLayer_blob g a e hne' (hne e hk)
    · intro e he
      rw [← ho, hmap]
      exact hall e he

theorem setExtruder_self (first : Nat) (o : List Use) (l : Int) (t : Bool) (p : Plan) :
    (g.setExtruder first o l t p.current p).events = p.events ++ [.turn p.current] := by
  rw [setExtruder_events, if_neg (fun h => h.1 rfl)]
  rfl

/-- On a printer with prime blobs (Griffin or Cheetah), if all extruders of the print have the prime blob enabled and
the print begins with one of them (that of the base, if there is a raft), every extruder is primed before its first
turn.

Partial: an extruder without prime blob is not primed if it is the first one of the layer on which it is first used
(see `C63_first_of_layer_counterexample`), or prints on the prime tower earlier (see `C63_tower_counterexample`). -/
theorem C63_primed_partial (first : Nat) (hg : g.griffin = true) (hb : ∀ e, g.usedEver e = true → g.blob e = true)
    (hx : Exist g) (hfirst : g.usedEver first = true) (hr : g.adhesion = .raft → first = g.eBase) :
    PrimedBefore first (g.trace first) := by
  have hlen := orders_length g first
  have hgen : ∀ o, (g.orders first)[0]? = some o → _ := first_order g first hg hb hx.raft.1 hfirst hr
  have hnil : PrimedBefore first ([] : List Event) := by
    intro pre post e h
    simp at h
  -- the events after the first layer
  have hrest : ∀ (is : List Nat),
      TurnsIn (g.known first) (is.flatMap fun i => (g.processLayer first (g.orders first) i).events) := by
    intro is e he
    obtain ⟨i, _, hi⟩ := List.mem_flatMap.1 he
    exact processLayer_turns g first hx.raft.1 i e hi
  by_cases had : g.adhesion = .raft
  · have hex : g.extra = 1 + g.interfaceLayers + g.surfaceLayers + g.fillers := by unfold Group.extra; rw [if_pos had]
    have hlt : 0 < (g.orders first).length := by rw [hlen]; omega
    have hget := List.getElem?_eq_getElem hlt
    generalize hO : (g.orders first)[0] = o at hget
    obtain ⟨rest, r1, r2, r3, r4⟩ := hgen o hget
    have hbase := hr had
    unfold Group.trace
    dsimp only
    rw [if_pos had]
    obtain ⟨n, hn⟩ : ∃ n, g.extra - g.fillers = n + 1 := ⟨g.interfaceLayers + g.surfaceLayers, by omega⟩
    rw [hn]
    simp only [Group.raftFrom]
    have hfirstLayer : PrimedBefore first (g.raftLayer first (g.orders first) 0 g.eBase).events ∧
        ∀ e, g.known first e → e = first ∨ .prime e ∈ (g.raftLayer first (g.orders first) 0 g.eBase).events := by
      unfold Group.raftLayer Group.endRaft
      dsimp only
      rw [if_pos rfl, hget, Option.getD_some]
      simp only [true_or, if_true]
      cases o with
      | nil => simp at r1
      | cons u us =>
        simp only [List.map_cons, List.cons.injEq] at r1
        obtain ⟨hu, rfl⟩ := r1
        rw [List.foldl_cons]
        generalize hP0 : g.setExtruder first (u :: us) (((0 : Nat) : Int) - g.extra) false g.eBase
          { current := g.eBase, events := [Event.turn g.eBase], towered := [] } = P0
        have hc0 : P0.current = g.eBase := by rw [← hP0, setExtruder_current]
        have he0 : P0.events = [.turn g.eBase, .turn g.eBase] := by
          rw [← hP0, setExtruder_events]; simp
        generalize hP1 : g.setExtruder first (u :: us) (((0 : Nat) : Int) - g.extra) false u.extruder P0 = P1
        have hc1 : P1.current = first := by rw [← hP1, setExtruder_current, hu]
        have he1 : P1.events = [.turn g.eBase, .turn g.eBase, .turn g.eBase] := by
          have : u.extruder = P0.current := by rw [hc0, hu, hbase]
          rw [← hP1, this, setExtruder_self, he0, hc0]
          rfl
        rw [List.nodup_cons] at r2
        obtain ⟨q1, q2, q3⟩ := fold_primes g first (u :: us) (((0 : Nat) : Int) - g.extra) false us P1 r2.2 (by
          intro v hv heq
          exact r2.1 (List.mem_map.2 ⟨v, hv, heq.trans hc1⟩)) (by
          intro v hv
          rw [r3 _ (List.mem_map_of_mem hv)]
          simp) (by
          rw [he1]
          intro pre post e h
          left
          have : Event.turn e ∈ [Event.turn g.eBase, .turn g.eBase, .turn g.eBase] := by rw [h]; simp
          simp at this
          rw [this, hbase])
        refine ⟨q1, fun e he => ?_⟩
        rcases he with he | he
        · exact .inl he
        · rcases List.mem_cons.1 (r4 e he) with h | h
          · exact .inl h
          · right
            obtain ⟨v, hv, hve⟩ := List.mem_map.1 h
            rw [← hve]
            exact q3 v hv
    obtain ⟨f1, f2⟩ := hfirstLayer
    have hraftrest : TurnsIn (g.known first) (g.raftFrom first (g.orders first) n (0 + 1)
        (g.raftLayer first (g.orders first) 0 g.eBase).current) :=
      raftFrom_turns g first hx had n 1 _ (by omega)
        (raftLayer_turns g first hx had 0 g.eBase (by omega) (by rw [← hbase]; exact .inl rfl)).2
    rw [List.append_assoc]
    exact f1.append f2 (hraftrest.append (hrest _))
  · have hex : g.extra = 0 := by unfold Group.extra; rw [if_neg had]
    have hfi : g.fillers = 0 := by unfold Group.fillers; rw [if_neg had]
    unfold Group.trace
    dsimp only
    rw [if_neg had, hfi, List.nil_append]
    simp only [List.range_zero, List.map_nil, ite_self, List.nil_append]
    rcases Nat.eq_zero_or_pos g.layerCount with h0 | hpos
    · rw [h0]; simpa using hnil
    · obtain ⟨n, hn⟩ : ∃ n, g.layerCount = n + 1 := ⟨g.layerCount - 1, by omega⟩
      have hlt : 0 < (g.orders first).length := by rw [hlen]; omega
      have hget := List.getElem?_eq_getElem hlt
      generalize (g.orders first)[0] = o at hget
      obtain ⟨rest, r1, r2, r3, r4⟩ := hgen o hget
      rw [hn, List.range_succ_eq_map, List.map_cons, List.flatMap_cons]
      rw [hex, Nat.zero_add]
      have hfirstLayer : PrimedBefore first (g.processLayer first (g.orders first) 0).events ∧
          ∀ e, g.known first e → e = first ∨ .prime e ∈ (g.processLayer first (g.orders first) 0).events := by
        unfold Group.processLayer
        dsimp only
        rw [hget, Option.getD_some]
        cases o with
        | nil => simp at r1
        | cons u us =>
          have hfu : g.findUsed (g.orders first) false 0 = u.extruder := by
            rw [C62_begin, hget]; rfl
          simp only [List.map_cons, List.cons.injEq] at r1
          obtain ⟨hu, rfl⟩ := r1
          rw [List.foldl_cons, hfu]
          generalize hP1 : g.setExtruder first (u :: us) (((0 : Nat) : Int) - g.extra) true u.extruder
            { current := u.extruder, events := [], towered := [] } = P1
          have hc1 : P1.current = first := by rw [← hP1, setExtruder_current, hu]
          have he1 : P1.events = [.turn first] := by
            rw [← hP1, setExtruder_events]; simp [hu]
          rw [List.nodup_cons] at r2
          obtain ⟨q1, q2, q3⟩ := fold_primes g first (u :: us) (((0 : Nat) : Int) - g.extra) true us P1 r2.2 (by
            intro v hv heq
            exact r2.1 (List.mem_map.2 ⟨v, hv, heq.trans hc1⟩)) (by
            intro v hv
            rw [r3 _ (List.mem_map_of_mem hv)]
            simp) (by
            rw [he1]
            intro pre post e h
            left
            have : Event.turn e ∈ [Event.turn first] := by rw [h]; simp
            simpa using this)
          refine ⟨q1, fun e he => ?_⟩
          rcases he with he | he
          · exact .inl he
          · rcases List.mem_cons.1 (r4 e he) with h | h
            · exact .inl h
            · right
              obtain ⟨v, hv, hve⟩ := List.mem_map.1 h
              rw [← hve]
              exact q3 v hv
      obtain ⟨f1, f2⟩ := hfirstLayer
      exact f1.append f2 (hrest _)

/-- Also without a prime blob an extruder is primed right before its turn on the layer on which it is first used, if
another extruder has its turn there before it. -/
theorem C63_switch_partial (first i e : Nat) (o pre post : List Use) (u : Use) (h : (g.orders first)[i]? = some o)
    (ho : o = pre ++ u :: post) (hpre : pre ≠ []) (he : u.extruder = e)
    (hp : g.primeLayer first e = some ((i : Int) - g.extra)) :
    ∃ a b, (g.processLayer first (g.orders first) i).events = a ++ .prime e :: .turn e :: b ∧ .turn e ∉ a := by
  have hnd := C62_once g first o (List.mem_of_getElem? h)
  unfold Group.processLayer
  dsimp only
  rw [h, Option.getD_some]
  have ext : ∀ (us : List Use) (p : Plan), ∃ b,
      (us.foldl (fun p u => g.setExtruder first o ((i : Int) - g.extra) true u.extruder p) p).events = p.events ++ b := by
    intro us
    induction us with
    | nil => intro p; exact ⟨[], by simp⟩
    | cons v r ih =>
      intro p
      obtain ⟨b, hb⟩ := ih (g.setExtruder first o ((i : Int) - g.extra) true v.extruder p)
      rw [List.foldl_cons, hb, setExtruder_events, List.append_assoc]
      exact ⟨_, rfl⟩
  have turns : ∀ (us : List Use) (p : Plan), (∀ v ∈ us, v.extruder ≠ e) → .turn e ∉ p.events →
      (us ≠ [] ∨ p.current ≠ e) →
      .turn e ∉ (us.foldl (fun p u => g.setExtruder first o ((i : Int) - g.extra) true u.extruder p) p).events ∧
      (us.foldl (fun p u => g.setExtruder first o ((i : Int) - g.extra) true u.extruder p) p).current ≠ e := by
    intro us
    induction us with
    | nil =>
      intro p _ h1 h2
      rcases h2 with h2 | h2
      · exact absurd rfl h2
      · exact ⟨h1, h2⟩
    | cons v r ih =>
      intro p hv h1 _
      rw [List.foldl_cons]
      have hve := hv v (by simp)
      refine ih _ (fun w hw => hv w (List.mem_cons_of_mem _ hw)) ?_ (.inr (by rw [setExtruder_current]; exact hve))
      rw [setExtruder_events]
      intro hm
      rcases List.mem_append.1 hm with hm | hm
      · exact h1 hm
      · rcases List.mem_append.1 hm with hm | hm
        · split at hm <;> simp at hm
        · simp at hm; exact hve hm.symm
  have hpe : ∀ v ∈ pre, v.extruder ≠ e := by
    intro v hv heq
    rw [ho, List.map_append, List.nodup_append] at hnd
    exact hnd.2.2 v.extruder (List.mem_map_of_mem hv) e (by simp [he]) heq
  obtain ⟨t1, t2⟩ := turns pre ⟨g.findUsed (g.orders first) false i, [], []⟩ hpe (by simp) (.inl hpre)
  have hsplit : ∀ p0, o.foldl (fun p u => g.setExtruder first o ((i : Int) - g.extra) true u.extruder p) p0 =
      (pre ++ u :: post).foldl (fun p u => g.setExtruder first o ((i : Int) - g.extra) true u.extruder p) p0 := by
    intro p0
    rw [← ho]
  rw [hsplit, List.foldl_append, List.foldl_cons]
  revert t1 t2
  generalize pre.foldl (fun p u => g.setExtruder first o ((i : Int) - g.extra) true u.extruder p)
    ⟨g.findUsed (g.orders first) false i, [], []⟩ = P
  intro t1 t2
  obtain ⟨b, hb⟩ := ext post (g.setExtruder first o ((i : Int) - g.extra) true u.extruder P)
  refine ⟨P.events, b, ?_, t1⟩
  rw [hb, setExtruder_events, he, if_pos ⟨fun h => t2 h.symm, hp⟩]
  simp

end Verif.Extruders
