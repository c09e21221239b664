import Verif.Extruders.Spec
import Mathlib.Data.List.Nodup
import Mathlib.Tactic.Linarith
import Mathlib.Tactic.Ring

/-! # Lemmas on the extruder order -/

namespace Verif.Extruders

open Verif.Layers (LayerType)

/-! ## Tool changes -/

theorem changes_le (a : Nat) (xs : List Nat) : changes (a :: xs) ≤ xs.length := by
  induction xs generalizing a with
  | nil => simp [changes]
  | cons b t ih =>
    have := ih b
    simp only [changes, List.length_cons]
    split <;> omega

theorem le_changes (a : Nat) (xs ys : List Nat) (hn : ys.Nodup) (ha : a ∉ ys) (hs : ∀ y ∈ ys, y ∈ xs) :
    ys.length ≤ changes (a :: xs) := by
  induction xs generalizing a ys with
  | nil =>
    cases ys with
    | nil => simp
    | cons y t => exact absurd (hs y (by simp)) (by simp)
  | cons b t ih =>
    simp only [changes]
    by_cases hab : a = b
    · subst hab
      rw [if_pos rfl, Nat.zero_add]
      refine ih a ys hn ha fun y hy => ?_
      rcases List.mem_cons.1 (hs y hy) with h | h
      · exact absurd (h ▸ hy) ha
      · exact h
    · rw [if_neg hab]
      have := ih b (ys.erase b) (hn.erase b) (fun h => (hn.mem_erase_iff.1 h).1 rfl) (by
        intro y hy
        obtain ⟨h1, h2⟩ := hn.mem_erase_iff.1 hy
        rcases List.mem_cons.1 (hs y h2) with h | h
        · exact absurd h h1
        · exact h)
      have h2 := List.length_erase_le_length_aux ys b
      omega
where
  List.length_erase_le_length_aux (ys : List Nat) (b : Nat) : ys.length ≤ (ys.erase b).length + 1 := by
    by_cases h : b ∈ ys
    · rw [List.length_erase_of_mem h]; omega
    · rw [List.erase_of_not_mem h]; omega

theorem changes_minimal (a : Nat) (ys xs : List Nat) (hn : ys.Nodup) (hh : a ∈ ys → ys.head? = some a)
    (hs : ∀ y ∈ ys, y ∈ xs) : changes (a :: ys) ≤ changes (a :: xs) := by
  by_cases ha : a ∈ ys
  · cases ys with
    | nil => simp at ha
    | cons y t =>
      have : y = a := by simpa using hh ha
      subst this
      simp only [List.nodup_cons] at hn
      have h1 := changes_le y t
      have h2 := le_changes y xs t hn.2 hn.1 fun z hz => hs z (List.mem_cons_of_mem _ hz)
      simp only [changes, if_true]
      omega
  · exact le_trans (changes_le a ys) (le_changes a xs ys hn ha hs)

/-! ## The choice on one layer -/

variable (g : Group)

theorem pick_sublist (l : Int) (used : Nat → Bool) (cs : List Nat) (last : Nat) :
    ((g.pick l used cs last).map Use.extruder).Sublist cs := by
  induction cs generalizing last with
  | nil => simp [Group.pick]
  | cons e t ih =>
    simp only [Group.pick]
    split
    · simpa using (ih e).cons_cons e
    · exact (ih last).cons _

theorem pick_complete (l : Int) (used : Nat → Bool) (cs : List Nat) (last e : Nat) (he : e ∈ cs) (hu : used e = true) :
    ∃ u ∈ g.pick l used cs last, u.extruder = e := by
  induction cs generalizing last with
  | nil => simp at he
  | cons c t ih =>
    simp only [Group.pick]
    rcases List.mem_cons.1 he with rfl | h
    · rw [if_pos (by simp [hu])]
      exact ⟨_, List.mem_cons_self, rfl⟩
    · split
      · obtain ⟨u, hu1, hu2⟩ := ih c h
        exact ⟨u, List.mem_cons_of_mem _ hu1, hu2⟩
      · exact ih last h

theorem pick_used (l : Int) (used : Nat → Bool) (cs : List Nat) (last : Nat) (u : Use)
    (hu : u ∈ g.pick l used cs last) : used u.extruder = true ∨ u.prime ≠ .none := by
  induction cs generalizing last with
  | nil => simp [Group.pick] at hu
  | cons c t ih =>
    simp only [Group.pick] at hu
    split at hu
    · rename_i hc
      rcases List.mem_cons.1 hu with rfl | h
      · simpa using hc
      · exact ih c h
    · exact ih last hu

theorem pick_prime (l : Int) (used : Nat → Bool) (cs : List Nat) (last : Nat) (pre post : List Use) (u : Use)
    (h : g.pick l used cs last = pre ++ u :: post) : u.prime = g.primeFor l used u.extruder (lastOf last pre) := by
  induction cs generalizing last pre with
  | nil => simp [Group.pick] at h
  | cons c t ih =>
    simp only [Group.pick] at h
    split at h
    · cases pre with
      | nil =>
        simp only [List.nil_append, List.cons.injEq] at h
        obtain ⟨rfl, _⟩ := h
        rfl
      | cons v pre =>
        simp only [List.cons_append, List.cons.injEq] at h
        obtain ⟨rfl, h⟩ := h
        rw [ih c pre h]
        congr 1
        cases pre with
        | nil => rfl
        | cons w pre => rfl
    · exact ih last pre h

theorem candidates_nodup (start : Nat) : (g.candidates start).Nodup := by
  unfold Group.candidates
  rw [List.nodup_cons]
  refine ⟨by simp, List.nodup_range.filter _⟩

theorem mem_candidates (start e : Nat) : e ∈ g.candidates start ↔ e = start ∨ (e < g.count ∧ g.usedEver e = true) := by
  unfold Group.candidates
  by_cases h : e = start <;> simp [h]

theorem usedEver_lt {e : Nat} (h : g.usedEver e = true) : e < g.count := by
  unfold Group.usedEver at h
  simp only [Bool.and_eq_true, decide_eq_true_eq] at h
  exact h.1

theorem usedOn_lt {l : Int} {e : Nat} (h : g.usedOn l e = true) : e < g.count := by
  unfold Group.usedOn at h
  simp only [Bool.and_eq_true, decide_eq_true_eq] at h
  exact h.1

theorem needsBlob_iff (e : Nat) : g.needsBlob e = true ↔ g.griffin = true ∧ g.usedEver e = true ∧ g.blob e = true := by
  unfold Group.needsBlob
  constructor
  · intro h
    simp only [Bool.and_eq_true, decide_eq_true_eq] at h
    exact ⟨h.1.1, h.1.2, h.2.2⟩
  · rintro ⟨h1, h2, h3⟩
    simp [h1, h2, h3, usedEver_lt g h2]

/-- The lowest layer is the base of the raft, if there is one, and no other layer is. -/
theorem type_base_iff (l : Int) (hl : -(g.extra : Int) ≤ l) : g.type l = .raftBase ↔ g.adhesion = .raft ∧ l = -(g.extra : Int) := by
  unfold Group.type
  by_cases hr : g.adhesion = .raft
  · have he : g.extra = 1 + g.interfaceLayers + g.surfaceLayers + g.fillers := by unfold Group.extra; rw [if_pos hr]
    simp only [hr, if_true, true_and]
    rw [he] at hl ⊢
    constructor
    · intro h
      split at h
      · push_cast at *; omega
      · split at h
        · cases h
        · split at h
          · cases h
          · split at h <;> cases h
    · rintro rfl
      rw [if_pos (by push_cast; omega)]
  · have he : g.extra = 0 := by unfold Group.extra; rw [if_neg hr]
    have hf : g.fillers = 0 := by unfold Group.fillers; rw [if_neg hr]
    simp only [hr, if_false, false_and, iff_false, hf]
    rw [he] at hl
    rw [if_neg (by push_cast at *; omega), if_neg (by push_cast at *; omega), if_neg (by push_cast at *; omega),
      if_neg (by push_cast at *; omega)]
    simp

theorem order_sublist_other (start : Nat) (l : Int) (h : g.type l ≠ .raftBase) :
    ((g.order start l).map Use.extruder).Sublist (g.candidates start) := by
  unfold Group.order
  rw [if_neg h]
  exact pick_sublist g l _ _ _

theorem order_nodup (start : Nat) (l : Int) : ((g.order start l).map Use.extruder).Nodup := by
  by_cases h : g.type l = .raftBase
  · unfold Group.order
    rw [if_pos h]
    simp only [List.map_cons, List.nodup_cons]
    split
    · simp only [List.map_map]
      refine ⟨by simp, ?_⟩
      have : (Use.extruder ∘ fun e => ({ extruder := e, prime := Prime.none } : Use)) = id := rfl
      rw [this, List.map_id]
      exact List.nodup_range.filter _
    · simp
  · exact (order_sublist_other g start l h).nodup (candidates_nodup g start)

theorem order_head (start : Nat) (l : Int) (h : g.type l ≠ .raftBase)
    (hm : start ∈ (g.order start l).map Use.extruder) : ((g.order start l).map Use.extruder).head? = some start := by
  have hs := order_sublist_other g start l h
  generalize (g.order start l).map Use.extruder = ys at hs hm
  unfold Group.candidates at hs
  cases hs with
  | cons _ hs =>
    have := hs.subset hm
    simp at this
  | cons_cons _ hs => rfl

theorem order_complete (start e : Nat) (l : Int) (h : g.type l ≠ .raftBase) (hu : g.usedOn l e = true)
    (he : g.usedEver e = true) : ∃ u ∈ g.order start l, u.extruder = e := by
  unfold Group.order
  rw [if_neg h]
  refine pick_complete g l _ _ _ e ?_ (by simp [hu])
  exact (mem_candidates g start e).2 (.inr ⟨usedEver_lt g he, he⟩)

/-! ## All layers -/

theorem lastBefore_zero (first : Nat) (os : List (List Use)) : lastBefore first os 0 = first := by
  simp [lastBefore]

theorem lastBefore_succ (first : Nat) (o : List Use) (os : List (List Use)) (i : Nat) :
    lastBefore first (o :: os) (i + 1) = lastBefore (lastOf first o) os i := by
  unfold lastBefore lastOf
  simp only [List.take_succ_cons, List.flatten_cons, List.getLast?_append]
  cases (List.take i os).flatten.getLast? <;> cases o.getLast? <;> rfl

theorem ordersFrom_get (n last i : Nat) (l : Int) (o : List Use) (h : (g.ordersFrom n last l)[i]? = some o) :
    i < n ∧ o = g.order (lastBefore last (g.ordersFrom n last l) i) (l + i) := by
  induction n generalizing last i l with
  | zero => simp [Group.ordersFrom] at h
  | succ n ih =>
    simp only [Group.ordersFrom] at h ⊢
    cases i with
    | zero =>
      rw [lastBefore_zero]
      simp only [List.getElem?_cons_zero, Option.some.injEq] at h
      exact ⟨by omega, by simp [h]⟩
    | succ i =>
      rw [lastBefore_succ]
      simp only [List.getElem?_cons_succ] at h
      obtain ⟨h1, h2⟩ := ih _ _ _ h
      refine ⟨by omega, h2.trans ?_⟩
      congr 1
      push_cast
      ring

theorem ordersFrom_length (n last : Nat) (l : Int) : (g.ordersFrom n last l).length = n := by
  induction n generalizing last l with
  | zero => rfl
  | succ n ih => simp [Group.ordersFrom, ih]

theorem polishLayer_nil (last : Nat) : polishLayer last [] = [⟨last, .support⟩] := rfl

theorem polishLayer_map (last : Nat) (o : List Use) (h : o ≠ []) :
    (polishLayer last o).map Use.extruder = o.map Use.extruder := by
  unfold polishLayer
  rw [List.getLast?_eq_some_getLast h]
  dsimp only
  split
  · conv_rhs => rw [← List.dropLast_append_getLast h]
    simp
  · rfl

theorem lastOf_map (last : Nat) (o : List Use) : lastOf last o = ((o.map Use.extruder).getLast?).getD last := by
  unfold lastOf
  rw [List.getLast?_map]
  cases o.getLast? <;> rfl

theorem lastOf_polishLayer (last : Nat) (o : List Use) : lastOf last (polishLayer last o) = lastOf last o := by
  by_cases h : o = []
  · subst h; rfl
  · rw [lastOf_map, lastOf_map, polishLayer_map last o h]

theorem polish_length (last : Nat) (os : List (List Use)) : (polish last os).length = os.length := by
  induction os generalizing last with
  | nil => rfl
  | cons o t ih => simp [polish, ih]

theorem lastBefore_polish (last i : Nat) (os : List (List Use)) : lastBefore last (polish last os) i = lastBefore last os i := by
  induction os generalizing last i with
  | nil => rfl
  | cons o t ih =>
    cases i with
    | zero => simp [lastBefore_zero]
    | succ i =>
      simp only [polish]
      rw [lastBefore_succ, lastBefore_succ, ih, lastOf_polishLayer]

theorem polish_get (last i : Nat) (os : List (List Use)) (o : List Use) (h : (polish last os)[i]? = some o) :
    ∃ o', os[i]? = some o' ∧ o = polishLayer (lastBefore last (polish last os) i) o' := by
  induction os generalizing last i with
  | nil => simp [polish] at h
  | cons p t ih =>
    simp only [polish] at h ⊢
    cases i with
    | zero =>
      simp only [List.getElem?_cons_zero, Option.some.injEq] at h
      exact ⟨p, rfl, by rw [lastBefore_zero]; exact h.symm⟩
    | succ i =>
      simp only [List.getElem?_cons_succ] at h
      obtain ⟨o', h1, h2⟩ := ih _ _ h
      exact ⟨o', by simpa using h1, by rw [lastBefore_succ]; exact h2⟩

theorem orders_length (first : Nat) : (g.orders first).length = g.extra + g.layerCount := by
  unfold Group.orders
  dsimp only
  split
  · rw [polish_length, ordersFrom_length]
  · rw [ordersFrom_length]

/-- The order of a layer of a print is that for one layer, polished for an interleaved tower. -/
theorem orders_get (first i : Nat) (o : List Use) (h : (g.orders first)[i]? = some o) :
    i < g.extra + g.layerCount ∧
    ((g.tower ≠ .interleaved ∧ o = g.order (lastBefore first (g.orders first) i) ((i : Int) - g.extra)) ∨
     (g.tower = .interleaved ∧ o = polishLayer (lastBefore first (g.orders first) i)
      (g.order (lastBefore first (g.orders first) i) ((i : Int) - g.extra)))) := by
  have hl : -(g.extra : Int) + i = (i : Int) - g.extra := by ring
  unfold Group.orders at h ⊢
  dsimp only at h ⊢
  by_cases ht : g.tower = .interleaved
  · rw [if_pos ht] at h ⊢
    obtain ⟨o', h1, h2⟩ := polish_get _ _ _ _ h
    obtain ⟨h3, h4⟩ := ordersFrom_get g _ _ _ _ _ h1
    rw [hl] at h4
    refine ⟨h3, .inr ⟨ht, ?_⟩⟩
    rw [h2, h4, lastBefore_polish]
  · rw [if_neg ht] at h ⊢
    obtain ⟨h3, h4⟩ := ordersFrom_get g _ _ _ _ _ h
    rw [hl] at h4
    exact ⟨h3, .inl ⟨ht, h4⟩⟩

/-- The extruders of a layer of a print: those of the order for one layer, or else the one from before. -/
theorem orders_map (first i : Nat) (o : List Use) (h : (g.orders first)[i]? = some o) :
    o.map Use.extruder = (g.order (lastBefore first (g.orders first) i) ((i : Int) - g.extra)).map Use.extruder ∨
    (g.tower = .interleaved ∧ g.order (lastBefore first (g.orders first) i) ((i : Int) - g.extra) = [] ∧
      o = [⟨lastBefore first (g.orders first) i, .support⟩]) := by
  rcases (orders_get g first i o h).2 with ⟨_, h⟩ | ⟨ht, h⟩
  · exact .inl (by rw [h])
  · by_cases hn : g.order (lastBefore first (g.orders first) i) ((i : Int) - g.extra) = []
    · refine .inr ⟨ht, hn, ?_⟩
      rw [h, hn]
      rfl
    · exact .inl (by rw [h, polishLayer_map _ _ hn])

/-! ## What is used -/

theorem usesEver_of (m : Mesh) (h1 : m.printed = true) (h2 : m.supportMesh = false) (h3 : m.spiralize = false) (e : Nat) :
    m.usesEver e = ((m.surface && m.eWall0 == e) ||
    (decide (m.walls > 0) && m.eWall0 == e) ||
    ((decide (m.walls > 1) || m.alternate) && m.eWallX == e) ||
    (decide (m.infillDistance > 0) && m.eInfill == e) ||
    ((decide (m.top > 0) || decide (m.bottom > 0)) && m.eTopBottom == e) ||
    (decide (min m.roofing m.top > 0) && m.eRoofing == e) ||
    (decide (min m.flooring m.bottom > 0) && m.eFlooring == e)) := by
  simp [Mesh.usesEver, h1, h2, h3]

theorem usesOn_of (m : Mesh) (h1 : m.printed = true) (h2 : m.supportMesh = false) (l : Int) (hl : 0 ≤ l) (ly : MeshLayer)
    (hly : m.layers[l.toNat]? = some ly) (e : Nat) : m.usesOn e l = m.layerUses e ly := by
  unfold Mesh.usesOn
  rw [if_neg (by omega), hly]
  simp [h1, h2]

/-- A model that is printed on the layer with an extruder, now and ever. -/
theorem used_of_mesh (l : Int) (e : Nat) (m : Mesh) (hm : m ∈ g.meshes) (hl : 0 ≤ l) (he : e < g.count)
    (h1 : m.usesOn e l = true) (h2 : m.usesEver e = true) : g.usedOn l e = true ∧ g.usedEver e = true := by
  have a1 : (g.meshes.any fun m => m.usesOn e l) = true := List.any_eq_true.2 ⟨m, hm, h1⟩
  have a2 : (g.meshes.any fun m => m.usesEver e) = true := List.any_eq_true.2 ⟨m, hm, h2⟩
  constructor
  · simp [Group.usedOn, he, hl, a1]
  · simp only [Group.usedEver, he, decide_true, a2, Bool.or_true, Bool.and_self]

theorem used_of_support (hs : SupportAsked g) (l : Int) (s : SupportLayer) (h : SupportOn g l s) (e : Nat)
    (he : e < g.count)
    (hu : (s.infill = true ∧ (if l = 0 then g.eSupport0 else g.eSupport) = e) ∨ (s.bottom = true ∧ g.eBottom = e) ∨
      (s.roof = true ∧ g.eRoof = e)) : g.usedOn l e = true ∧ g.usedEver e = true := by
  obtain ⟨hf, hg⟩ := h
  have hmem : s ∈ g.support := List.mem_of_getElem? hg
  have hlen : l < g.support.length := by
    have := (List.getElem?_eq_some_iff.1 hg).1
    omega
  constructor
  · have : g.supportUses l e = true := by
      unfold Group.supportUses
      rw [if_pos hlen, hg]
      dsimp only
      rcases hu with ⟨a, b⟩ | ⟨a, b⟩ | ⟨a, b⟩ <;> simp [a, b]
    simp [Group.usedOn, he, hf, this]
  · obtain ⟨m, hm, hme⟩ := hs.mesh s hmem (by
      rcases hu with ⟨a, _⟩ | ⟨a, _⟩ | ⟨a, _⟩ <;> simp [a])
    have hany : (g.meshes.any fun m => (m.supportEnable || m.supportMesh || g.painted) &&
        (g.eSupport0 == e || g.eSupport == e || (g.roofEnable && g.eRoof == e) || (g.bottomEnable && g.eBottom == e)))
        = true := by
      refine List.any_eq_true.2 ⟨m, hm, ?_⟩
      have c1 : (m.supportEnable || m.supportMesh || g.painted) = true := by
        rcases hme with h | h | h <;> simp [h]
      rw [c1, Bool.true_and]
      rcases hu with ⟨a, b⟩ | ⟨a, b⟩ | ⟨a, b⟩
      · split at b <;> simp [b]
      · simp [hs.bottom s hmem a, b]
      · simp [hs.roof s hmem a, b]
    simp only [Group.usedEver, he, decide_true, hany, Bool.or_true, Bool.true_or, Bool.and_self]

theorem type_interface (l : Int) (hr : g.adhesion = .raft) (h1 : -(g.extra : Int) < l)
    (h2 : l ≤ -(g.extra : Int) + g.interfaceLayers) : g.type l = .raftInterface := by
  have he : g.extra = 1 + g.interfaceLayers + g.surfaceLayers + g.fillers := by unfold Group.extra; rw [if_pos hr]
  unfold Group.type
  simp only [hr, if_true]
  rw [he] at h1 h2
  push_cast at *
  rw [if_neg (by omega), if_pos (by omega)]

theorem type_surface (l : Int) (hr : g.adhesion = .raft) (h1 : -(g.extra : Int) + g.interfaceLayers < l)
    (h2 : l ≤ -(g.extra : Int) + g.interfaceLayers + g.surfaceLayers) : g.type l = .raftSurface := by
  have he : g.extra = 1 + g.interfaceLayers + g.surfaceLayers + g.fillers := by unfold Group.extra; rw [if_pos hr]
  unfold Group.type
  simp only [hr, if_true]
  rw [he] at h1 h2
  push_cast at *
  rw [if_neg (by omega), if_neg (by omega), if_pos (by omega)]

/-- What has to be printed is marked as used on the layer and in the whole print. -/
theorem needs_used (hx : Exist g) (ha : ∀ m ∈ g.meshes, Asked m) (hv : ∀ m ∈ g.meshes, m.spiralize = false)
    (hs : SupportAsked g) (hf : FillerSupport g) (l : Int) (hl : -(g.extra : Int) ≤ l) (e : Nat) (h : Needs g l e)
    (hb : g.type l ≠ .raftBase) : g.usedOn l e = true ∧ g.usedEver e = true := by
  have part : ∀ m p e, PartOn g l m p → e < g.count →
      (∀ ly, m.layers[l.toNat]? = some ly → p ∈ ly.parts → m.layerUses e ly = true) →
      m.usesEver e = true → g.usedOn l e = true ∧ g.usedEver e = true := by
    rintro m p e ⟨hm, h1, h2, hl0, ly, hly, hp⟩ he hu hev
    exact used_of_mesh g l e m hm hl0 he (by rw [usesOn_of m h1 h2 l hl0 ly hly]; exact hu ly hly hp) hev
  cases h with
  | outerWall hp hc =>
    rename_i m p
    obtain ⟨hm, h1, h2, _⟩ := id hp
    obtain ⟨-, -, -, -, ly0, hly0, hp0⟩ := id hp
    have hw : 0 < m.walls := by
      rcases hc with hc | hc
      · exact (ha m hm).wall0 _ (List.mem_of_getElem? hly0) _ hp0 hc
      · have := (ha m hm).spiral _ (List.mem_of_getElem? hly0) _ hp0 hc
        rw [hv m hm] at this
        cases this
    refine part m p _ hp (hx.mesh m hm).1 (fun ly _ hpl => ?_) ?_
    · have : (ly.parts.any fun p => p.wall0 || p.spiral) = true :=
        List.any_eq_true.2 ⟨p, hpl, by rcases hc with hc | hc <;> simp [hc]⟩
      simp [Mesh.layerUses, this, hw]
    · rw [usesEver_of m h1 h2 (hv m hm)]; simp [hw]
  | innerWall hp hc =>
    rename_i m p
    obtain ⟨hm, h1, h2, _⟩ := id hp
    obtain ⟨-, -, -, -, ly0, hly0, hp0⟩ := id hp
    have hw := (ha m hm).wall1 _ (List.mem_of_getElem? hly0) _ hp0 hc
    refine part m p _ hp (hx.mesh m hm).2.1 (fun ly _ hpl => ?_) ?_
    · have : (ly.parts.any fun p => p.wall1) = true := List.any_eq_true.2 ⟨p, hpl, hc⟩
      rcases hw with hw | hw <;> simp [Mesh.layerUses, this, hw]
    · rw [usesEver_of m h1 h2 (hv m hm)]
      rcases hw with hw | hw <;> simp [hw]
  | infill hp hc =>
    rename_i m p
    obtain ⟨hm, h1, h2, _⟩ := id hp
    obtain ⟨-, -, -, -, ly0, hly0, hp0⟩ := id hp
    have hw := (ha m hm).infill _ (List.mem_of_getElem? hly0) _ hp0 hc
    refine part m p _ hp (hx.mesh m hm).2.2.1 (fun ly _ hpl => ?_) ?_
    · have : (ly.parts.any fun p => p.infill) = true := List.any_eq_true.2 ⟨p, hpl, hc⟩
      simp [Mesh.layerUses, this, hw]
    · rw [usesEver_of m h1 h2 (hv m hm)]; simp [hw]
  | skin hp hc =>
    rename_i m p
    obtain ⟨hm, h1, h2, _⟩ := id hp
    obtain ⟨-, -, -, -, ly0, hly0, hp0⟩ := id hp
    have hw := (ha m hm).skin _ (List.mem_of_getElem? hly0) _ hp0 hc
    refine part m p _ hp (hx.mesh m hm).2.2.2.1 (fun ly _ hpl => ?_) ?_
    · have : (ly.parts.any fun p => p.skin) = true := List.any_eq_true.2 ⟨p, hpl, hc⟩
      simp [Mesh.layerUses, this]
    · rw [usesEver_of m h1 h2 (hv m hm)]
      rcases hw with hw | hw <;> simp [hw]
  | roofing hp hc =>
    rename_i m p
    obtain ⟨hm, h1, h2, _⟩ := id hp
    obtain ⟨-, -, -, -, ly0, hly0, hp0⟩ := id hp
    obtain ⟨hw1, hw2⟩ := (ha m hm).roofing _ (List.mem_of_getElem? hly0) _ hp0 hc
    refine part m p _ hp (hx.mesh m hm).2.2.2.2.1 (fun ly _ hpl => ?_) ?_
    · have : (ly.parts.any fun p => p.roofing) = true := List.any_eq_true.2 ⟨p, hpl, hc⟩
      simp [Mesh.layerUses, this]
    · rw [usesEver_of m h1 h2 (hv m hm)]; simp [hw1, hw2]
  | flooring hp hc =>
    rename_i m p
    obtain ⟨hm, h1, h2, _⟩ := id hp
    obtain ⟨-, -, -, -, ly0, hly0, hp0⟩ := id hp
    obtain ⟨hw1, hw2⟩ := (ha m hm).flooring _ (List.mem_of_getElem? hly0) _ hp0 hc
    refine part m p _ hp (hx.mesh m hm).2.2.2.2.2 (fun ly _ hpl => ?_) ?_
    · have : (ly.parts.any fun p => p.flooring) = true := List.any_eq_true.2 ⟨p, hpl, hc⟩
      simp [Mesh.layerUses, this]
    · rw [usesEver_of m h1 h2 (hv m hm)]; simp [hw1, hw2]
  | lines hm h1 h2 hl0 hly hc =>
    rename_i m ly
    have hw := (ha m hm).lines _ (List.mem_of_getElem? hly) hc
    refine used_of_mesh g l _ m hm hl0 (hx.mesh m hm).1 ?_ ?_
    · rw [usesOn_of m h1 h2 l hl0 ly hly]
      simp [Mesh.layerUses, hw, hc]
    · rw [usesEver_of m h1 h2 (hv m hm)]; simp [hw]
  | firstSupport h hi hl0 =>
    rename_i s
    refine used_of_support g hs l s h _ hx.support.1 (.inl ⟨hi, ?_⟩)
    by_cases h0 : l = 0
    · rw [if_pos h0]
    · rw [if_neg h0]
      have hneg : l < 0 := by omega
      rcases hf with hf | hf | hf
      · have := h.1; rw [hf] at this; push_cast at this; omega
      · exact hf.symm
      · have hg := h.2
        have : (max 0 l).toNat = 0 := by omega
        rw [this] at hg
        rw [hf s hg] at hi
        cases hi
  | support h hi hl0 =>
    rename_i s
    exact used_of_support g hs l s h _ hx.support.2.1 (.inl ⟨hi, by rw [if_neg (by omega)]⟩)
  | supportRoof h hi =>
    rename_i s
    exact used_of_support g hs l s h _ hx.support.2.2.1 (.inr (.inr ⟨hi, rfl⟩))
  | supportBottom h hi =>
    rename_i s
    exact used_of_support g hs l s h _ hx.support.2.2.2 (.inr (.inl ⟨hi, rfl⟩))
  | skirtBrim had h0 he hsk =>
    subst h0
    constructor
    · rcases had with had | had <;> simp [Group.usedOn, Group.adhesionUses, he, had, hsk]
    · rcases had with had | had <;> simp [Group.usedEver, he, had, hsk]
  | raftBase hr h0 => exact absurd ((type_base_iff g l hl).2 ⟨hr, h0⟩) hb
  | raftInterface hr h1 h2 =>
    have ht := type_interface g l hr h1 h2
    have he : g.extra = 1 + g.interfaceLayers + g.surfaceLayers + g.fillers := by unfold Group.extra; rw [if_pos hr]
    have hn : l < 0 := by rw [he] at h2; push_cast at h2; omega
    have hi : 0 < g.interfaceLayers := by omega
    constructor
    · simp [Group.usedOn, Group.adhesionUses, hx.raft.2.1, hr, ht, hn]
    · simp [Group.usedEver, hx.raft.2.1, hr, hi]
  | raftSurface hr h1 h2 =>
    have ht := type_surface g l hr h1 h2
    have he : g.extra = 1 + g.interfaceLayers + g.surfaceLayers + g.fillers := by unfold Group.extra; rw [if_pos hr]
    have hn : l < 0 := by rw [he] at h2; push_cast at h2; omega
    have hi : 0 < g.surfaceLayers := by omega
    constructor
    · simp [Group.usedOn, Group.adhesionUses, hx.raft.2.2, hr, ht, hn]
    · simp [Group.usedEver, hx.raft.2.2, hr, hi]

/-- What is used on a layer other than the base of the raft has something to print there. -/
theorem used_needs (hf : FillerSupport g) (l : Int) (hl : -(g.extra : Int) ≤ l) (e : Nat) (hb : g.type l ≠ .raftBase)
    (hu : g.usedOn l e = true) : Needs g l e := by
  have hlt := usedOn_lt g hu
  unfold Group.usedOn at hu
  simp only [Bool.and_eq_true, Bool.or_eq_true, decide_eq_true_eq] at hu
  rcases hu.2 with (⟨_, h⟩ | ⟨hh, h⟩) | ⟨h0, h⟩
  · unfold Group.adhesionUses at h
    simp only [Bool.or_eq_true, Bool.and_eq_true, decide_eq_true_eq, beq_iff_eq] at h
    rcases h with ⟨⟨h0, had⟩, hs⟩ | ⟨hr, h⟩
    · exact .skirtBrim had h0 hlt hs
    · have hex : g.extra = 1 + g.interfaceLayers + g.surfaceLayers + g.fillers := by unfold Group.extra; rw [if_pos hr]
      have hlow : l ≠ -(g.extra : Int) := fun h => hb ((type_base_iff g l hl).2 ⟨hr, h⟩)
      by_cases h1 : l ≤ -(g.extra : Int) + g.interfaceLayers
      · rw [type_interface g l hr (by omega) h1] at h
        have : g.eInterface = e := by simpa using h
        subst this
        exact .raftInterface hr (by omega) h1
      · by_cases h2 : l ≤ -(g.extra : Int) + g.interfaceLayers + g.surfaceLayers
        · rw [type_surface g l hr (by omega) h2] at h
          have : g.eSurface = e := by simpa using h
          subst this
          exact .raftSurface hr (by omega) h2
        · exfalso
          have ht : g.type l = .airgap ∨ g.type l = .model := by
            unfold Group.type
            simp only [hr, if_true]
            rw [if_neg (by omega), if_neg (by omega), if_neg (by omega)]
            split <;> simp
          rcases ht with ht | ht <;> rw [ht] at h <;> simp at h
  · unfold Group.supportUses at h
    split at h
    · cases hg : g.support[(max 0 l).toNat]? with
      | none => rw [hg] at h; cases h
      | some s =>
        rw [hg] at h
        simp only [Bool.or_eq_true, Bool.and_eq_true, beq_iff_eq] at h
        have hon : SupportOn g l s := ⟨hh, hg⟩
        rcases h with (⟨hi, rfl⟩ | ⟨hi, rfl⟩) | ⟨hi, rfl⟩
        · by_cases h0 : l = 0
          · rw [if_pos h0]; exact .firstSupport hon hi (by omega)
          · rw [if_neg h0]
            by_cases hpos : 0 < l
            · exact .support hon hi hpos
            · rcases hf with hf | hf | hf
              · rw [hf] at hh; push_cast at hh; omega
              · rw [← hf]; exact .firstSupport hon hi (by omega)
              · have hz : (max 0 l).toNat = 0 := by omega
                rw [hz] at hg
                rw [hf s hg] at hi
                cases hi
        · exact .supportBottom hon hi
        · exact .supportRoof hon hi
    · cases h
  · obtain ⟨m, hm, h⟩ := List.any_eq_true.1 h
    unfold Mesh.usesOn at h
    rw [if_neg (by omega)] at h
    cases hly : m.layers[l.toNat]? with
    | none => rw [hly] at h; cases h
    | some ly =>
      rw [hly] at h
      dsimp only at h
      split at h
      · cases h
      · rename_i hc
        have h1 : m.printed = true := by
          cases hp : m.printed
          · rw [hp] at hc; simp at hc
          · rfl
        have h2 : m.supportMesh = false := by
          cases hp : m.supportMesh
          · rfl
          · rw [hp] at hc; simp at hc
        have on : ∀ p ∈ ly.parts, PartOn g l m p := fun p hp => ⟨hm, h1, h2, h0, ly, hly, hp⟩
        unfold Mesh.layerUses at h
        simp only [Bool.or_eq_true, Bool.and_eq_true, beq_iff_eq, List.any_eq_true] at h
        rcases h with (((((⟨⟨rfl, _⟩, p, hp, hx⟩ | ⟨⟨_, rfl⟩, hx⟩) | ⟨⟨_, rfl⟩, p, hp, hx⟩) | ⟨⟨_, rfl⟩, p, hp, hx⟩) |
          ⟨rfl, p, hp, hx⟩) | ⟨rfl, p, hp, hx⟩) | ⟨rfl, p, hp, hx⟩
        · exact .outerWall (on p hp) hx
        · exact .lines hm h1 h2 h0 hly hx
        · exact .innerWall (on p hp) hx
        · exact .infill (on p hp) hx
        · exact .skin (on p hp) hx
        · exact .roofing (on p hp) hx
        · exact .flooring (on p hp) hx

theorem type_model (l : Int) (hl : 0 ≤ l) : g.type l ≠ .raftBase := by
  intro h
  obtain ⟨hr, h⟩ := (type_base_iff g l (by omega)).1 h
  have hex : g.extra = 1 + g.interfaceLayers + g.surfaceLayers + g.fillers := by unfold Group.extra; rw [if_pos hr]
  omega

theorem needs_ever (hfit : Fits g) (l : Int) (hl : -(g.extra : Int) ≤ l) (e : Nat) (h : Needs g l e) :
    g.usedEver e = true := by
  by_cases hb : g.type l = .raftBase
  · obtain ⟨hr, hlow⟩ := (type_base_iff g l hl).1 hb
    have heq : e = g.eBase := by
      have hex : g.extra = 1 + g.interfaceLayers + g.surfaceLayers + g.fillers := by unfold Group.extra; rw [if_pos hr]
      have hneg : l < -(g.fillers : Int) := by rw [hlow, hex]; push_cast; omega
      cases h with
      | raftBase => rfl
      | outerWall hp => have := hp.2.2.2.1; omega
      | innerWall hp => have := hp.2.2.2.1; omega
      | infill hp => have := hp.2.2.2.1; omega
      | skin hp => have := hp.2.2.2.1; omega
      | roofing hp => have := hp.2.2.2.1; omega
      | flooring hp => have := hp.2.2.2.1; omega
      | lines _ _ _ hp => omega
      | firstSupport hp => have := hp.1; omega
      | support hp => have := hp.1; omega
      | supportRoof hp => have := hp.1; omega
      | supportBottom hp => have := hp.1; omega
      | skirtBrim hp => rw [hr] at hp; rcases hp with hp | hp <;> cases hp
      | raftInterface => omega
      | raftSurface => omega
    simp [Group.usedEver, heq, hfit.exist.raft.1, hr]
  · exact (needs_used g hfit.exist hfit.asked hfit.plain hfit.support hfit.filler l hl e h hb).2

end Verif.Extruders
