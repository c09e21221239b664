import Verif.Mst.Lemmas
import Mathlib.Algebra.Order.Ring.Unbundled.Rat
import Mathlib.Analysis.Real.Sqrt

/-! # C30: minimum spanning trees -/

namespace Verif.Mst

/-- The squared length of an edge. -/
def len2 (e : Pt × Pt) : Int := dist2 e.1 e.2

/-- What holds in every turn: `T` are the edges of the tree so far, `S` its vertices. -/
structure Inv (V : List Pt) (T : List (Pt × Pt)) (S : List Pt) (cs : List Cand) : Prop where
  perm : (S ++ cs.map Cand.pt).Perm V
  idx : (cs.map Cand.idx).Nodup
  cand : ∀ c ∈ cs, c.to ∈ S ∧ c.d = dist2 c.pt c.to ∧ ∀ s ∈ S, c.d ≤ dist2 s c.pt
  inside : ∀ e ∈ T, e.1 ∈ S ∧ e.2 ∈ S
  conn : ∀ a ∈ S, ∀ b ∈ S, Joined T a b
  count : T.length + 1 = S.length
  simple : ∀ v, (ends v T).Nodup ∧ v ∉ ends v T
  keys : T ≠ [] → ∀ v ∈ S, ∃ e ∈ T, v = e.1 ∨ v = e.2
  best : ∀ E, Connects E V → ∃ D R, E.Perm (D ++ R) ∧ Connects (T ++ R) V ∧
    List.Forall₂ (fun t e => len2 t ≤ len2 e) T D

variable {V S : List Pt} {T : List (Pt × Pt)} {cs : List Cand}

theorem Inv.step (hn : V.Nodup) (h : Inv V T S cs) {c : Cand} (hc : c ∈ cs) (hmin : ∀ x ∈ cs, c.d ≤ x.d) :
    Inv V (T ++ [(c.pt, c.to)]) (S ++ [c.pt]) ((cs.filter fun x => x.idx != c.idx).map (relax c.pt)) := by
  have hp := filter_perm h.idx hc
  obtain ⟨c1, c2, c3⟩ := h.cand c hc
  have hVn : (S ++ cs.map Cand.pt).Nodup := h.perm.nodup_iff.2 hn
  have hcS : c.pt ∉ S := by
    intro hS
    exact (List.nodup_append.1 hVn).2.2 _ hS _ (List.mem_map_of_mem hc) rfl
  have hpts : ((cs.filter fun x => x.idx != c.idx).map (relax c.pt)).map Cand.pt =
      (cs.filter fun x => x.idx != c.idx).map Cand.pt := by
    rw [List.map_map]; exact List.map_congr_left fun x _ => relax_pt _ _
  have hidx : ((cs.filter fun x => x.idx != c.idx).map (relax c.pt)).map Cand.idx =
      (cs.filter fun x => x.idx != c.idx).map Cand.idx := by
    rw [List.map_map]; exact List.map_congr_left fun x _ => relax_idx _ _
  have hmemV : ∀ v, v ∈ V ↔ v ∈ S ∨ ∃ x ∈ cs, x.pt = v := by
    intro v
    rw [← h.perm.mem_iff, List.mem_append, List.mem_map]
  refine ⟨?_, ?_, ?_, ?_, ?_, ?_, ?_, ?_, ?_⟩
  · rw [hpts, List.append_assoc, List.singleton_append]
    refine List.Perm.trans ?_ h.perm
    refine List.Perm.append_left S ?_
    have := hp.map Cand.pt
    rw [List.map_cons] at this
    exact this.symm
  · rw [hidx]
    have := (hp.map Cand.idx).nodup_iff.1 h.idx
    rw [List.map_cons] at this
    exact (List.nodup_cons.1 this).2
  · intro x hx
    obtain ⟨y, hy, rfl⟩ := List.mem_map.1 hx
    obtain ⟨y1, y2, y3⟩ := h.cand y (List.mem_of_mem_filter hy)
    unfold relax
    by_cases hd : dist2 c.pt y.pt < y.d
    · rw [if_pos hd]
      refine ⟨by simp, dist2_comm _ _, ?_⟩
      intro s hs
      rcases List.mem_append.1 hs with hs | hs
      · exact le_trans hd.le (y3 s hs)
      · rw [List.mem_singleton.1 hs]
    · rw [if_neg hd]
      refine ⟨by simp [y1], y2, ?_⟩
      intro s hs
      rcases List.mem_append.1 hs with hs | hs
      · exact y3 s hs
      · rw [List.mem_singleton.1 hs]; exact not_lt.1 hd
  · intro e he
    rcases List.mem_append.1 he with he | he
    · exact ⟨by simp [(h.inside e he).1], by simp [(h.inside e he).2]⟩
    · rw [List.mem_singleton.1 he]; exact ⟨by simp, by simp [c1]⟩
  · have hj : ∀ a ∈ S, ∀ b ∈ S, Joined (T ++ [(c.pt, c.to)]) a b := fun a ha b hb =>
      (h.conn a ha b hb).mono fun e he => by simp [he]
    have hct : Joined (T ++ [(c.pt, c.to)]) c.pt c.to := .of_mem (by simp)
    intro a ha b hb
    rcases List.mem_append.1 ha with ha | ha <;> rcases List.mem_append.1 hb with hb | hb
    · exact hj a ha b hb
    · rw [List.mem_singleton.1 hb]; exact (hj a ha _ c1).trans hct.symm
    · rw [List.mem_singleton.1 ha]; exact hct.trans (hj _ c1 b hb)
    · rw [List.mem_singleton.1 ha, List.mem_singleton.1 hb]; exact .refl
  · have := h.count; simp; omega
  · have hne : c.pt ≠ c.to := fun e => hcS (e ▸ c1)
    have hout : ∀ v, Adj T v c.pt → False := by
      intro v hv
      rcases hv with hv | hv
      · exact hcS (h.inside _ hv).2
      · exact hcS (h.inside _ hv).1
    intro v
    have hends : ends v (T ++ [(c.pt, c.to)]) =
        ends v T ++ ((if v = c.pt then [c.to] else []) ++ (if v = c.to then [c.pt] else [])) := by
      unfold ends; rw [List.flatMap_append]; simp
    rw [hends]
    by_cases hv1 : v = c.pt
    · subst hv1
      have h0 : ends c.pt T = [] := by
        rw [List.eq_nil_iff_forall_not_mem]
        intro u hu
        exact hout u (mem_ends.1 hu).symm
      rw [h0, if_pos rfl, if_neg hne]
      simp [hne]
    · rw [if_neg hv1]
      by_cases hv2 : v = c.to
      · rw [if_pos hv2]
        refine ⟨List.nodup_append.2 ⟨(h.simple v).1, by simp, ?_⟩, ?_⟩
        · intro x hx y hy
          simp only [List.nil_append, List.mem_singleton] at hy
          rintro rfl
          rw [hy] at hx
          exact hout v (mem_ends.1 hx)
        · simp only [List.nil_append, List.mem_append, List.mem_singleton, not_or]
          exact ⟨(h.simple v).2, hv1⟩
      · rw [if_neg hv2]; simpa using h.simple v
  · intro _ v hv
    rcases List.mem_append.1 hv with hv | hv
    · by_cases hT : T = []
      · have : S.length = 1 := by have := h.count; rw [hT] at this; simpa using this.symm
        obtain ⟨s, rfl⟩ := List.length_eq_one_iff.1 this
        rw [List.mem_singleton] at hv c1
        exact ⟨(c.pt, c.to), by simp, Or.inr (by rw [hv, c1])⟩
      · obtain ⟨e, he, h2⟩ := h.keys hT v hv
        exact ⟨e, by simp [he], h2⟩
    · exact ⟨(c.pt, c.to), by simp, Or.inl (List.mem_singleton.1 hv)⟩
  · intro E hE
    obtain ⟨D, R, hperm, hcon, hdom⟩ := h.best E hE
    obtain ⟨R1, e, R2, rfl, hcross, hcon'⟩ := exchange (S := (· ∈ S)) h.inside (fun a b ha hb => h.conn a ha b hb)
      hcS c1 ((hmemV _).2 (Or.inr ⟨c, hc, rfl⟩)) ((hmemV _).2 (Or.inl c1)) hcon
    have hle : len2 (c.pt, c.to) ≤ len2 e := by
      have heV := hcon.1 e (by simp)
      have key : ∀ x y : Pt, x ∈ S → y ∉ S → y ∈ V → c.d ≤ dist2 x y := by
        intro x y hx hy hyV
        obtain ⟨z, hz, rfl⟩ := ((hmemV y).1 hyV).resolve_left hy
        exact le_trans (hmin z hz) ((h.cand z hz).2.2 x hx)
      unfold len2
      dsimp only
      rw [← c2]
      rcases hcross with ⟨h1, h2⟩ | ⟨h1, h2⟩
      · exact key _ _ h1 h2 heV.2
      · rw [dist2_comm]; exact key _ _ h1 h2 heV.1
    refine ⟨D ++ [e], R1 ++ R2, ?_, hcon', ?_⟩
    · refine hperm.trans ?_
      rw [List.append_assoc, List.singleton_append]
      exact List.Perm.append_left D List.perm_middle
    · exact List.rel_append hdom (List.Forall₂.cons hle List.Forall₂.nil)

theorem keys_perm (hn : V.Nodup) (h : Inv V T S cs) (hT : T ≠ []) : ((graphOf T).map Prod.fst).Perm S := by
  have hVn : (S ++ cs.map Cand.pt).Nodup := h.perm.nodup_iff.2 hn
  rw [List.perm_ext_iff_of_nodup (keys_graphOf_nodup T) (List.nodup_append.1 hVn).1]
  intro v
  rw [mem_keys_graphOf]
  constructor
  · rintro ⟨e, he, rfl | rfl⟩
    · exact (h.inside e he).1
    · exact (h.inside e he).2
  · exact h.keys hT v

theorem grow_spec {shuffle : List Cand → List Cand} (hs : ∀ l, (shuffle l).Perm l) (hn : V.Nodup)
    (h2 : 2 ≤ V.length) : ∀ (fuel : Nat) (T : List (Pt × Pt)) (S : List Pt) (cs : List Cand), Inv V T S cs →
    cs.length = fuel → ∃ T' S', grow shuffle V.length fuel (graphOf T) cs = .ok (graphOf T') ∧ T' ≠ [] ∧
      Inv V T' S' []
  | fuel, T, S, cs, h, hf => by
    have hlen : S.length + cs.length = V.length := by simpa using h.perm.length_eq
    have hg : (graphOf T).length < V.length ↔ cs ≠ [] := by
      by_cases hT : T = []
      · subst hT
        have := h.count
        constructor
        · intro _ hcs; rw [hcs] at hlen; simp at hlen this; omega
        · intro _; simp [graphOf]; omega
      · have := (keys_perm hn h hT).length_eq
        rw [List.length_map] at this
        rw [this]
        constructor
        · intro hlt hcs; rw [hcs] at hlen; simp at hlen; omega
        · intro hcs; have := List.length_pos_of_ne_nil hcs; omega
    unfold grow
    by_cases hcs : cs = []
    · rw [if_neg (fun h => hg.1 h hcs)]
      subst hcs
      refine ⟨T, S, rfl, ?_, h⟩
      intro hT
      have := h.count
      rw [hT] at this
      simp at hlen this
      omega
    · rw [if_pos (hg.2 hcs)]
      cases hm : minElement (shuffle cs) with
      | none =>
        exfalso
        have := (hs cs).symm
        rw [minElement_none.1 hm] at this
        exact hcs this.eq_nil
      | some c =>
        dsimp only
        obtain ⟨m1, m2⟩ := minElement_some hm
        have hc := (hs cs).mem_iff.1 m1
        have hmin : ∀ x ∈ cs, c.d ≤ x.d := fun x hx => m2 x ((hs cs).mem_iff.2 hx)
        have hl := (filter_perm h.idx hc).length_eq
        rw [List.length_cons] at hl
        cases fuel with
        | zero => exact absurd (List.length_eq_zero_iff.1 hf) hcs
        | succ fuel =>
          dsimp only
          have := grow_spec hs hn h2 fuel (T ++ [(c.pt, c.to)]) (S ++ [c.pt]) _ (h.step hn hc hmin)
            (by rw [List.length_map]; omega)
          rw [graphOf_snoc] at this
          exact this

/-- The edges in both directions as the tree gives them. -/
theorem prim_spec {shuffle : List Cand → List Cand} (hs : ∀ l, (shuffle l).Perm l) (hn : V.Nodup)
    (h2 : 2 ≤ V.length) : ∃ T S, prim shuffle V = .ok (graphOf T) ∧ T ≠ [] ∧ Inv V T S [] := by
  match V, h2 with
  | root :: v :: rest, h2 =>
    unfold prim
    refine grow_spec hs hn h2 _ [] [root] (candidates root 1 (v :: rest)) ?_ ?_
    · refine ⟨?_, ?_, ?_, ?_, ?_, ?_, ?_, ?_, ?_⟩
      · rw [candidates_pts]; exact List.Perm.refl _
      · rw [candidates_idx]; exact List.nodup_range'
      · intro c hc
        obtain ⟨h1, h2⟩ := candidates_mem root _ _ c hc
        refine ⟨by simp [h1], by rw [h2, h1], ?_⟩
        intro s hs
        rw [List.mem_singleton.1 hs, h2, dist2_comm]
      · simp
      · intro a ha b hb
        rw [List.mem_singleton.1 ha, List.mem_singleton.1 hb]
        exact .refl
      · rfl
      · intro v; simp [ends]
      · intro h; exact absurd rfl h
      · intro E hE
        exact ⟨[], E, by simp, hE, .nil⟩
    · rw [← List.length_map (f := Cand.pt), candidates_pts]

/-- A permutation of a list of at most one vertex. -/
theorem short {V : List Pt} (h : ¬ 2 ≤ V.length) : V = [] ∨ ∃ v, V = [v] := by
  match V with
  | [] => exact Or.inl rfl
  | [v] => exact Or.inr ⟨v, rfl⟩
  | _ :: _ :: _ => simp at h

/-! ## The theorems -/

/-- **C30.** For different vertices the tree is computed, whatever the order in which the hash maps are walked. -/
theorem C30_total {shuffle : List Cand → List Cand} (hs : ∀ l, (shuffle l).Perm l) {V : List Pt} (hn : V.Nodup) :
    ∃ g, prim shuffle V = .ok g := by
  by_cases h : 2 ≤ V.length
  · obtain ⟨T, S, h, _⟩ := prim_spec hs hn h
    exact ⟨_, h⟩
  · rcases short h with rfl | ⟨v, rfl⟩
    · exact ⟨_, rfl⟩
    · exact ⟨_, rfl⟩

/-- **C30.** The result is a tree on the given vertices: its vertices are the given ones, each once; being adjacent is
symmetric, no node is adjacent to itself, and no neighbour is listed twice; there is a way between any two
vertices; and there is one edge less than vertices (each edge is seen from both its ends). -/
theorem C30_tree {shuffle : List Cand → List Cand} (hs : ∀ l, (shuffle l).Perm l) {V : List Pt} (hn : V.Nodup)
    {g : Graph} (h : prim shuffle V = .ok g) :
    (vertices g).Perm V ∧
    (∀ a b, b ∈ adjacentNodes g a ↔ a ∈ adjacentNodes g b) ∧
    (∀ a, a ∉ adjacentNodes g a ∧ (adjacentNodes g a).Nodup ∧ ∀ b ∈ adjacentNodes g a, a ∈ V ∧ b ∈ V) ∧
    (∀ a ∈ V, ∀ b ∈ V, Relation.ReflTransGen (fun x y => y ∈ adjacentNodes g x) a b) ∧
    (V.map fun v => (adjacentNodes g v).length).sum = 2 * (V.length - 1) := by
  by_cases h2 : 2 ≤ V.length
  · obtain ⟨T, S, hg, hT, hi⟩ := prim_spec hs hn h2
    rw [hg] at h
    cases h
    have hSV : S.Perm V := by simpa using hi.perm
    refine ⟨(keys_perm hn hi hT).trans hSV, ?_, ?_, ?_, ?_⟩
    · intro a b
      rw [adjacent_graphOf, adjacent_graphOf, mem_ends, mem_ends]
      exact ⟨Adj.symm, Adj.symm⟩
    · intro a
      rw [adjacent_graphOf]
      refine ⟨(hi.simple a).2, (hi.simple a).1, ?_⟩
      intro b hb
      rcases mem_ends.1 hb with hb | hb
      · exact ⟨hSV.mem_iff.1 (hi.inside _ hb).1, hSV.mem_iff.1 (hi.inside _ hb).2⟩
      · exact ⟨hSV.mem_iff.1 (hi.inside _ hb).2, hSV.mem_iff.1 (hi.inside _ hb).1⟩
    · intro a ha b hb
      have := hi.conn a (hSV.mem_iff.2 ha) b (hSV.mem_iff.2 hb)
      refine Relation.ReflTransGen.mono ?_ _ _ this
      intro x y hxy
      show y ∈ adjacentNodes (graphOf T) x
      rw [adjacent_graphOf]
      exact mem_ends.2 hxy
    · have := sum_ends hn (fun _ _ => (1 : Nat)) (fun _ _ => rfl) T fun e he =>
        ⟨hSV.mem_iff.1 (hi.inside e he).1, hSV.mem_iff.1 (hi.inside e he).2⟩
      have e1 : (V.map fun v => (adjacentNodes (graphOf T) v).length) =
          V.map fun v => ((ends v T).map fun _ => 1).sum := by
        apply List.map_congr_left
        intro v _
        rw [adjacent_graphOf]
        simp
      rw [e1, this]
      have := hi.count
      have := hSV.length_eq
      simp
      omega
  · rcases short h2 with rfl | ⟨v, rfl⟩
    · cases h
      simp [vertices, adjacentNodes]
    · cases h
      have hadj : ∀ a, adjacentNodes [(v, [])] a = [] := by
        intro a
        unfold adjacentNodes
        by_cases h : v = a
        · simp [h]
        · simp [h]
      refine ⟨List.Perm.refl _, ?_, ?_, ?_, ?_⟩
      · intro a b; rw [hadj, hadj]; simp
      · intro a; rw [hadj]; simp
      · intro a ha b hb
        rw [List.mem_singleton.1 ha, List.mem_singleton.1 hb]
      · simp [hadj]

/-- **C30.** The tree is minimal: for every cost that grows with the length of an edge and is not negative, no set of edges
that connects the vertices is cheaper (the sum over the tree counts each edge twice, from both its ends). -/
theorem C30_minimal {shuffle : List Cand → List Cand} (hs : ∀ l, (shuffle l).Perm l) {V : List Pt} (hn : V.Nodup)
    {g : Graph} (h : prim shuffle V = .ok g) {M : Type} [AddCommMonoid M] [PartialOrder M] [IsOrderedAddMonoid M]
    (cost : Int → M) (hm : ∀ x y, x ≤ y → cost x ≤ cost y) (h0 : ∀ x, 0 ≤ x → 0 ≤ cost x)
    (E : List (Pt × Pt)) (hE : Connects E V) :
    (V.map fun v => ((adjacentNodes g v).map fun u => cost (dist2 v u)).sum).sum ≤
      2 • (E.map fun e => cost (dist2 e.1 e.2)).sum := by
  have hpos : ∀ E : List (Pt × Pt), 0 ≤ (E.map fun e => cost (dist2 e.1 e.2)).sum := by
    intro E
    apply List.sum_nonneg
    intro x hx
    obtain ⟨e, _, rfl⟩ := List.mem_map.1 hx
    apply h0
    unfold dist2
    nlinarith [mul_self_nonneg (e.1.1 - e.2.1), mul_self_nonneg (e.1.2 - e.2.2)]
  by_cases h2 : 2 ≤ V.length
  · obtain ⟨T, S, hg, hT, hi⟩ := prim_spec hs hn h2
    rw [hg] at h
    cases h
    have hSV : S.Perm V := by simpa using hi.perm
    have hsum := sum_ends hn (fun a b => cost (dist2 a b)) (fun a b => by rw [dist2_comm]) T fun e he =>
        ⟨hSV.mem_iff.1 (hi.inside e he).1, hSV.mem_iff.1 (hi.inside e he).2⟩
    have e1 : (V.map fun v => ((adjacentNodes (graphOf T) v).map fun u => cost (dist2 v u)).sum) =
        V.map fun v => ((ends v T).map fun u => cost (dist2 v u)).sum := by
      apply List.map_congr_left
      intro v _
      rw [adjacent_graphOf]
    rw [e1, hsum]
    obtain ⟨D, R, hperm, _, hdom⟩ := hi.best E hE
    refine nsmul_le_nsmul_right ?_ 2
    have h1 : (T.map fun e => cost (dist2 e.1 e.2)).sum ≤ (D.map fun e => cost (dist2 e.1 e.2)).sum := by
      apply List.Forall₂.sum_le_sum
      rw [List.forall₂_map_left_iff, List.forall₂_map_right_iff]
      exact hdom.imp fun a b hab => hm _ _ hab
    refine le_trans h1 ?_
    rw [(hperm.map _).sum_eq, List.map_append, List.sum_append]
    exact le_add_of_nonneg_right (hpos R)
  · have : (V.map fun v => ((adjacentNodes g v).map fun u => cost (dist2 v u)).sum).sum = 0 := by
      rcases short h2 with rfl | ⟨v, rfl⟩
      · simp
      · cases h
        simp [adjacentNodes]
    rw [this]
    exact nsmul_nonneg (hpos E) 2

/-- **C30.** In particular the total Euclidean length of the tree is minimal. -/
theorem C30_length {shuffle : List Cand → List Cand} (hs : ∀ l, (shuffle l).Perm l) {V : List Pt} (hn : V.Nodup)
    {g : Graph} (h : prim shuffle V = .ok g) (E : List (Pt × Pt)) (hE : Connects E V) :
    (V.map fun v => ((adjacentNodes g v).map fun u => Real.sqrt (dist2 v u)).sum).sum ≤
      2 * (E.map fun e => Real.sqrt (dist2 e.1 e.2)).sum := by
  have := C30_minimal hs hn h (fun x : Int => Real.sqrt x)
    (fun x y hxy => Real.sqrt_le_sqrt (by exact_mod_cast hxy)) (fun x _ => Real.sqrt_nonneg _) E hE
  rw [nsmul_eq_mul] at this
  exact_mod_cast this

/-- **C30.** There are no cycles: without one of the edges there is no way between its ends. -/
theorem C30_no_cycle {shuffle : List Cand → List Cand} (hs : ∀ l, (shuffle l).Perm l) {V : List Pt} (hn : V.Nodup)
    {g : Graph} (h : prim shuffle V = .ok g) {a b : Pt} (hab : b ∈ adjacentNodes g a) :
    ¬ Relation.ReflTransGen
      (fun x y => y ∈ adjacentNodes g x ∧ ¬ (x = a ∧ y = b) ∧ ¬ (x = b ∧ y = a)) a b := by
  intro hway
  by_cases h2 : 2 ≤ V.length
  · obtain ⟨T, S, hg, hT, hi⟩ := prim_spec hs hn h2
    rw [hg] at h
    cases h
    have hSV : S.Perm V := by simpa using hi.perm
    rw [adjacent_graphOf, mem_ends] at hab
    obtain ⟨e, he, hexy⟩ : ∃ e ∈ T, e = (a, b) ∨ e = (b, a) := by
      rcases hab with h | h
      · exact ⟨_, h, Or.inl rfl⟩
      · exact ⟨_, h, Or.inr rfl⟩
    obtain ⟨T1, T2, rfl⟩ := List.append_of_mem he
    have hway' : Joined (T1 ++ T2) a b := by
      refine Relation.ReflTransGen.mono ?_ _ _ hway
      rintro x y ⟨hxy, n1, n2⟩
      rw [adjacent_graphOf, mem_ends] at hxy
      have key : ∀ p q : Pt, (p, q) ≠ e → (p, q) ∈ T1 ++ e :: T2 → (p, q) ∈ T1 ++ T2 := by
        intro p q hne hm
        simp only [List.mem_append, List.mem_cons] at hm ⊢
        rcases hm with h | h | h
        · exact Or.inl h
        · exact absurd h hne
        · exact Or.inr h
      have hne1 : (x, y) ≠ e := by
        rintro rfl
        rcases hexy with h | h
        · cases h; exact n1 ⟨rfl, rfl⟩
        · cases h; exact n2 ⟨rfl, rfl⟩
      have hne2 : (y, x) ≠ e := by
        rintro rfl
        rcases hexy with h | h
        · cases h; exact n2 ⟨rfl, rfl⟩
        · cases h; exact n1 ⟨rfl, rfl⟩
      exact hxy.imp (key x y hne1) (key y x hne2)
    have hcon : Connects (T1 ++ T2) V := by
      constructor
      · intro f hf
        have : f ∈ T1 ++ e :: T2 := by
          simp only [List.mem_append, List.mem_cons] at hf ⊢
          exact hf.imp id Or.inr
        exact ⟨hSV.mem_iff.1 (hi.inside f this).1, hSV.mem_iff.1 (hi.inside f this).2⟩
      · intro x hx y hy
        have := hi.conn x (hSV.mem_iff.2 hx) y (hSV.mem_iff.2 hy)
        refine Relation.ReflTransGen.trans_induction_on this (fun _ => .refl) ?_ (fun _ _ h1 h2 => h1.trans h2)
        have key : ∀ p q : Pt, (p, q) ∈ T1 ++ e :: T2 → Joined (T1 ++ T2) p q := by
          intro p q hm
          simp only [List.mem_append, List.mem_cons] at hm
          rcases hm with h | h | h
          · exact .of_mem (by simp [h])
          · rcases hexy with rfl | rfl
            · cases h; exact hway'
            · cases h; exact hway'.symm
          · exact .of_mem (by simp [h])
        intro p q hpq
        rcases hpq with hpq | hpq
        · exact key p q hpq
        · exact (key q p hpq).symm
    obtain ⟨D, R, hperm, _, hdom⟩ := hi.best _ hcon
    have l1 := hdom.length_eq
    have l2 := hperm.length_eq
    simp at l1 l2
    omega
  · have : adjacentNodes g a = [] := by
      rcases short h2 with rfl | ⟨v, rfl⟩
      · cases h; rfl
      · cases h
        unfold adjacentNodes
        by_cases h : v = a
        · simp [h]
        · simp [h]
    rw [this] at hab
    simp at hab

/-- **C30.** The leaves are the vertices with at most one neighbour, each once. -/
theorem C30_leaves {shuffle : List Cand → List Cand} (hs : ∀ l, (shuffle l).Perm l) {V : List Pt} (hn : V.Nodup)
    {g : Graph} (h : prim shuffle V = .ok g) :
    (leaves g).Nodup ∧ ∀ v, v ∈ leaves g ↔ v ∈ V ∧ (adjacentNodes g v).length ≤ 1 := by
  have hV := (C30_tree hs hn h).1
  have hk : (g.map Prod.fst).Nodup := hV.nodup_iff.2 hn
  have hlen : ∀ e ∈ g, (adjacentNodes g e.1).length = e.2.length := by
    intro e he
    rw [adjacent_eq, List.length_map, edgesAt_of_mem hk he]
  refine ⟨?_, ?_⟩
  · unfold leaves
    exact hk.sublist (List.filter_sublist.map _)
  · intro v
    unfold leaves
    rw [← hV.mem_iff]
    constructor
    · intro hv
      obtain ⟨e, he, rfl⟩ := List.mem_map.1 hv
      obtain ⟨he, hl⟩ := List.mem_filter.1 he
      exact ⟨List.mem_map_of_mem he, by rw [hlen e he]; simpa using hl⟩
    · rintro ⟨hv, hl⟩
      obtain ⟨e, he, rfl⟩ := List.mem_map.1 hv
      rw [hlen e he] at hl
      exact List.mem_map.2 ⟨e, List.mem_filter.2 ⟨he, by simpa using hl⟩, rfl⟩

theorem grow_ub {shuffle : List Cand → List Cand} (hs : ∀ l, (shuffle l).Perm l) {n : Nat} {K : List Pt}
    (hK : K.length < n) : ∀ (fuel : Nat) (g : Graph) (cs : List Cand), cs.length = fuel →
    (cs.map Cand.idx).Nodup → (g.map Prod.fst).Nodup → (∀ v ∈ g.map Prod.fst, v ∈ K) →
    (∀ c ∈ cs, c.pt ∈ K ∧ c.to ∈ K) → grow shuffle n fuel g cs = .ub
  | fuel, g, cs, hf, hi, hg, hgK, hc => by
    have hlen : g.length ≤ K.length := by
      rw [← List.length_map (f := Prod.fst)]
      exact (List.Nodup.subperm hg hgK).length_le
    unfold grow
    rw [if_pos (by omega)]
    cases hm : minElement (shuffle cs) with
    | none => rfl
    | some c =>
      dsimp only
      have hcm := (hs cs).mem_iff.1 (minElement_some hm).1
      have hp := filter_perm hi hcm
      have hl := hp.length_eq
      rw [List.length_cons] at hl
      cases fuel with
      | zero => rw [List.length_eq_zero_iff.1 hf] at hcm; simp at hcm
      | succ fuel =>
        dsimp only
        refine grow_ub hs hK fuel _ _ (by rw [List.length_map]; omega) ?_ ?_ ?_ ?_
        · have : ((cs.filter fun x => x.idx != c.idx).map (relax c.pt)).map Cand.idx =
              (cs.filter fun x => x.idx != c.idx).map Cand.idx := by
            rw [List.map_map]; exact List.map_congr_left fun x _ => relax_idx _ _
          rw [this]
          have := (hp.map Cand.idx).nodup_iff.1 hi
          rw [List.map_cons] at this
          exact (List.nodup_cons.1 this).2
        · exact nodup_link _ _ (nodup_link _ _ hg)
        · intro v hv
          rw [mem_keys_link, mem_keys_link] at hv
          rcases hv with (hv | rfl) | rfl
          · exact hgK v hv
          · exact (hc c hcm).1
          · exact (hc c hcm).2
        · intro x hx
          obtain ⟨y, hy, rfl⟩ := List.mem_map.1 hx
          have := hc y (List.mem_of_mem_filter hy)
          rw [relax_pt]
          refine ⟨this.1, ?_⟩
          unfold relax
          split_ifs
          · exact (hc c hcm).1
          · exact this.2

/-- **C30** needs different vertices: if one is given twice, the loop looks for one more vertex than there are and
reads behind the end of an empty map. -/
theorem C30_duplicate {shuffle : List Cand → List Cand} (hs : ∀ l, (shuffle l).Perm l) {V : List Pt}
    (hn : ¬ V.Nodup) : prim shuffle V = .ub := by
  match V, hn with
  | [], hn => simp at hn
  | [_], hn => simp at hn
  | root :: v :: rest, hn =>
    unfold prim
    have hlt : (root :: v :: rest).dedup.length < (v :: rest).length + 1 := by
      have h1 := (List.dedup_sublist (root :: v :: rest))
      have h2 := h1.length_le
      rcases lt_or_eq_of_le h2 with h3 | h3
      · simpa using h3
      · exfalso
        apply hn
        rw [← h1.eq_of_length h3]
        exact List.nodup_dedup _
    refine grow_ub hs hlt _ _ _ ?_ ?_ ?_ ?_ ?_
    · rw [← List.length_map (f := Cand.pt), candidates_pts]
    · rw [candidates_idx]; exact List.nodup_range'
    · simp
    · simp
    · intro c hc
      have h1 : c.pt ∈ v :: rest := by
        rw [← candidates_pts root (v :: rest) 1]; exact List.mem_map_of_mem hc
      have h2 := (candidates_mem root _ _ c hc).1
      rw [h2, List.mem_dedup, List.mem_dedup]
      exact ⟨List.mem_cons_of_mem _ h1, by simp⟩

/-- Four points: the tree has three edges, two leaves and no long edge. -/
example : prim id [(0, 0), (10, 0), (3, 0), (3, 4)] =
    .ok [((3, 0), [⟨(3, 0), (0, 0)⟩, ⟨(3, 0), (3, 4)⟩, ⟨(3, 0), (10, 0)⟩]), ((0, 0), [⟨(0, 0), (3, 0)⟩]),
      ((3, 4), [⟨(3, 4), (3, 0)⟩]), ((10, 0), [⟨(10, 0), (3, 0)⟩])] := by
  have : prim id [(0, 0), (10, 0), (3, 0), (3, 4)] = _ := rfl
  rw [this]
  rfl

/-- Another set of edges that connects the four points. -/
example : Connects [((0, 0), (10, 0)), ((10, 0), (3, 0)), ((3, 4), (3, 0))] [(0, 0), (10, 0), (3, 0), (3, 4)] := by
  have h1 : Joined [((0, 0), (10, 0)), ((10, 0), (3, 0)), ((3, 4), (3, 0))] (0, 0) (10, 0) := .of_mem (by simp)
  have h2 : Joined [((0, 0), (10, 0)), ((10, 0), (3, 0)), ((3, 4), (3, 0))] (10, 0) (3, 0) := .of_mem (by simp)
  have h3 : Joined [((0, 0), (10, 0)), ((10, 0), (3, 0)), ((3, 4), (3, 0))] (3, 4) (3, 0) := .of_mem (by simp)
  have all : ∀ a ∈ [((0, 0) : Pt), (10, 0), (3, 0), (3, 4)],
      Joined [((0, 0), (10, 0)), ((10, 0), (3, 0)), ((3, 4), (3, 0))] a (3, 0) := by
    intro a ha
    simp only [List.mem_cons, List.not_mem_nil, or_false] at ha
    rcases ha with rfl | rfl | rfl | rfl
    · exact h1.trans h2
    · exact h2
    · exact .refl
    · exact h3
  refine ⟨by decide, ?_⟩
  intro a ha b hb
  exact (all a ha).trans (all b hb).symm

end Verif.Mst
