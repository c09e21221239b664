import Verif.Mst.Model
import Mathlib.Logic.Relation
import Mathlib.Algebra.BigOperators.Group.List.Basic
import Mathlib.Algebra.Order.BigOperators.Group.List
import Mathlib.Data.List.Perm.Basic
import Mathlib.Data.List.Nodup
import Mathlib.Data.List.Dedup
import Mathlib.Data.List.Induction
import Mathlib.Tactic.Ring
import Mathlib.Tactic.Linarith

/-! # Lemmas about Prim's algorithm -/

namespace Verif.Mst

/-! ## The specification -/

/-- Two points are the ends of one of the edges. -/
def Adj (E : List (Pt × Pt)) (a b : Pt) : Prop := (a, b) ∈ E ∨ (b, a) ∈ E

/-- There is a way between two points along the edges. -/
def Joined (E : List (Pt × Pt)) : Pt → Pt → Prop := Relation.ReflTransGen (Adj E)

/-- The edges are between the given vertices, and there is a way along them between any two of the vertices. -/
def Connects (E : List (Pt × Pt)) (V : List Pt) : Prop :=
  (∀ e ∈ E, e.1 ∈ V ∧ e.2 ∈ V) ∧ ∀ a ∈ V, ∀ b ∈ V, Joined E a b

/-! ## Ways -/

theorem Adj.symm {E : List (Pt × Pt)} {a b : Pt} (h : Adj E a b) : Adj E b a := Or.symm h

theorem Joined.symm {E : List (Pt × Pt)} {a b : Pt} (h : Joined E a b) : Joined E b a := by
  induction h with
  | refl => exact .refl
  | tail _ h ih => exact .head h.symm ih

theorem Joined.mono {E F : List (Pt × Pt)} (hs : ∀ e ∈ E, e ∈ F) {a b : Pt} (h : Joined E a b) : Joined F a b := by
  refine Relation.ReflTransGen.mono ?_ _ _ h
  intro x y hxy
  exact hxy.imp (hs _) (hs _)

theorem Joined.of_mem {E : List (Pt × Pt)} {a b : Pt} (h : (a, b) ∈ E) : Joined E a b := .single (Or.inl h)

/-- If a way leads out of a set, it has a last edge that crosses the border; the rest of the way stays outside. -/
theorem crossing {E : List (Pt × Pt)} {S : Pt → Prop} {a c : Pt} (h : Joined E a c) (ha : S a) (hc : ¬ S c) :
    ∃ x y, S x ∧ ¬ S y ∧ Adj E x y ∧ Relation.ReflTransGen (fun u v => Adj E u v ∧ ¬ S u ∧ ¬ S v) y c := by
  induction h with
  | refl => exact absurd ha hc
  | @tail b c _ hbc ih =>
    by_cases hb : S b
    · exact ⟨b, c, hb, hc, hbc, .refl⟩
    · obtain ⟨x, y, hx, hy, hxy, hw⟩ := ih hb
      exact ⟨x, y, hx, hy, hxy, hw.tail ⟨hbc, hb, hc⟩⟩

/-- The exchange: an edge that crosses the border of a connected part can be replaced by any other. -/
theorem exchange {T R : List (Pt × Pt)} {V : List Pt} {S : Pt → Prop} {c t : Pt}
    (hT : ∀ e ∈ T, S e.1 ∧ S e.2) (hS : ∀ a b, S a → S b → Joined T a b) (hc : ¬ S c) (ht : S t)
    (hcV : c ∈ V) (htV : t ∈ V) (h : Connects (T ++ R) V) :
    ∃ R1 e R2, R = R1 ++ e :: R2 ∧ (S e.1 ∧ ¬ S e.2 ∨ S e.2 ∧ ¬ S e.1) ∧
      Connects (T ++ [(c, t)] ++ (R1 ++ R2)) V := by
  obtain ⟨x, y, hx, hy, hxy, hw⟩ := crossing (h.2 t htV c hcV) ht hc
  have hmem : ∃ e ∈ R, (e = (x, y) ∨ e = (y, x)) := by
    rcases hxy with hxy | hxy <;> rcases List.mem_append.1 hxy with hm | hm
    · exact absurd (hT _ hm).2 hy
    · exact ⟨_, hm, Or.inl rfl⟩
    · exact absurd (hT _ hm).1 hy
    · exact ⟨_, hm, Or.inr rfl⟩
  obtain ⟨e, he, hexy⟩ := hmem
  obtain ⟨R1, R2, rfl⟩ := List.append_of_mem he
  refine ⟨R1, e, R2, rfl, ?_, ?_, ?_⟩
  · rcases hexy with rfl | rfl
    · exact Or.inl ⟨hx, hy⟩
    · exact Or.inr ⟨hx, hy⟩
  · intro f hf
    simp only [List.mem_append, List.mem_singleton] at hf
    rcases hf with (hf | rfl) | hf | hf
    · exact h.1 f (by simp [hf])
    · exact ⟨hcV, htV⟩
    · exact h.1 f (by simp [hf])
    · exact h.1 f (by simp [hf])
  · -- the two ends of the removed edge are still joined
    have hyx : Joined (T ++ [(c, t)] ++ (R1 ++ R2)) y x := by
      have h1 : Joined (T ++ [(c, t)] ++ (R1 ++ R2)) y c := by
        refine Relation.ReflTransGen.mono ?_ _ _ hw
        rintro u v ⟨huv, hu, hv⟩
        have key : ∀ p q : Pt, (¬ S p) → (¬ S q) → (p, q) ∈ T ++ (R1 ++ e :: R2) →
            (p, q) ∈ T ++ [(c, t)] ++ (R1 ++ R2) := by
          intro p q hp hq hpq
          simp only [List.mem_append, List.mem_cons] at hpq ⊢
          rcases hpq with hpq | hpq | hpq | hpq
          · exact Or.inl (Or.inl hpq)
          · exact Or.inr (Or.inl hpq)
          · exfalso
            rcases hexy with rfl | rfl
            · cases hpq; exact hp hx
            · cases hpq; exact hq hx
          · exact Or.inr (Or.inr hpq)
        exact huv.imp (key u v hu hv) (key v u hv hu)
      refine h1.trans ?_
      refine (Joined.of_mem (by simp) : Joined _ c t).trans ?_
      exact (hS t x ht hx).mono fun f hf => by simp [hf]
    intro a ha b hb
    have := h.2 a ha b hb
    refine Relation.ReflTransGen.trans_induction_on this (fun _ => .refl) ?_ (fun _ _ h1 h2 => h1.trans h2)
    intro p q hpq
    have key : ∀ p q : Pt, (p, q) ∈ T ++ (R1 ++ e :: R2) → Joined (T ++ [(c, t)] ++ (R1 ++ R2)) p q := by
      intro p q hpq
      simp only [List.mem_append, List.mem_cons] at hpq
      rcases hpq with hpq | hpq | hpq | hpq
      · exact .of_mem (by simp [hpq])
      · exact .of_mem (by simp [hpq])
      · rcases hexy with rfl | rfl
        · cases hpq; exact hyx.symm
        · cases hpq; exact hyx
      · exact .of_mem (by simp [hpq])
    rcases hpq with hpq | hpq
    · exact key p q hpq
    · exact (key q p hpq).symm

/-! ## The adjacency map -/

/-- Every edge starts at the key of its entry, and the keys are different. -/
def WF (g : Graph) : Prop := (∀ e ∈ g, ∀ x ∈ e.2, x.start = e.1) ∧ (g.map Prod.fst).Nodup

/-- The edges that an entry with a given key holds. -/
def edgesAt (g : Graph) (v : Pt) : List Edge :=
  match g.find? (fun e => e.1 == v) with
  | none => []
  | some e => e.2

theorem keys_link (a b : Pt) : ∀ g : Graph, (link g a b).map Prod.fst =
    if a ∈ g.map Prod.fst then g.map Prod.fst else g.map Prod.fst ++ [a]
  | [] => by simp [link]
  | (p, es) :: rest => by
    unfold link
    by_cases h : p = a
    · simp [h]
    · rw [if_neg h, List.map_cons, keys_link a b rest]
      have : a ≠ p := fun e => h e.symm
      by_cases h2 : a ∈ rest.map Prod.fst
      · rw [if_pos h2, if_pos (by simp only [List.map_cons, List.mem_cons]; exact Or.inr h2)]
        simp
      · rw [if_neg h2, if_neg (by simp only [List.map_cons, List.mem_cons, not_or]; exact ⟨this, h2⟩)]
        simp

theorem edgesAt_cons (p : Pt) (es : List Edge) (rest : Graph) (v : Pt) :
    edgesAt ((p, es) :: rest) v = if p = v then es else edgesAt rest v := by
  unfold edgesAt
  rw [List.find?_cons]
  by_cases h : p = v
  · simp [h]
  · have : ((p, es).1 == v) = false := by simpa using h
    rw [this, if_neg h]

theorem edgesAt_link (a b v : Pt) : ∀ g : Graph,
    edgesAt (link g a b) v = edgesAt g v ++ if v = a then [⟨a, b⟩] else []
  | [] => by
    unfold link
    rw [edgesAt_cons]
    by_cases h : v = a
    · simp [h, edgesAt]
    · rw [if_neg (fun e => h e.symm), if_neg h]; simp [edgesAt]
  | (p, es) :: rest => by
    unfold link
    by_cases h : p = a
    · subst h
      rw [if_pos rfl, edgesAt_cons, edgesAt_cons]
      by_cases hv : v = p
      · subst hv; simp
      · rw [if_neg (fun e => hv e.symm), if_neg (fun e => hv e.symm), if_neg hv]; simp
    · rw [if_neg h, edgesAt_cons, edgesAt_cons, edgesAt_link a b v rest]
      by_cases hv : p = v
      · subst hv; rw [if_pos rfl, if_pos rfl, if_neg h]; simp
      · rw [if_neg hv, if_neg hv]

theorem adjacent_eq (g : Graph) (v : Pt) :
    adjacentNodes g v = (edgesAt g v).map fun x => if x.start = v then x.stop else x.start := by
  unfold adjacentNodes edgesAt
  cases g.find? (fun e => e.1 == v) <;> rfl

theorem adjacent_link (g : Graph) (a b v : Pt) :
    adjacentNodes (link g a b) v = adjacentNodes g v ++ if v = a then [b] else [] := by
  rw [adjacent_eq, adjacent_eq, edgesAt_link, List.map_append]
  congr 1
  by_cases h : v = a
  · simp [h]
  · simp [h]

theorem edgesAt_of_mem {g : Graph} (hn : (g.map Prod.fst).Nodup) {e : Pt × List Edge} (he : e ∈ g) :
    edgesAt g e.1 = e.2 := by
  induction g with
  | nil => simp at he
  | cons p rest ih =>
    obtain ⟨q, es⟩ := p
    rw [edgesAt_cons]
    rw [List.map_cons, List.nodup_cons] at hn
    rcases List.mem_cons.1 he with rfl | he
    · simp
    · have : q ≠ e.1 := by
        intro h
        apply hn.1
        dsimp only
        rw [h]
        exact List.mem_map_of_mem he
      rw [if_neg this, ih hn.2 he]

/-- The map after linking the ends of an edge both ways. -/
def linkBoth (g : Graph) (e : Pt × Pt) : Graph := link (link g e.1 e.2) e.2 e.1

/-- The map that holds the given edges. -/
def graphOf (T : List (Pt × Pt)) : Graph := T.foldl linkBoth []

/-- The other ends of the edges at a vertex. -/
def ends (v : Pt) (T : List (Pt × Pt)) : List Pt :=
  T.flatMap fun e => (if v = e.1 then [e.2] else []) ++ (if v = e.2 then [e.1] else [])

theorem graphOf_snoc (T : List (Pt × Pt)) (e : Pt × Pt) : graphOf (T ++ [e]) = linkBoth (graphOf T) e := by
  unfold graphOf; rw [List.foldl_append]; rfl

theorem adjacent_graphOf (v : Pt) (T : List (Pt × Pt)) : adjacentNodes (graphOf T) v = ends v T := by
  induction T using List.reverseRecOn with
  | nil => rfl
  | append_singleton T e ih =>
    rw [graphOf_snoc]
    unfold linkBoth
    rw [adjacent_link, adjacent_link, ih]
    unfold ends
    rw [List.flatMap_append, List.append_assoc]
    simp

theorem nodup_link {g : Graph} (a b : Pt) (h : (g.map Prod.fst).Nodup) : ((link g a b).map Prod.fst).Nodup := by
  rw [keys_link]
  by_cases ha : a ∈ g.map Prod.fst
  · rw [if_pos ha]; exact h
  · rw [if_neg ha]
    exact List.nodup_append.2 ⟨h, by simp, by
      intro x hx y hy
      rw [List.mem_singleton.1 hy]
      rintro rfl
      exact ha hx⟩

theorem mem_keys_link {g : Graph} (a b v : Pt) :
    v ∈ (link g a b).map Prod.fst ↔ v ∈ g.map Prod.fst ∨ v = a := by
  rw [keys_link]
  by_cases ha : a ∈ g.map Prod.fst
  · rw [if_pos ha]
    constructor
    · exact Or.inl
    · rintro (h | rfl)
      · exact h
      · exact ha
  · rw [if_neg ha, List.mem_append, List.mem_singleton]

theorem keys_graphOf_nodup (T : List (Pt × Pt)) : ((graphOf T).map Prod.fst).Nodup := by
  induction T using List.reverseRecOn with
  | nil => simp [graphOf]
  | append_singleton T e ih => rw [graphOf_snoc]; exact nodup_link _ _ (nodup_link _ _ ih)

theorem mem_keys_graphOf (v : Pt) (T : List (Pt × Pt)) :
    v ∈ (graphOf T).map Prod.fst ↔ ∃ e ∈ T, v = e.1 ∨ v = e.2 := by
  induction T using List.reverseRecOn with
  | nil => simp [graphOf]
  | append_singleton T e ih =>
    rw [graphOf_snoc]
    unfold linkBoth
    rw [mem_keys_link, mem_keys_link, ih]
    constructor
    · rintro ((⟨f, hf, h⟩ | h) | h)
      · exact ⟨f, by simp [hf], h⟩
      · exact ⟨e, by simp, Or.inl h⟩
      · exact ⟨e, by simp, Or.inr h⟩
    · rintro ⟨f, hf, h⟩
      rcases List.mem_append.1 hf with hf | hf
      · exact Or.inl (Or.inl ⟨f, hf, h⟩)
      · rw [List.mem_singleton.1 hf] at h
        rcases h with h | h
        · exact Or.inl (Or.inr h)
        · exact Or.inr h

theorem mem_ends {u v : Pt} {T : List (Pt × Pt)} : u ∈ ends v T ↔ Adj T v u := by
  unfold ends Adj
  rw [List.mem_flatMap]
  constructor
  · rintro ⟨⟨x, y⟩, he, h⟩
    rcases List.mem_append.1 h with h | h
    · by_cases hv : v = x
      · simp only [hv, if_true, List.mem_singleton] at h; subst h; subst hv; exact Or.inl he
      · simp [hv] at h
    · by_cases hv : v = y
      · simp only [hv, if_true, List.mem_singleton] at h; subst h; subst hv; exact Or.inr he
      · simp [hv] at h
  · rintro (h | h)
    · exact ⟨_, h, by simp⟩
    · exact ⟨_, h, by simp⟩

/-! ## Sums over the vertices -/

section Sums
variable {M : Type} [AddCommMonoid M]

theorem sum_ite {V : List Pt} (hn : V.Nodup) {a : Pt} (ha : a ∈ V) (x : M) :
    (V.map fun v => if v = a then x else 0).sum = x := by
  induction V with
  | nil => simp at ha
  | cons v V ih =>
    rw [List.nodup_cons] at hn
    rw [List.map_cons, List.sum_cons]
    rcases List.mem_cons.1 ha with rfl | ha
    · rw [if_pos rfl]
      have : (V.map fun v => if v = a then x else 0) = V.map fun _ => (0 : M) := by
        apply List.map_congr_left
        intro v hv
        rw [if_neg]
        rintro rfl
        exact hn.1 hv
      rw [this]
      simp
    · rw [if_neg (by rintro rfl; exact hn.1 ha), zero_add, ih hn.2 ha]

/-- Summing over the vertices and their neighbours counts every edge twice. -/
theorem sum_ends {V : List Pt} (hn : V.Nodup) (f : Pt → Pt → M) (hf : ∀ a b, f a b = f b a) :
    ∀ T : List (Pt × Pt), (∀ e ∈ T, e.1 ∈ V ∧ e.2 ∈ V) →
    (V.map fun v => ((ends v T).map (f v)).sum).sum = 2 • (T.map fun e => f e.1 e.2).sum
  | [], _ => by simp [ends]
  | e :: T, h => by
    have ih := sum_ends hn f hf T fun x hx => h x (by simp [hx])
    have : (V.map fun v => ((ends v (e :: T)).map (f v)).sum) = V.map fun v =>
        ((if v = e.1 then f e.1 e.2 else 0) + (if v = e.2 then f e.1 e.2 else 0)) + ((ends v T).map (f v)).sum := by
      apply List.map_congr_left
      intro v _
      unfold ends
      rw [List.flatMap_cons, List.map_append, List.sum_append, List.map_append, List.sum_append]
      congr 2
      · by_cases h : v = e.1
        · simp [h]
        · simp [h]
      · by_cases h : v = e.2
        · rw [if_pos h, if_pos h, h, hf e.1 e.2]; simp
        · simp [h]
    rw [this, List.sum_map_add, List.sum_map_add, ih, sum_ite hn (h e (by simp)).1, sum_ite hn (h e (by simp)).2,
      List.map_cons, List.sum_cons, nsmul_add, two_nsmul, two_nsmul]

end Sums

/-! ## Candidates -/

theorem minElement_none {l : List Cand} : minElement l = none ↔ l = [] := by
  cases l with
  | nil => simp [minElement]
  | cons c rest =>
    unfold minElement
    cases minElement rest with
    | none => simp
    | some m => dsimp only; split_ifs <;> simp

theorem minElement_some : ∀ {l : List Cand} {c : Cand}, minElement l = some c → c ∈ l ∧ ∀ x ∈ l, c.d ≤ x.d
  | [], c, h => by simp [minElement] at h
  | a :: rest, c, h => by
    unfold minElement at h
    cases hm : minElement rest with
    | none =>
      rw [hm] at h
      cases h
      rw [minElement_none.1 hm]
      simp
    | some m =>
      rw [hm] at h
      dsimp only at h
      obtain ⟨h1, h2⟩ := minElement_some hm
      by_cases hlt : m.d < a.d
      · rw [if_pos hlt] at h
        cases h
        refine ⟨by simp [h1], ?_⟩
        intro x hx
        rcases List.mem_cons.1 hx with rfl | hx
        · exact hlt.le
        · exact h2 x hx
      · rw [if_neg hlt] at h
        cases h
        refine ⟨by simp, ?_⟩
        intro x hx
        rcases List.mem_cons.1 hx with rfl | hx
        · exact le_rfl
        · exact le_trans (not_lt.1 hlt) (h2 x hx)

theorem candidates_pts (root : Pt) : ∀ (l : List Pt) (i : Nat), (candidates root i l).map Cand.pt = l
  | [], _ => rfl
  | v :: rest, i => by simp [candidates, candidates_pts root rest (i + 1)]

theorem candidates_idx (root : Pt) : ∀ (l : List Pt) (i : Nat),
    (candidates root i l).map Cand.idx = List.range' i l.length
  | [], _ => rfl
  | v :: rest, i => by simp [candidates, candidates_idx root rest (i + 1), List.range'_succ]

theorem candidates_mem (root : Pt) : ∀ (l : List Pt) (i : Nat), ∀ c ∈ candidates root i l,
    c.to = root ∧ c.d = dist2 c.pt root
  | [], _, c, h => by simp [candidates] at h
  | v :: rest, i, c, h => by
    unfold candidates at h
    rcases List.mem_cons.1 h with rfl | h
    · exact ⟨rfl, rfl⟩
    · exact candidates_mem root rest (i + 1) c h

theorem dist2_comm (a b : Pt) : dist2 a b = dist2 b a := by unfold dist2; ring

theorem relax_pt (p : Pt) (c : Cand) : (relax p c).pt = c.pt := by unfold relax; split_ifs <;> rfl

theorem relax_idx (p : Pt) (c : Cand) : (relax p c).idx = c.idx := by unfold relax; split_ifs <;> rfl

/-- Removing a candidate by its index removes exactly that candidate. -/
theorem filter_perm {cs : List Cand} (hn : (cs.map Cand.idx).Nodup) {c : Cand} (hc : c ∈ cs) :
    cs.Perm (c :: cs.filter fun x => x.idx != c.idx) := by
  obtain ⟨l1, l2, rfl⟩ := List.append_of_mem hc
  rw [List.map_append, List.map_cons] at hn
  have hd := List.nodup_middle.1 hn
  rw [List.nodup_cons] at hd
  have hne : ∀ x ∈ l1 ++ l2, x.idx ≠ c.idx := by
    intro x hx h
    apply hd.1
    rw [← h, ← List.map_append]
    exact List.mem_map_of_mem hx
  have h1 : l1.filter (fun x => x.idx != c.idx) = l1 :=
    List.filter_eq_self.2 fun x hx => by simpa using hne x (by simp [hx])
  have h2 : l2.filter (fun x => x.idx != c.idx) = l2 :=
    List.filter_eq_self.2 fun x hx => by simpa using hne x (by simp [hx])
  rw [List.filter_append, List.filter_cons, h1, h2]
  simp only [bne_self_eq_false, Bool.false_eq_true, if_false]
  exact List.perm_middle

end Verif.Mst
