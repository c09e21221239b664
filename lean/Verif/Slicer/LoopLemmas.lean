import Verif.Slicer.LoopSpec
import Mathlib.Tactic.Linarith
import Mathlib.Data.List.Nodup
import Mathlib.Data.List.Perm.Basic
import Mathlib.Data.List.Perm.Subperm
import Mathlib.Data.List.Chain

/-! # Lemmas on loops -/

namespace Verif.Slicer

theorem shorterThen_iff (p q : P2) (len : Int) (hl : 0 ≤ len) : shorterThen p q len = true ↔ dist2 p q ≤ len * len := by
  unfold shorterThen dist2
  dsimp only
  generalize p.x - q.x = a
  generalize p.y - q.y = b
  constructor
  · intro h
    split at h
    · simp at h
    · split at h
      · simp at h
      · simpa using h
  · intro h
    have ha : 0 ≤ a * a := mul_self_nonneg a
    have hb : 0 ≤ b * b := mul_self_nonneg b
    have key : ∀ c : Int, c * c ≤ len * len → ¬ (c > len ∨ c < -len) := by
      rintro c hc (h1 | h1) <;> nlinarith
    rw [if_neg (key a (by linarith)), if_neg (key b (by linarith))]
    simpa using h

variable {L : Layer}

/-- The table only refers to segments that exist. -/
def TableOk (L : Layer) : Prop := ∀ f i, L.table f = some i → i < L.segs.length

theorem tryFace_spec (hT : TableOk L) (added : Nat → Bool) (s : Segment) (f start : Nat) :
    ∃ r, tryFace L added s f start = .ok r ∧ ∀ j, r = some j →
      L.table f = some j ∧ (∃ t, L.segs[j]? = some t ∧ dist2 s.stop t.start ≤ 10 * 10) ∧ (j = start ∨ added j = false) := by
  unfold tryFace
  split
  · exact ⟨none, rfl, by simp⟩
  · rename_i i hi
    have hlt := hT f i hi
    have hsome : L.segs[i]? = some L.segs[i] := List.getElem?_eq_getElem hlt
    rw [hsome]
    dsimp only
    split
    · rename_i hgap
      have hd := (shorterThen_iff s.stop (L.segs[i]).start gap1 (by decide)).mp hgap
      split
      · rename_i he
        refine ⟨some start, rfl, fun j hj => ?_⟩
        simp only [Option.some.injEq] at hj
        subst hj; subst he
        exact ⟨hi, ⟨_, hsome, hd⟩, Or.inl rfl⟩
      · split
        · exact ⟨none, rfl, by simp⟩
        · rename_i ha
          refine ⟨some i, rfl, fun j hj => ?_⟩
          simp only [Option.some.injEq] at hj
          subst hj
          exact ⟨hi, ⟨_, hsome, hd⟩, Or.inr (by simpa using ha)⟩
    · exact ⟨none, rfl, by simp⟩

theorem tryFaces_spec (hT : TableOk L) (added : Nat → Bool) (s : Segment) (start : Nat) (P : Nat → Prop) (fs : List Nat) :
    (∀ f ∈ fs, ∀ j, tryFace L added s f start = .ok (some j) → P j) →
    ∀ next : Option Nat, (∀ j, next = some j → P j) →
      ∃ r, tryFaces L added s start fs next = .ok r ∧ ∀ j, r = some j → P j := by
  induction fs with
  | nil => intro _ next hn; exact ⟨next, rfl, hn⟩
  | cons f fs ih =>
    intro hf next hn
    obtain ⟨r, hr, hspec⟩ := tryFace_spec hT added s f start
    have hf' : ∀ g ∈ fs, ∀ j, tryFace L added s g start = .ok (some j) → P j := fun g hg => hf g (List.mem_cons_of_mem _ hg)
    unfold tryFaces
    rw [hr]
    cases r with
    | none => exact ih hf' next hn
    | some i =>
      dsimp only
      have hi : P i := hf f (by simp) i hr
      split
      · rename_i he
        refine ⟨some start, rfl, fun j hj => ?_⟩
        simp only [Option.some.injEq] at hj
        rw [← hj, ← he]; exact hi
      · refine ih hf' (some i) (fun j hj => ?_)
        simp only [Option.some.injEq] at hj
        rw [← hj]; exact hi

theorem nextSegment_spec (hT : TableOk L) (added : Nat → Bool) (i : Nat) (s : Segment) (hs : L.segs[i]? = some s) (start : Nat) :
    ∃ r, nextSegment L added s start = .ok r ∧ ∀ j, r = some j → Linked L i j ∧ (j = start ∨ added j = false) := by
  unfold nextSegment
  split
  · rename_i hv
    split
    · exact ⟨none, rfl, by simp⟩
    · rename_i f hf
      obtain ⟨r, hr, hspec⟩ := tryFace_spec hT added s f start
      refine ⟨r, hr, fun j hj => ?_⟩
      obtain ⟨h1, ⟨t, ht, hd⟩, h3⟩ := hspec j hj
      exact ⟨⟨s, t, hs, ht, ⟨f, by simp [exits, hv, hf], h1⟩, hd⟩, h3⟩
  · rename_i v hv
    refine tryFaces_spec hT added s start _ (L.conn v) ?_ none (by simp)
    intro f hf j hj
    obtain ⟨r, hr, hspec⟩ := tryFace_spec hT added s f start
    rw [hr] at hj
    simp only [Outcome.ok.injEq] at hj
    obtain ⟨h1, ⟨t, ht, hd⟩, h3⟩ := hspec j hj
    exact ⟨⟨s, t, hs, ht, ⟨f, by simp [exits, hv, hf], h1⟩, hd⟩, h3⟩

/-- The number of segments not used yet. -/
def unused (n : Nat) (added : Nat → Bool) : Nat := ((List.range n).filter fun i => added i = false).length

theorem unused_mark {n : Nat} {added : Nat → Bool} {i : Nat} (hi : i < n) (ha : added i = false) :
    unused n (fun j => if j = i then true else added j) + 1 ≤ unused n added := by
  unfold unused
  have hmem : i ∈ (List.range n).filter fun i => added i = false := by simp [hi, ha]
  have hsub : ((List.range n).filter fun j => (if j = i then true else added j) = false).Sublist
      ((List.range n).filter fun j => added j = false) := by
    refine List.monotone_filter_right _ ?_
    intro j hj
    simp only [decide_eq_true_eq] at hj ⊢
    split at hj
    · simp at hj
    · exact hj
  have hnot : i ∉ (List.range n).filter fun j => (if j = i then true else added j) = false := by simp
  have hnd : ((List.range n).filter fun i => added i = false).Nodup := List.Nodup.filter _ List.nodup_range
  have hsp : (i :: (List.range n).filter fun j => (if j = i then true else added j) = false).Subperm
      ((List.range n).filter fun j => added j = false) := by
    refine List.Nodup.subperm ?_ ?_
    · rw [List.nodup_cons]
      exact ⟨hnot, List.Nodup.filter _ List.nodup_range⟩
    · intro j hj
      rw [List.mem_cons] at hj
      rcases hj with rfl | hj
      · exact hmem
      · exact hsub.subset hj
  have := hsp.length_le
  simpa using this

theorem loopFrom_spec (hT : TableOk L) (start : Nat) (fuel : Nat) : ∀ (i : Nat) (added : Nat → Bool) (pts : List P2),
    i < L.segs.length → added i = false → unused L.segs.length added ≤ fuel →
    ∃ (closed : Bool) (chain : List Nat), loopFrom L start fuel i added pts =
        .ok (closed, pts ++ chain.map (fun k => (L.segs.getD k default).stop), fun j => added j || decide (j ∈ chain)) ∧
      chain.head? = some i ∧ chain.Nodup ∧ (∀ j ∈ chain, j < L.segs.length ∧ added j = false) ∧
      chain.IsChain (Linked L) ∧ (closed = true → ∃ l ∈ chain.getLast?, Linked L l start) := by
  induction fuel with
  | zero =>
    intro i added pts hi ha hu
    have := unused_mark hi ha
    omega
  | succ fuel ih =>
    intro i added pts hi ha hu
    have hs : L.segs[i]? = some L.segs[i] := List.getElem?_eq_getElem hi
    have hgd : (L.segs.getD i default).stop = (L.segs[i]).stop := by simp [List.getD, hs]
    unfold loopFrom
    rw [hs]
    dsimp only
    obtain ⟨r, hr, hspec⟩ := nextSegment_spec hT (fun j => if j = i then true else added j) i _ hs start
    have hadd : (fun j => if j = i then true else added j) = fun j => added j || decide (j ∈ [i]) := by
      funext j
      by_cases h : j = i <;> simp [h]
    rw [hr]
    cases r with
    | none =>
      dsimp only
      refine ⟨false, [i], ?_, rfl, by simp, ?_, by simp, by simp⟩
      · simp only [List.map_cons, List.map_nil, hgd, hadd]
      · intro j hj; simp only [List.mem_singleton] at hj; rw [hj]; exact ⟨hi, ha⟩
    | some j =>
      obtain ⟨hlink, hj⟩ := hspec j rfl
      dsimp only
      by_cases hjs : j = start
      · rw [if_pos hjs]
        refine ⟨true, [i], ?_, rfl, by simp, ?_, by simp, ?_⟩
        · simp only [List.map_cons, List.map_nil, hgd, hadd]
        · intro j hj; simp only [List.mem_singleton] at hj; rw [hj]; exact ⟨hi, ha⟩
        · intro _; exact ⟨i, by simp, hjs ▸ hlink⟩
      · rw [if_neg hjs]
        have hja : (if j = i then true else added j) = false := hj.resolve_left hjs
        have hji : j ≠ i := by intro h; simp [h] at hja
        have hja' : added j = false := by simpa [hji] using hja
        have hjl : j < L.segs.length := by
          obtain ⟨_, t, _, ht, _⟩ := hlink
          exact (List.getElem?_eq_some_iff.mp ht).1
        have hu' := unused_mark hi ha
        obtain ⟨closed, chain, h1, h2, h3, h4, h5, h6⟩ :=
          ih j (fun j => if j = i then true else added j) (pts ++ [(L.segs[i]).stop]) hjl hja (by omega)
        refine ⟨closed, i :: chain, ?_, rfl, ?_, ?_, ?_, ?_⟩
        · rw [h1]
          congr 3
          · rw [List.map_cons, hgd, List.append_assoc]; rfl
          · funext k
            by_cases h : k = i <;> simp [h]
        · rw [List.nodup_cons]
          refine ⟨fun hmem => ?_, h3⟩
          have := (h4 i hmem).2
          simp at this
        · intro k hk
          rw [List.mem_cons] at hk
          rcases hk with rfl | hk
          · exact ⟨hi, ha⟩
          · obtain ⟨hk1, hk2⟩ := h4 k hk
            refine ⟨hk1, ?_⟩
            split at hk2
            · simp at hk2
            · exact hk2
        · cases chain with
          | nil => simp
          | cons k ks =>
            simp only [List.head?_cons, Option.some.injEq] at h2
            rw [List.isChain_cons_cons]
            exact ⟨h2 ▸ hlink, h5⟩
        · intro hc
          obtain ⟨l, hl, hll⟩ := h6 hc
          refine ⟨l, ?_, hll⟩
          cases chain with
          | nil => simp at h2
          | cons k ks => rw [List.getLast?_cons_cons]; exact hl

/-- What is known of the first phase while it runs: `cs` are the chains made so far (closed or not). -/
structure LoopsOk (L : Layer) (r : Loops) (cs : List (Bool × List Nat)) : Prop where
  polygons : r.polygons = (cs.filter (·.1)).map fun c => chainPoints L c.2
  opens : r.opens = (cs.filter (!·.1)).map fun c => chainPoints L c.2
  added : ∀ i, r.added i = true ↔ i ∈ (cs.map (·.2)).flatten
  nodup : (cs.map (·.2)).flatten.Nodup
  range : ∀ i ∈ (cs.map (·.2)).flatten, i < L.segs.length
  chain : ∀ c ∈ cs, c.2 ≠ [] ∧ c.2.IsChain (Linked L)
  closed : ∀ c ∈ cs, c.1 = true → ∃ l ∈ c.2.getLast?, ∃ f ∈ c.2.head?, Linked L l f

theorem makeLoop_spec (hT : TableOk L) (fuel : Nat) (hfuel : L.segs.length ≤ fuel) (r : Loops) (cs : List (Bool × List Nat))
    (h : LoopsOk L r cs) (i : Nat) (hi : i < L.segs.length) (ha : r.added i = false) :
    ∃ r' cs', makeLoop L fuel r i = .ok r' ∧ LoopsOk L r' cs' ∧ (∀ j, r.added j = true → r'.added j = true) ∧
      r'.added i = true := by
  have hs : L.segs[i]? = some L.segs[i] := List.getElem?_eq_getElem hi
  have hgd : (L.segs.getD i default).start = (L.segs[i]).start := by simp [List.getD, hs]
  have hu : unused L.segs.length r.added ≤ fuel := by
    refine le_trans ?_ hfuel
    unfold unused
    exact le_trans (List.length_filter_le _ _) (by simp)
  obtain ⟨closed, chain, h1, h2, h3, h4, h5, h6⟩ := loopFrom_spec hT i fuel i r.added [(L.segs[i]).start] hi ha hu
  have hne : chain ≠ [] := by intro h; rw [h] at h2; simp at h2
  have hpts : [(L.segs[i]).start] ++ chain.map (fun k => (L.segs.getD k default).stop) = chainPoints L chain := by
    unfold chainPoints
    rw [h2]
    simp only [Option.map_some, Option.toList_some, hgd]
  have himem : i ∈ chain := by
    cases chain with
    | nil => simp at h2
    | cons k ks => simp only [List.head?_cons, Option.some.injEq] at h2; simp [h2]
  unfold makeLoop
  rw [hs]
  dsimp only
  rw [h1, hpts]
  have hadd : ∀ (r' : Loops), r'.added = (fun j => r.added j || decide (j ∈ chain)) →
      r'.polygons = ((cs ++ [(closed, chain)]).filter (·.1)).map (fun c => chainPoints L c.2) →
      r'.opens = ((cs ++ [(closed, chain)]).filter (!·.1)).map (fun c => chainPoints L c.2) →
      LoopsOk L r' (cs ++ [(closed, chain)]) ∧ (∀ j, r.added j = true → r'.added j = true) ∧ r'.added i = true := by
    intro r' e1 e2 e3
    have hfl : ((cs ++ [(closed, chain)]).map (·.2)).flatten = (cs.map (·.2)).flatten ++ chain := by simp
    refine ⟨⟨e2, e3, ?_, ?_, ?_, ?_, ?_⟩, ?_, ?_⟩
    · intro j
      rw [hfl, List.mem_append, ← h.added, e1]
      simp
    · rw [hfl, List.nodup_append']
      refine ⟨h.nodup, h3, ?_⟩
      intro j hj hj'
      have := (h4 j hj').2
      rw [(h.added j).mpr hj] at this
      simp at this
    · intro j hj
      rw [hfl, List.mem_append] at hj
      rcases hj with hj | hj
      · exact h.range j hj
      · exact (h4 j hj).1
    · intro c hc
      rw [List.mem_append, List.mem_singleton] at hc
      rcases hc with hc | rfl
      · exact h.chain c hc
      · exact ⟨hne, h5⟩
    · intro c hc hcl
      rw [List.mem_append, List.mem_singleton] at hc
      rcases hc with hc | rfl
      · exact h.closed c hc hcl
      · obtain ⟨l, hl, hll⟩ := h6 hcl
        exact ⟨l, hl, i, by rw [h2]; rfl, hll⟩
    · intro j hj; rw [e1]; simp [hj]
    · rw [e1]; simp [himem]
  cases closed with
  | true =>
    dsimp only
    refine ⟨_, cs ++ [(true, chain)], rfl, hadd _ rfl ?_ ?_⟩
    · simp [h.polygons]
    · simp [h.opens]
  | false =>
    dsimp only
    refine ⟨_, cs ++ [(false, chain)], rfl, hadd _ rfl ?_ ?_⟩
    · simp [h.polygons]
    · simp [h.opens]

theorem makeLoopsFrom_spec (hT : TableOk L) (fuel : Nat) (hfuel : L.segs.length ≤ fuel) (is : List Nat) :
    ∀ (r : Loops) (cs : List (Bool × List Nat)), (∀ i ∈ is, i < L.segs.length) → LoopsOk L r cs →
      ∃ r' cs', makeLoopsFrom L fuel is r = .ok r' ∧ LoopsOk L r' cs' ∧ (∀ j, r.added j = true → r'.added j = true) ∧
        ∀ i ∈ is, r'.added i = true := by
  induction is with
  | nil => intro r cs _ h; exact ⟨r, cs, rfl, h, fun _ h => h, by simp⟩
  | cons i is ih =>
    intro r cs hr h
    have hr' : ∀ j ∈ is, j < L.segs.length := fun j hj => hr j (List.mem_cons_of_mem _ hj)
    unfold makeLoopsFrom
    by_cases ha : r.added i = true
    · rw [if_pos ha]
      obtain ⟨r', cs', h1, h2, h3, h4⟩ := ih r cs hr' h
      refine ⟨r', cs', h1, h2, h3, fun j hj => ?_⟩
      rw [List.mem_cons] at hj
      rcases hj with rfl | hj
      · exact h3 _ ha
      · exact h4 j hj
    · rw [if_neg ha]
      obtain ⟨r1, cs1, g1, g2, g3, g4⟩ := makeLoop_spec hT fuel hfuel r cs h i (hr i (by simp)) (by simpa using ha)
      rw [g1]
      dsimp only
      obtain ⟨r', cs', h1, h2, h3, h4⟩ := ih r1 cs1 hr' g2
      refine ⟨r', cs', h1, h2, fun j hj => h3 j (g3 j hj), fun j hj => ?_⟩
      rw [List.mem_cons] at hj
      rcases hj with rfl | hj
      · exact h3 _ g4
      · exact h4 j hj

end Verif.Slicer
