import Verif.Polylines.ChainLemmas

/-! # Lemmas on the loop over the lines -/

namespace Verif.Polylines

open Grid (Pt dist2)

variable {J : Type} {c : Cfg J} {lines : List (Line J)}

theorem seed_inv {others : Nat → Prop} {done : List Nat} {i : Nat} {l : Line J} (hi : lines[i]? = some l) (hne : l.pts ≠ [])
    (hid : i ∉ done) (hnd : done.Nodup) (hlt : ∀ k ∈ done, k < lines.length) :
    Inv c lines others l.odd false done ⟨l.pts, length c l.pts, l.odd, i :: done⟩ [(i, false)] := by
  refine ⟨?_, hne, rfl, by simp, by simp, List.nodup_cons.mpr ⟨hid, hnd⟩, ?_⟩
  · exact Joined.seed hi rfl
  · intro k hk
    rcases List.mem_cons.mp hk with rfl | hk
    · exact (List.getElem?_eq_some_iff.mp hi).1
    · exact hlt k hk

theorem turn_inv {others : Nat → Prop} {done₀ : List Nat} {odd : Bool} {s : Chain J} {ps : List (Nat × Bool)}
    (hs : Inv c lines others odd false done₀ s ps) :
    Inv c lines others odd true done₀ { s with pts := s.pts.reverse, length := length c s.pts.reverse } ps := by
  refine ⟨?_, by simpa using hs.ne, rfl, hs.close, hs.done, hs.nodup, hs.lt⟩
  have := hs.joined
  simpa [turn] using this

theorem Touches.mono {w w' : List J} {x : J} (h : Touches c w x) (hw : ∀ y ∈ w, y ∈ w') : Touches c w' x := by
  obtain ⟨q, hq, hd⟩ := h
  exact ⟨q, hw q hq, hd⟩

theorem fromLine_inv {look : Pt → List End} (hm : 0 < c.maxDist) (hl : Grid.Lookup (Grid.pointGrid c.maxDist (place c lines) (ends lines)) look)
    (hne : ∀ l ∈ lines, l.pts ≠ []) {others : Nat → Prop} {done : List Nat} {i : Nat} {l : Line J} (hi : lines[i]? = some l)
    (hid : i ∉ done) (hnd : done.Nodup) (hlt : ∀ k ∈ done, k < lines.length) {r : Result J × List Nat}
    (h : fromLine c lines look done i l = some r) (hoth : ∀ k, others k → k ∉ r.2) :
    (∃ ps, IsChain c lines others r.1 ps ∧ r.2.Perm (ps.map Prod.fst ++ done)) ∧ r.2.Nodup ∧ (∀ k ∈ r.2, k < lines.length) ∧
      ∀ k ∈ i :: done, k ∈ r.2 := by
  unfold fromLine at h
  rw [Option.bind_eq_some_iff] at h
  obtain ⟨a, ha, h⟩ := h
  have hseed := seed_inv (c := c) (others := others) hi (hne l (List.mem_of_getElem? hi)) hid hnd hlt
  have hsub := extend_done _ ha
  split at h
  · rename_i hcl
    simp only [Option.some.injEq] at h
    subst h
    obtain ⟨ps, i1, i2, -, -⟩ := extend_inv hm hl hne _ hseed ha hoth
    refine ⟨⟨ps, ⟨a.1.pts, i1.joined, Or.inl ⟨rfl, rfl, i2.1 hcl⟩⟩, i1.done⟩, i1.nodup, i1.lt, hsub⟩
  · rename_i hcl
    rw [Option.map_eq_some_iff] at h
    obtain ⟨b, hb, h⟩ := h
    have hsub' := extend_done _ hb
    have hr2 : r.2 = b.1.done := by rw [← h]; split <;> rfl
    have hothb : ∀ k, others k → k ∉ b.1.done := by rw [← hr2]; exact hoth
    have hotha : ∀ k, others k → k ∉ a.1.done := fun k hk hd => hothb k hk (hsub' k hd)
    obtain ⟨ps, i1, i2, -, -⟩ := extend_inv hm hl hne _ hseed ha hotha
    obtain ⟨qs, j1, j2, j3, j4⟩ := extend_inv hm hl hne _ (turn_inv i1) hb hothb
    rw [hr2]
    refine ⟨⟨qs, ?_, j1.done⟩, j1.nodup, j1.lt, fun k hk => hsub' k (hsub k hk)⟩
    have hj := j1.joined
    simp only [turn, if_true] at hj
    cases hbc : b.2 with
    | true =>
      rw [if_pos hbc] at h
      rw [← h]
      refine ⟨b.1.pts.reverse, hj, Or.inl ⟨rfl, rfl, ?_⟩⟩
      have := j2.1 hbc
      simpa [turn] using this
    | false =>
      rw [if_neg (by simp [hbc])] at h
      rw [← h]
      refine ⟨b.1.pts.reverse, hj, Or.inr ⟨rfl, ?_, ?_⟩⟩
      · dsimp only
        by_cases hc : c.free = true ∨ l.odd = true
        · rw [if_pos hc, if_pos (canReverse_iff.mpr hc), List.reverse_reverse]
        · rw [if_neg hc, if_neg (by rw [canReverse_iff]; exact hc)]
      · intro k x hk
        constructor
        · intro e he hf
          have hlast : a.1.pts.getLast? = some e := by
            rw [← List.head?_reverse]
            rw [List.getLast?_reverse] at he
            rw [← he]
            exact j3
          rcases i2.2 (by simpa using hcl) k x e hk hlast hf with h1 | h1
          · exact Or.inl h1
          · right
            refine h1.mono ?_
            intro y hy
            rw [mem_turn] at hy
            rw [List.mem_reverse]
            exact j4 y (by simpa using hy)
        · intro e he hf
          rw [List.head?_reverse] at he
          have := j2.2 hbc k x e hk he hf
          simpa [turn] using this

theorem fromLine_some {look : Pt → List End} (hm : 0 < c.maxDist) (hl : Grid.Lookup (Grid.pointGrid c.maxDist (place c lines) (ends lines)) look)
    (hne : ∀ l ∈ lines, l.pts ≠ []) {done : List Nat} {i : Nat} {l : Line J} (hi : lines[i]? = some l)
    (hid : i ∉ done) (hnd : done.Nodup) (hlt : ∀ k ∈ done, k < lines.length) : ∃ r, fromLine c lines look done i l = some r := by
  have hseed := seed_inv (c := c) (others := fun _ => False) hi (hne l (List.mem_of_getElem? hi)) hid hnd hlt
  have h1 := extend_some hm hl hne (lines.length + 1) hseed (by omega)
  obtain ⟨a, ha⟩ := Option.isSome_iff_exists.mp h1
  obtain ⟨ps, i1, -, -, -⟩ := extend_inv hm hl hne _ hseed ha (by simp)
  have h2 := extend_some hm hl hne (lines.length + 1) (turn_inv i1) (by omega)
  obtain ⟨b, hb⟩ := Option.isSome_iff_exists.mp h2
  unfold fromLine
  rw [ha, Option.bind_some]
  split
  · exact ⟨_, rfl⟩
  · rw [hb, Option.map_some]
    exact ⟨_, rfl⟩

theorem perm_range {l : List Nat} {n : Nat} (h : l.Nodup) (hlt : ∀ k ∈ l, k < n) (hall : ∀ k < n, k ∈ l) : l.Perm (List.range n) := by
  rw [List.perm_ext_iff_of_nodup h List.nodup_range]
  intro k
  rw [List.mem_range]
  exact ⟨hlt k, hall k⟩

theorem loop_inv {look : Pt → List End} (hm : 0 < c.maxDist) (hl : Grid.Lookup (Grid.pointGrid c.maxDist (place c lines) (ends lines)) look)
    (hne : ∀ l ∈ lines, l.pts ≠ []) (ls : List (Line J)) {done : List Nat} {i : Nat} (hls : ls = lines.drop i) (hin : i ≤ lines.length)
    (hnd : done.Nodup) (hlt : ∀ k ∈ done, k < lines.length) (hall : ∀ k < i, k ∈ done) :
    ∃ rs pss, loop c lines look done i ls = some rs ∧ Chains c lines rs pss ∧ (pss.flatten.map Prod.fst ++ done).Perm (List.range lines.length) := by
  induction ls generalizing done i with
  | nil =>
    refine ⟨[], [], rfl, Chains.nil, ?_⟩
    have : lines.length ≤ i := by
      have := congrArg List.length hls
      rw [List.length_drop, List.length_nil] at this
      omega
    exact perm_range (by simpa using hnd) (by simpa using hlt) (fun k hk => by simpa using hall k (by omega))
  | cons l ls ih =>
    have hi : lines[i]? = some l := by
      have := congrArg (fun x => x[0]?) hls
      simpa using this.symm
    have hi' : i < lines.length := (List.getElem?_eq_some_iff.mp hi).1
    have hls' : ls = lines.drop (i + 1) := by
      have := congrArg List.tail hls
      rw [List.tail_drop] at this
      exact this
    unfold loop
    by_cases hid : i ∈ done
    · rw [if_pos hid]
      apply ih hls' (by omega) hnd hlt
      intro k hk
      rcases Nat.lt_succ_iff_lt_or_eq.mp hk with h | rfl
      · exact hall k h
      · exact hid
    · rw [if_neg hid]
      obtain ⟨r, hr⟩ := fromLine_some hm hl hne hi hid hnd hlt
      obtain ⟨-, n1, n2, n3⟩ := fromLine_inv (others := fun _ => False) hm hl hne hi hid hnd hlt hr (by simp)
      obtain ⟨rs, pss, h1, h2, h3⟩ := ih (done := r.2) hls' (by omega) n1 n2 (by
        intro k hk
        rcases Nat.lt_succ_iff_lt_or_eq.mp hk with h | rfl
        · exact n3 k (by simp [hall k h])
        · exact n3 k (by simp))
      have hnodup : (pss.flatten.map Prod.fst ++ r.2).Nodup := h3.nodup_iff.mpr List.nodup_range
      obtain ⟨⟨ps, p1, p2⟩, -⟩ := fromLine_inv (others := fun k => ∃ qs ∈ pss, k ∈ qs.map Prod.fst) hm hl hne hi hid hnd hlt hr (by
        rintro k ⟨qs, hqs, hk⟩ hk2
        have hdis := (List.nodup_append.mp hnodup).2.2
        refine hdis k ?_ k hk2 rfl
        rw [List.mem_map] at hk ⊢
        obtain ⟨q, hq, hq2⟩ := hk
        exact ⟨q, List.mem_flatten.mpr ⟨qs, hqs, hq⟩, hq2⟩)
      refine ⟨r.1 :: rs, ps :: pss, ?_, Chains.cons p1 h2, ?_⟩
      · rw [hr, Option.bind_some, h1, Option.map_some]
      · refine List.Perm.trans ?_ h3
        rw [List.flatten_cons, List.map_append, List.append_assoc]
        have : (pss.flatten.map Prod.fst ++ r.2).Perm (pss.flatten.map Prod.fst ++ (ps.map Prod.fst ++ done)) := p2.append_left _
        refine List.Perm.trans ?_ this.symm
        rw [← List.append_assoc, ← List.append_assoc]
        exact List.perm_append_comm.append_right _

end Verif.Polylines
