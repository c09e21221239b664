import Verif.Slicer.StitchLemmas

/-! # Stitching: the queue and the steps -/

namespace Verif.Slicer

theorem getD_of_getElem? {α : Type} {l : List α} {i : Nat} {a d : α} (h : l[i]? = some a) : l.getD i d = a := by
  rw [List.getD_eq_getElem?_getD, h]; rfl

theorem mem_stitchIf {D : Int} {i j : Nat} {e0 e1 : Bool} {p q : P2} {x : Stitch} :
    x ∈ stitchIf D i e0 p j e1 q ↔ dist2 p q < D * D ∧ x = ⟨dist2 p q, term i e0, term j e1⟩ := by
  unfold stitchIf
  show x ∈ (if dist2 p q < D * D then _ else _) ↔ _
  split <;> rename_i h
  · simp only [List.mem_singleton, h, true_and]; rfl
  · simp [h]

/-- The points of the lines. -/
theorem pointT_term {lines : List (List P2)} {i : Nat} {e : Bool} {l : List P2} (h : lines[i]? = some l) :
    pointT lines (term i e) = if e then l.getLast? else l.head? := by
  unfold pointT
  rw [term_isEnd, term_lineOf, getD_of_getElem? h]

theorem pointT_some {lines : List (List P2)} {t : Nat} {p : P2} (h : pointT lines t = some p) :
    ∃ l, lines[lineOf t]? = some l ∧ (if isEnd t then l.getLast? else l.head?) = some p := by
  cases hl : lines[lineOf t]? with
  | some l =>
    refine ⟨l, rfl, ?_⟩
    rw [← pointT_term hl, term_eta]; exact h
  | none =>
    unfold pointT at h
    have : lines.getD (lineOf t) [] = [] := by rw [List.getD_eq_getElem?_getD, hl]; rfl
    rw [this] at h
    simp at h

theorem mem_part {lines : List (List P2)} {f : List P2 → Option P2} {g : Nat → P2 → List Stitch} {x : Stitch} :
    x ∈ (lines.zipIdx.flatMap fun (y : List P2 × Nat) => match f y.1 with
      | some p => g y.2 p
      | none => []) ↔ ∃ i l p, lines[i]? = some l ∧ f l = some p ∧ x ∈ g i p := by
  rw [List.mem_flatMap]
  constructor
  · rintro ⟨⟨l, i⟩, hm, hx⟩
    rw [List.mem_zipIdx_iff_getElem?] at hm
    cases hf : f l with
    | none => rw [hf] at hx; simp at hx
    | some p => rw [hf] at hx; exact ⟨i, l, p, hm, hf, hx⟩
  · rintro ⟨i, l, p, hl, hf, hx⟩
    refine ⟨(l, i), List.mem_zipIdx_iff_getElem?.2 hl, ?_⟩
    rw [hf]; exact hx

/-- Which stitches are found. -/
theorem mem_possible {lines : List (List P2)} {D : Int} {ar : Bool} {x : Stitch} :
    x ∈ possibleStitches lines D ar ↔ ∃ p ∈ pointT lines x.t0, ∃ q ∈ pointT lines x.t1, dist2 p q < D * D ∧ x.dist2 = dist2 p q ∧
      ((isEnd x.t0 = true ∧ isEnd x.t1 = false) ∨ (ar = true ∧ isEnd x.t0 = isEnd x.t1 ∧ lineOf x.t0 ≠ lineOf x.t1)) := by
  unfold possibleStitches
  rw [List.mem_flatMap]
  constructor
  · rintro ⟨⟨l1, j⟩, hm, hx⟩
    rw [List.mem_zipIdx_iff_getElem?] at hm
    dsimp only at hm hx
    unfold stitchesOf at hx
    cases hf : l1.head? with
    | none => rw [hf] at hx; simp at hx
    | some first =>
      cases hg : l1.getLast? with
      | none => rw [hf, hg] at hx; simp at hx
      | some last =>
        rw [hf, hg] at hx
        dsimp only at hx
        rw [List.mem_append] at hx
        rcases hx with hx | hx
        · replace hx := (mem_part (f := List.getLast?) (g := fun i p => stitchIf D i true p j false first)).1 hx
          obtain ⟨i, l, p, hl, hp, hx⟩ := hx
          obtain ⟨hd, rfl⟩ := mem_stitchIf.1 hx
          refine ⟨p, ?_, first, ?_, hd, rfl, Or.inl ⟨term_isEnd _ _, term_isEnd _ _⟩⟩
          · rw [pointT_term hl]; exact hp
          · rw [pointT_term hm]; exact hf
        · cases har : ar with
          | false => rw [har] at hx; simp at hx
          | true =>
            rw [har, if_pos rfl, List.mem_append] at hx
            rcases hx with hx | hx
            · replace hx := (mem_part (f := List.getLast?) (g := fun i p => if i = j then [] else stitchIf D i true p j true last)).1 hx
              obtain ⟨i, l, p, hl, hp, hx⟩ := hx
              by_cases hij : i = j
              · rw [if_pos hij] at hx; simp at hx
              · rw [if_neg hij] at hx
                obtain ⟨hd, rfl⟩ := mem_stitchIf.1 hx
                refine ⟨p, ?_, last, ?_, hd, rfl, Or.inr ⟨rfl, ?_, ?_⟩⟩
                · rw [pointT_term hl]; exact hp
                · rw [pointT_term hm]; exact hg
                · rw [term_isEnd, term_isEnd]
                · rw [term_lineOf, term_lineOf]; exact hij
            · replace hx := (mem_part (f := List.head?) (g := fun i p => if i = j then [] else stitchIf D i false p j false first)).1 hx
              obtain ⟨i, l, p, hl, hp, hx⟩ := hx
              by_cases hij : i = j
              · rw [if_pos hij] at hx; simp at hx
              · rw [if_neg hij] at hx
                obtain ⟨hd, rfl⟩ := mem_stitchIf.1 hx
                refine ⟨p, ?_, first, ?_, hd, rfl, Or.inr ⟨rfl, ?_, ?_⟩⟩
                · rw [pointT_term hl]; exact hp
                · rw [pointT_term hm]; exact hf
                · rw [term_isEnd, term_isEnd]
                · rw [term_lineOf, term_lineOf]; exact hij
  · obtain ⟨d, t0, t1⟩ := x
    dsimp only
    rintro ⟨p, hp, q, hq, hd, rfl, hc⟩
    obtain ⟨l0, hl0, hp'⟩ := pointT_some hp
    obtain ⟨l1, hl1, hq'⟩ := pointT_some hq
    have hne : l1 ≠ [] := by rintro rfl; simp at hq'
    obtain ⟨first, hf⟩ : ∃ y, l1.head? = some y := by
      obtain ⟨y, l, rfl⟩ := List.exists_cons_of_ne_nil hne; exact ⟨y, rfl⟩
    obtain ⟨last, hg⟩ : ∃ y, l1.getLast? = some y := ⟨_, List.getLast?_eq_getLast_of_ne_nil hne⟩
    refine ⟨(l1, lineOf t1), List.mem_zipIdx_iff_getElem?.2 hl1, ?_⟩
    dsimp only
    unfold stitchesOf
    rw [hf, hg]
    dsimp only
    rw [List.mem_append]
    rcases hc with ⟨h0, h1⟩ | ⟨har, he, hne'⟩
    · left
      refine (mem_part (f := List.getLast?) (g := fun i p => stitchIf D i true p (lineOf t1) false first)).2 ?_
      rw [h0, if_pos rfl] at hp'
      rw [h1, if_neg (by simp), hf] at hq'
      injection hq' with hq'
      refine ⟨lineOf t0, l0, p, hl0, hp', mem_stitchIf.2 ?_⟩
      rw [hq']
      refine ⟨hd, ?_⟩
      have e0 := term_eta t0
      have e1 := term_eta t1
      rw [h0] at e0; rw [h1] at e1
      rw [e0, e1]
    · right
      rw [har, if_pos rfl, List.mem_append]
      cases h0 : isEnd t0 with
      | true =>
        have h1 : isEnd t1 = true := by rw [← he]; exact h0
        left
        refine (mem_part (f := List.getLast?) (g := fun i p => if i = lineOf t1 then [] else stitchIf D i true p (lineOf t1) true last)).2 ?_
        rw [h0, if_pos rfl] at hp'
        rw [h1, if_pos rfl, hg] at hq'
        injection hq' with hq'
        refine ⟨lineOf t0, l0, p, hl0, hp', ?_⟩
        rw [if_neg hne']
        refine mem_stitchIf.2 ?_
        rw [hq']
        refine ⟨hd, ?_⟩
        have e0 := term_eta t0
        have e1 := term_eta t1
        rw [h0] at e0; rw [h1] at e1
        rw [e0, e1]
      | false =>
        have h1 : isEnd t1 = false := by rw [← he]; exact h0
        right
        refine (mem_part (f := List.head?) (g := fun i p => if i = lineOf t1 then [] else stitchIf D i false p (lineOf t1) false first)).2 ?_
        rw [h0, if_neg (by simp)] at hp'
        rw [h1, if_neg (by simp), hf] at hq'
        injection hq' with hq'
        refine ⟨lineOf t0, l0, p, hl0, hp', ?_⟩
        rw [if_neg hne']
        refine mem_stitchIf.2 ?_
        rw [hq']
        refine ⟨hd, ?_⟩
        have e0 := term_eta t0
        have e1 := term_eta t1
        rw [h0] at e0; rw [h1] at e1
        rw [e0, e1]

/-- What is needed of a stitch. -/
structure Valid (lines : List (List P2)) (D : Int) (ar : Bool) (x : Stitch) : Prop where
  ne : x.t0 ≠ x.t1
  close : Close lines D x.t0 x.t1
  order : ar = false → isEnd x.t0 = true ∧ isEnd x.t1 = false

theorem valid_possible {lines : List (List P2)} {D : Int} {ar : Bool} {x : Stitch} (h : x ∈ possibleStitches lines D ar) :
    Valid lines D ar x := by
  obtain ⟨p, hp, q, hq, hd, _, hc⟩ := mem_possible.1 h
  refine ⟨?_, ⟨p, hp, q, hq, hd⟩, ?_⟩
  · intro he
    rcases hc with ⟨h0, h1⟩ | ⟨_, _, h2⟩
    · rw [he, h1] at h0; simp at h0
    · rw [he] at h2; exact h2 rfl
  · intro har
    rcases hc with h | ⟨h, _⟩
    · exact h
    · rw [har] at h; simp at h

/-! ## Closing a polygon -/

/-- The termini of a stitch that is made, as the ends of chains. -/
theorem close_chainT {lines : List (List P2)} {D : Int} {c d : List Piece} {t u : Nat} (hc : chainT c true = some t)
    (hd : chainT d false = some u) (h : Close lines D t u) : ∃ x ∈ c.getLast?, ∃ y ∈ d.head?, Joint lines D x y := by
  unfold chainT at hc hd
  simp only [if_true, Option.map_eq_some_iff] at hc
  simp only [Bool.false_eq_true, if_false, Option.map_eq_some_iff] at hd
  obtain ⟨x, hx, rfl⟩ := hc
  obtain ⟨y, hy, rfl⟩ := hd
  exact ⟨x, hx, y, hy, (joint_iff _ _ _ _).2 h⟩

theorem SInv.distinct {lines polygons : List (List P2)} {D : Int} {s : St} {chain : Nat → List Piece} {closed : List (List Piece)}
    (h : SInv lines polygons D s chain closed) {i j : Nat} (hi : i < lines.length) (hj : j < lines.length) {e f : Bool} {t u : Nat}
    (ht : chainT (chain i) e = some t) (hu : chainT (chain j) f = some u) (hne : ¬(i = j ∧ e = f)) : t ≠ u := by
  rintro rfl
  have h1 := (h.live i hi e t ht).1
  have h2 := (h.live j hj f t hu).1
  rw [h1] at h2
  injection h2 with h2
  exact hne (term_inj.1 h2)

/-- The step keeps the invariant and uses up the end points of the stitch. -/
structure StepOk (lines polygons : List (List P2)) (D : Int) (s : St) (chain : Nat → List Piece) (closed : List (List Piece)) (x : Stitch)
    (s' : St) (chain' : Nat → List Piece) (closed' : List (List Piece)) : Prop where
  inv : SInv lines polygons D s' chain' closed'
  mono : ∀ t, s.old2cur t = none → s'.old2cur t = none
  used : s'.old2cur x.t0 = none ∨ s'.old2cur x.t1 = none

theorem perm_close {n : Nat} {chain : Nat → List Piece} {i : Nat} (hi : i < n) (closed : List (List Piece)) :
    (((List.range n).map (upd chain i []) ++ (closed ++ [chain i])).flatten.map (·.1)).Perm
      (((List.range n).map chain ++ closed).flatten.map (·.1)) := by
  have hmi : i ∈ List.range n := List.mem_range.2 hi
  have hnd : (List.range n).Nodup := List.nodup_range
  have hp : (List.range n).Perm (i :: (List.range n).erase i) := List.perm_cons_erase hmi
  have key : ∀ f : Nat → List Piece, (((List.range n).map f).flatten.map (·.1)).Perm
      ((f i).map (·.1) ++ ((((List.range n).erase i).map f).flatten.map (·.1))) := by
    intro f
    refine (((hp.map f).flatten).map _).trans ?_
    simp only [List.map_cons, List.flatten_cons, List.map_append]
    exact List.Perm.refl _
  have e3 : ((List.range n).erase i).map (upd chain i []) = ((List.range n).erase i).map chain := by
    apply List.map_congr_left
    intro k hk
    exact upd_ne _ _ ((List.Nodup.mem_erase_iff hnd).1 hk).1
  have k1 := key (upd chain i [])
  rw [upd_same, e3, List.map_nil, List.nil_append] at k1
  have k2 := key chain
  rw [List.flatten_append, List.map_append, List.flatten_append, List.map_append, List.flatten_append, List.map_append]
  simp only [List.flatten_cons, List.flatten_nil, List.append_nil]
  generalize ((List.range n).map (upd chain i [])).flatten.map (·.1) = A at *
  generalize ((List.range n).map chain).flatten.map (·.1) = B at *
  generalize (((List.range n).erase i).map chain).flatten.map (·.1) = R at *
  generalize (chain i).map (·.1) = C at *
  generalize closed.flatten.map (·.1) = E at *
  have : (A ++ (E ++ C)).Perm (R ++ (E ++ C)) := k1.append_right _
  refine this.trans ?_
  refine List.Perm.trans ?_ (k2.symm.append_right E)
  rw [← List.append_assoc]
  refine List.perm_append_comm.trans ?_
  rw [List.append_assoc]

theorem closePolygon_ok {lines polygons : List (List P2)} {D : Int} {s : St} {chain : Nat → List Piece} {closed : List (List Piece)}
    (h : SInv lines polygons D s chain closed) {i : Nat} (hi : i < lines.length) {a b : Nat} (ha : chainT (chain i) false = some a)
    (hb : chainT (chain i) true = some b) (hc : Close lines D b a) {x : Stitch} (hx : x.t0 = a ∨ x.t0 = b) :
    ∃ s', closePolygon s i = .ok s' ∧ StepOk lines polygons D s chain closed x s' (upd chain i []) (closed ++ [chain i]) := by
  have hla := h.live i hi false a ha
  have hlb := h.live i hi true b hb
  have hab : a ≠ b := h.distinct hi hi ha hb (by simp)
  have htt : term i true ≠ term i false := by rw [Ne, term_inj]; simp
  refine ⟨{ lines := upd s.lines i [], old2cur := upd (upd s.old2cur a none) b none,
            cur2old := upd (upd s.cur2old (term i false) none) (term i true) none, polygons := s.polygons ++ [s.lines i] }, ?_, ?_⟩
  · unfold closePolygon markRemoved
    dsimp only
    rw [hla.2]
    dsimp only [Outcome.bind]
    rw [upd_ne _ _ htt, hlb.2]
  · refine ⟨⟨?_, ?_, ?_, ?_, ?_, ?_, ?_⟩, ?_, ?_⟩
    · intro k hk
      dsimp only
      by_cases hki : k = i
      · subst hki; rw [upd_same, upd_same]; rfl
      · rw [upd_ne _ _ hki, upd_ne _ _ hki]; exact h.pts k hk
    · dsimp only
      rw [h.polys, h.pts i hi]
      simp
    · exact (perm_close hi closed).trans h.perm
    · intro k hk
      by_cases hki : k = i
      · subst hki; rw [upd_same]; exact List.IsChain.nil
      · rw [upd_ne _ _ hki]; exact h.chains k hk
    · intro c hcm
      rw [List.mem_append, List.mem_singleton] at hcm
      rcases hcm with hcm | rfl
      · exact h.closes c hcm
      · exact ⟨h.chains i hi, close_chainT hb ha hc⟩
    · intro k hk e t ht
      dsimp only
      by_cases hki : k = i
      · subst hki; rw [upd_same] at ht; unfold chainT at ht; simp at ht
      · rw [upd_ne _ _ hki] at ht
        have h1 := h.distinct hk hi ht ha (by tauto)
        have h2 := h.distinct hk hi ht hb (by tauto)
        rw [upd_ne _ _ h2, upd_ne _ _ h1, upd_ne _ _ (by rw [Ne, term_inj]; tauto), upd_ne _ _ (by rw [Ne, term_inj]; tauto)]
        exact h.live k hk e t ht
    · intro t c ht
      dsimp only at ht
      by_cases h2 : t = b
      · subst h2; rw [upd_same] at ht; simp at ht
      · rw [upd_ne _ _ h2] at ht
        by_cases h1 : t = a
        · subst h1; rw [upd_same] at ht; simp at ht
        · rw [upd_ne _ _ h1] at ht
          obtain ⟨hl, hd⟩ := h.dead t c ht
          refine ⟨hl, ?_⟩
          by_cases hki : lineOf c = i
          · exfalso
            rw [hki] at hd
            cases he : isEnd c with
            | true => rw [he, hb] at hd; injection hd with hd; exact h2 hd.symm
            | false => rw [he, ha] at hd; injection hd with hd; exact h1 hd.symm
          · rw [upd_ne _ _ hki]; exact hd
    · intro t ht
      dsimp only
      by_cases h2 : t = b
      · subst h2; rw [upd_same]
      · rw [upd_ne _ _ h2]
        by_cases h1 : t = a
        · subst h1; rw [upd_same]
        · rw [upd_ne _ _ h1]; exact ht
    · left
      dsimp only
      rcases hx with hx | hx
      · rw [hx, upd_ne _ _ hab, upd_same]
      · rw [hx, upd_same]

end Verif.Slicer
