import Verif.Comb.Lemmas

/-! # C123: combing paths -/

namespace Verif.Comb

open Spec

/-- The crossings that are found. -/
private theorem crossings_ok (env : Env) (fail : Bool) (cs : List Crossing) (h : crossings env fail = some (some cs)) :
    Crossings (env.boundary.map fun p => p.map env.apply) (env.apply env.start) (env.apply env.stop) cs ∧
      ∀ c ∈ cs, ∃ poly, env.boundary[c.poly]? = some poly ∧ c.idx < poly.length := by
  unfold crossings at h
  obtain ⟨r, hr, h0⟩ := Option.map_eq_some_iff.1 h
  obtain ⟨l, rfl, h⟩ := Option.map_eq_some_iff.1 h0
  have hne := scanAll_ne env fail _ _ _ _ hr
  have hl : l = scanEach env 0 env.boundary := by
    rcases scanAll_ok env fail env.boundary 0 [] hne (.inl rfl) with ⟨h1, _⟩ | ⟨h1, _⟩
    · rw [h1] at hr; simp at hr
    · rw [h1] at hr; simp at hr; exact hr.symm
  have hmem : ∀ c, c ∈ cs ↔ c ∈ l := by intro c; rw [← h, List.mem_insertionSort]
  have hiff := fun c => (hmem c).trans (Iff.trans (by rw [hl]) (scanEach_mem env c env.boundary 0))
  refine ⟨⟨?_, ?_, ?_, ?_⟩, ?_⟩
  · intro c hc
    obtain ⟨k, poly, h1, h2, s, h3, h4, h5⟩ := (hiff c).1 hc
    rw [Nat.zero_add] at h2
    refine ⟨poly.map env.apply, s, by rw [List.getElem?_map, h2, h1]; rfl, h3, h4.1, ?_, ?_, ?_⟩
    · rw [h5]; exact meet_near _ s (passes_ne h4.1)
    · rw [h5]; exact h4.2.1
    · rw [h5]; exact h4.2.2
  · intro i poly k side h1 h2 h3 h4 h5
    rw [List.getElem?_map] at h1
    obtain ⟨p, hp, rfl⟩ := Option.map_eq_some_iff.1 h1
    have hn := abs_lt.1 (meet_near (env.apply env.start).2 side (passes_ne h3))
    refine ⟨⟨i, meet (env.apply env.start).2 side.1 side.2, k⟩, (hiff _).2 ⟨i, p, hp, by simp, side, h2, ⟨h3, ?_, ?_⟩, rfl⟩, rfl, rfl⟩
    · rw [← Int.cast_le (R := Rat)]; linarith [hn.1]
    · rw [← Int.cast_le (R := Rat)]; linarith [hn.2]
  · have hnd : cs.Nodup := by
      rw [← h, (List.perm_insertionSort _ l).nodup_iff, hl]
      exact scanEach_nodup env _ _
    refine hnd.map_on ?_
    intro a ha b hb hab
    obtain ⟨k, poly, h1, h2, s, h3, h4, h5⟩ := (hiff a).1 ha
    obtain ⟨k', poly', h1', h2', s', h3', h4', h5'⟩ := (hiff b).1 hb
    simp only [Prod.mk.injEq] at hab
    have hk : k = k' := by omega
    subst hk
    rw [h1] at h1'
    cases h1'
    rw [hab.2, h3'] at h3
    cases h3
    cases a; cases b
    simp_all
  · rw [← h]
    have := List.pairwise_insertionSort (fun a b : Crossing => a.x ≤ b.x) l
    exact this
  · intro c hc
    obtain ⟨k, poly, h1, h2, s, h3, _⟩ := (hiff c).1 hc
    rw [Nat.zero_add] at h2
    refine ⟨poly, by rw [h2]; exact h1, ?_⟩
    have := (List.getElem?_eq_some_iff.1 h3).1
    simp only [sides, List.length_zip, List.length_map] at this
    omega

/-- **C123 (the path).** A combing path goes from the start to the end. It is the direct move, which is short or does not cross any polygon but for the last unit at each end, or else there are crossings of the polygons with the line, from left to right, each with the next one of the same polygon, and for each such pair the shorter one of the two ways around the polygon; and every move of the path is on a line that was found to be clear, or on one move of the path that goes the ways one after the other. -/
theorem C123_path (env : Env) (short fail : Bool) (path : List P2) (flag : Bool) (hl : ∀ p q, 0 ≤ env.len p q) (hsym : ∀ p q, env.len p q = env.len q p)
    (h : comb env short fail = some (some (path, flag))) :
    path.head? = some env.start ∧ path.getLast? = some env.stop ∧
      (path = [env.start, env.stop] ∧ (short = true ∨ ∀ poly ∈ env.boundary, ∀ s ∈ sides (poly.map env.apply), Passes (env.apply env.start).2 s →
        passX (env.apply env.start).2 s < (env.apply env.start).1 + 1 ∨ (env.apply env.stop).1 - 1 < passX (env.apply env.start).2 s) ∨ ∃ cs pairs ways,
        Crossings (env.boundary.map fun p => p.map env.apply) (env.apply env.start) (env.apply env.stop) cs ∧ Paired cs pairs ∧
        List.Forall₂ (fun p w => ∃ poly, env.boundary[p.1.poly]? = some poly ∧
          Way env.len (env.off p.1.poly) poly.length p.1 p.2 (env.unapply (p.1.x - |env.dist|, (env.apply env.start).2)) (env.unapply (p.2.x + |env.dist|, (env.apply env.start).2)) w) pairs ways ∧
        path.IsChain (Fine env.part (fun a b => env.hits a b = false) (Next (env.start :: ways.flatten ++ [env.stop])))) := by
  unfold comb at h
  by_cases hs : short = true
  · rw [if_pos hs] at h
    simp only [Option.some.injEq, Prod.mk.injEq] at h
    rw [← h.1]
    exact ⟨rfl, rfl, .inl ⟨rfl, .inl hs⟩⟩
  rw [if_neg hs] at h
  cases hc : collides env env.boundary with
  | none => simp [hc] at h
  | some b =>
    cases b with
    | false =>
      simp only [hc, Option.some.injEq, Prod.mk.injEq] at h
      rw [← h.1]
      exact ⟨rfl, rfl, .inl ⟨rfl, .inr (collides_clear env hc)⟩⟩
    | true =>
      simp only [hc] at h
      cases hx : crossings env fail with
      | none => simp [hx] at h
      | some r =>
        cases r with
        | none => simp [hx] at h
        | some cs =>
          simp only [hx] at h
          obtain ⟨hcs, hidx⟩ := crossings_ok env fail cs hx
          obtain ⟨pairs, ways, h1, h2, h3⟩ := basic_some env (fun c => ∃ poly, env.boundary[c.poly]? = some poly ∧ c.idx < poly.length) (by
            rintro c d ⟨poly, a1, a2⟩ ⟨poly', b1, b2⟩ hcd
            rw [hcd, a1] at b1
            cases b1
            obtain ⟨w, o, hw, _⟩ := around_ok env c d poly a1 a2 b2 hl hsym
            exact ⟨_, hw⟩) cs.length cs (le_refl _) hidx
          simp only [h1, Option.some.injEq, Prod.mk.injEq] at h
          obtain ⟨o1, o2, o3⟩ := optimize_ok (env := env) (given := Next (env.start :: ways.flatten ++ [env.stop])) (ways.flatten ++ [env.stop]) (by simp) (chain_next _)
          rw [← h.1]
          refine ⟨o1, by rw [o2]; simp, .inr ⟨cs, pairs, ways, hcs, h2, ?_, o3⟩⟩
          refine h3.imp ?_
          rintro p w ⟨hw, ⟨poly, a1, a2⟩, ⟨poly', b1, b2⟩, hcd⟩
          rw [hcd, a1] at b1
          cases b1
          obtain ⟨m, o, hw', hm, hle⟩ := around_ok env p.1 p.2 poly a1 a2 b2 hl hsym
          rw [hw'] at hw
          cases hw
          refine ⟨poly, a1, m, rfl, ?_, ?_, ?_⟩
          · rcases hm with ⟨hm, _⟩ | ⟨hm, _⟩
            · exact .inl hm
            · exact .inr hm
          · rcases hm with ⟨hm, ho⟩ | ⟨hm, ho⟩
            · rw [← hm]
            · rw [← ho]; exact hle
          · rcases hm with ⟨hm, ho⟩ | ⟨hm, ho⟩
            · rw [← ho]; exact hle
            · rw [← hm]

/-- **C123 (no crossing added).** If the ways one after the other are clear, then each move of the shortened path is on a line that is clear. -/
theorem C123_clear (env : Env) (basic : List P2) (hne : basic ≠ []) (h : ∀ a b, Next (env.start :: basic) a b → env.hits a b = false) :
    (optimize env basic).1.head? = some env.start ∧ (optimize env basic).1.getLast? = basic.getLast? ∧
      (optimize env basic).1.IsChain (Fine env.part (fun a b => env.hits a b = false) (fun _ _ => False)) := by
  obtain ⟨o1, o2, o3⟩ := optimize_ok (env := env) (given := Next (env.start :: basic)) basic hne (chain_next _)
  refine ⟨o1, o2, o3.imp ?_⟩
  rintro u v ⟨a, b, h1, h2, h3⟩
  refine ⟨a, b, h1, h2, .inl ?_⟩
  rcases h3 with h3 | h3
  · exact h3
  · exact h a b h3

/-- **C123 (different sides).** If no side of a polygon passes the line within a unit of its ends, then a move that is not short is refused exactly if its ends are on different sides of a polygon. Otherwise, or if it must not be refused, there is a path. -/
theorem C123_refused (env : Env) (h : ∀ poly ∈ env.boundary, poly ≠ []) (hl : ∀ p q, 0 ≤ env.len p q) (hsym : ∀ p q, env.len p q = env.len q p)
    (hy : (env.apply env.stop).2 = (env.apply env.start).2) (hx : (env.apply env.start).1 ≤ (env.apply env.stop).1)
    (hfar : ∀ poly ∈ env.boundary, ∀ s ∈ sides (poly.map env.apply), Passes (env.apply env.start).2 s →
      1 ≤ |passX (env.apply env.start).2 s - (env.apply env.start).1| ∧ 1 ≤ |passX (env.apply env.start).2 s - (env.apply env.stop).1|) :
    (comb env false true = some none ↔ ∃ poly ∈ env.boundary, ¬ (Inside (poly.map env.apply) (env.apply env.start) ↔ Inside (poly.map env.apply) (env.apply env.stop))) ∧
      (comb env false true ≠ some none → ∃ r, comb env false true = some (some r)) ∧ ∃ r, comb env false false = some (some r) := by
  obtain ⟨b, hc, _⟩ := collides_iff env env.boundary h
  have tot : ∀ fail cs, crossings env fail = some (some cs) → ∃ r, comb env false fail = some (some r) := by
    intro fail cs hx
    cases b with
    | false => exact ⟨_, by simp only [comb, hc]; rfl⟩
    | true =>
      obtain ⟨_, hidx⟩ := crossings_ok env fail cs hx
      obtain ⟨pairs, ways, h1, _⟩ := basic_some env (fun c => ∃ poly, env.boundary[c.poly]? = some poly ∧ c.idx < poly.length) (by
        rintro c d ⟨poly, a1, a2⟩ ⟨poly', b1, b2⟩ hcd
        rw [hcd, a1] at b1
        cases b1
        obtain ⟨w, o, hw, _⟩ := around_ok env c d poly a1 a2 b2 hl hsym
        exact ⟨_, hw⟩) cs.length cs (le_refl _) hidx
      exact ⟨((optimize env (ways.flatten ++ [env.stop])).1, false), by simp [comb, hc, hx, h1]⟩
  have hpar := fun poly hp => parity env poly hy hx (hfar poly hp)
  have refuse : scanAll env true 0 env.boundary [] = some none → (∃ poly ∈ env.boundary, (scanPoly env 0 poly).length % 2 = 1) → comb env false true = some none := by
    rintro h1 ⟨poly, hp, hodd⟩
    cases b with
    | false =>
      obtain ⟨s, hs, g1, g2, g3⟩ := odd_hits env poly (hfar poly hp) hodd
      rcases collides_clear env hc poly hp s hs g1 with g | g <;> linarith
    | true => simp [comb, hc, crossings, h1]
  refine ⟨?_, ?_, ?_⟩
  · rcases scanAll_ok env true env.boundary 0 [] h (.inl rfl) with ⟨h1, _, poly, hp, hodd⟩ | ⟨h1, h2⟩
    · exact ⟨fun _ => ⟨poly, hp, (hpar poly hp).1 hodd⟩, fun _ => refuse h1 ⟨poly, hp, hodd⟩⟩
    · obtain ⟨r, hr⟩ := tot true _ (by simp only [crossings, h1, Option.map_some]; rfl)
      constructor
      · intro hn; rw [hr] at hn; simp at hn
      · rintro ⟨poly, hp, hd⟩
        have := (hpar poly hp).2 hd
        have := h2 rfl poly hp
        omega
  · intro hn
    rcases scanAll_ok env true env.boundary 0 [] h (.inl rfl) with ⟨h1, _, h2⟩ | ⟨h1, _⟩
    · exact absurd (refuse h1 h2) hn
    · exact tot true _ (by simp only [crossings, h1, Option.map_some]; rfl)
  · rcases scanAll_ok env false env.boundary 0 [] h (.inl rfl) with ⟨_, h1, _⟩ | ⟨h1, _⟩
    · simp at h1
    · exact tot false _ (by simp only [crossings, h1, Option.map_some]; rfl)

/-- On which side of a line a point is. -/
def turn (a b p : P2) : Int := (b.1 - a.1) * (p.2 - a.2) - (b.2 - a.2) * (p.1 - a.1)

/-- Two lines cross each other. -/
def cut (a b c d : P2) : Bool := decide (turn a b c * turn a b d < 0 ∧ turn c d a * turn c d b < 0)

/-- Two squares that are close to each other, a move through the first one, and corners that are moved outside by 3 in each direction. -/
def narrow (gap : Int) : Env where
  boundary := [[(10, -12), (20, -12), (20, 10), (10, 10)], [(9, 10 + gap), (21, 10 + gap), (21, 30), (9, 30)]]
  start := (0, 0)
  stop := (30, 0)
  dist := 3
  apply := id
  unapply := id
  off := fun p i => if p = 0 then ([(7, -15), (23, -15), (23, 13), (7, 13)] : List P2)[i]?.getD (0, 0) else (0, 0)
  len := fun p q => |p.1 - q.1| + |p.2 - q.2|
  part := fun a b f => (a.1 + ⌊(b.1 - a.1) * f⌋, a.2 + ⌊(b.2 - a.2) * f⌋)
  hits := fun a b => ([[(10, -12), (20, -12), (20, 10), (10, 10)], [(9, 10 + gap), (21, 10 + gap), (21, 30), (9, 30)]] : List (List P2)).any fun p => (sides p).any fun s => cut a b s.1 s.2

/-- **C123 does not hold for the mark of paths that cross a boundary.** The path that is returned crosses the boundary, and this was noticed, but the mark is set on the path before it is shortened and is lost: the path that is returned is not marked. -/
theorem C123_mark_counterexample : ∃ (env : Env) (basic path : List P2), comb env false true = some (some (path, false)) ∧ path = (optimize env basic).1 ∧ (optimize env basic).2 = true ∧
    ∃ a b, Next path a b ∧ env.hits a b = true := by
  refine ⟨narrow 2, [(7, 0), (7, 13), (23, 13), (23, 0), (30, 0)], (optimize (narrow 2) [(7, 0), (7, 13), (23, 13), (23, 0), (30, 0)]).1, ?_, rfl, ?_, ?_⟩
  · decide +kernel
  · decide +kernel
  · exact ⟨(7, 13), (21, 13), ⟨[(0, 0)], [(30, 0)], by decide +kernel⟩, by decide +kernel⟩

end Verif.Comb
