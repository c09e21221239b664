import Verif.Lines.ZigLemmas

/-! # What the connector processor adds -/

namespace Verif.Lines

def keepB (c : Zigzag) (dist : Int) (p : Piece) : Bool :=
  shouldAdd c p.src p.dst && !tooClose p.pts.dropLast (p.pts.getLastD (0, 0)).1 dist

theorem addZag_two {c : Zigzag} {pts : List Pt} (h : 2 ≤ pts.length) (b : Bool) (out : List (List Pt)) :
    addZag c pts b out = out ++ [if (b && !c.connected) = true then pts.dropLast else pts] := by
  unfold addZag
  rw [if_neg (by omega)]

theorem trim_eq (c : Zigzag) (p : Piece) (b : Bool) (h : b = decide (p.src = p.dst)) :
    (if (b && !c.connected) = true then p.pts.dropLast else p.pts) = trim c p := by
  unfold trim
  subst h
  congr 1
  simp

theorem run_cut (c : Zigzag) (dist : Int) (l : List Event) (z : Zig) (hz : z.isFirst = false) (hcur : z.cur ≠ []) :
    l.foldl (Zig.step c dist) z = { z with out := z.out ++ ((cut z.last z.cur l).filter (keepB c dist)).map (trim c), last := (after z.last z.cur l).1, cur := (after z.last z.cur l).2 } := by
  induction l generalizing z with
  | nil => simp [cut, after]
  | cons e l ih =>
    rw [List.foldl_cons]
    cases e with
    | vertex p =>
      have h1 : Zig.step c dist z (.vertex p) = { z with cur := z.cur ++ [p] } := by
        simp [Zig.step, Zig.vertex, hz]
      rw [h1, ih { z with cur := z.cur ++ [p] } hz (by simp), cut, after]
    | cross p t =>
      have h1 : Zig.step c dist z (.cross p t) = { z with out := z.closed c dist p t, cur := [p], last := t } := by
        simp [Zig.step, Zig.cross, hz]
      rw [h1, ih { z with out := z.closed c dist p t, cur := [p], last := t } hz (by simp), cut, after]
      dsimp only
      have h2 : z.closed c dist p t = z.out ++ ([(⟨z.last, z.cur ++ [p], t⟩ : Piece)].filter (keepB c dist)).map (trim c) := by
        unfold Zig.closed
        rw [List.filter_singleton]
        have hk : keepB c dist ⟨z.last, z.cur ++ [p], t⟩ = (shouldAdd c z.last t && !tooClose z.cur p.1 dist) := by
          unfold keepB
          rw [getLastD_concat, List.dropLast_concat]
        rw [hk]
        split
        · rename_i h
          rw [h]
          have hlen : 2 ≤ (z.cur ++ [p]).length := by
            have := List.length_pos_iff.mpr hcur
            simp only [List.length_append, List.length_cons, List.length_nil]
            omega
          rw [addZag_two hlen]
          show z.out ++ [_] = z.out ++ [trim c ⟨z.last, z.cur ++ [p], t⟩]
          rw [← trim_eq c ⟨z.last, z.cur ++ [p], t⟩ (decide (t = z.last)) (by simp [eq_comm])]
        · rename_i h
          rw [Bool.not_eq_true] at h
          rw [h]
          simp
      rw [h2]
      congr 1
      rw [List.append_assoc, List.filter_singleton, List.filter_cons]
      congr 1
      cases keepB c dist ⟨z.last, z.cur ++ [p], t⟩ <;> simp

theorem run_vertices (c : Zigzag) (dist : Int) (l : List Event) (h : ∀ e ∈ l, e.isVertex = true) (z : Zig) (hz : z.isFirst = true) :
    l.foldl (Zig.step c dist) z = { z with first := z.first ++ l.map Event.point } := by
  induction l generalizing z with
  | nil => simp
  | cons e l ih =>
    cases e with
    | cross p t => simp [Event.isVertex] at h
    | vertex p =>
      rw [List.foldl_cons]
      have h1 : Zig.step c dist z (.vertex p) = { z with first := z.first ++ [p] } := by
        simp [Zig.step, Zig.vertex, hz]
      rw [h1, ih (fun e he => h e (by simp [he])) { z with first := z.first ++ [p] } hz]
      simp [Event.point]

/-! ## The rule -/

theorem skips_iff {c : Zigzag} {a b : Int} (h : |a - b| ≤ 1) (hne : a ≠ b) : skips c a b = true ↔ Skipped c a b := by
  unfold skips Skipped
  rw [abs_le] at h
  by_cases hs : c.skip = true ∧ c.skipCount > 0
  · rw [if_pos (by simp [hs.1, hs.2])]
    split
    · rw [decide_eq_true_eq, show min a b = a by omega, ← Int.dvd_iff_tmod_eq_zero]
      exact ⟨fun h => ⟨hs.1, hs.2, h⟩, fun h => h.2.2⟩
    · rw [decide_eq_true_eq, show min a b = a - 1 by omega, ← Int.dvd_iff_tmod_eq_zero]
      exact ⟨fun h => ⟨hs.1, hs.2, h⟩, fun h => h.2.2⟩
  · rw [if_neg (by simpa using hs)]
    constructor
    · intro h
      cases h
    · intro h
      exact absurd ⟨h.1, h.2.1⟩ hs

theorem shouldAdd_iff {c : Zigzag} {p : Piece} (h : |p.src - p.dst| ≤ 1) :
    shouldAdd c p.src p.dst = true ↔ Zag c p ∨ (c.endpieces = true ∧ p.src = p.dst) := by
  unfold shouldAdd Zag
  by_cases he : p.src = p.dst
  · simp [he]
  · have hs := skips_iff (c := c) h he
    simp only [Bool.or_eq_true, Bool.and_eq_true, decide_eq_true_eq, Bool.not_eq_true', decide_eq_false_iff_not, he, and_false, or_false,
      not_false_eq_true, and_true, ne_eq, true_and, ← Int.dvd_iff_tmod_eq_zero]
    rw [← hs, Bool.not_eq_true]

theorem tooClose_iff {p : Piece} {dist : Int} (h : p.pts.dropLast ≠ []) :
    tooClose p.pts.dropLast (p.pts.getLastD (0, 0)).1 dist = true ↔ Tiny dist p := by
  unfold tooClose Tiny
  simp only [Bool.and_eq_true, Bool.not_eq_true', List.isEmpty_eq_false_iff, List.all_eq_true, decide_eq_false_iff_not, not_le, ge_iff_le]
  exact ⟨fun h => h.2, fun h' => ⟨h, h'⟩⟩

theorem keep_iff {c : Zigzag} {d shift : Int} (hd : 0 < d) {p : Piece} (h : |p.src - p.dst| ≤ 1) (h2 : 2 ≤ p.pts.length)
    (hh : (p.pts.headD (0, 0)).1 = p.src * d + shift) (hl : (p.pts.getLastD (0, 0)).1 = p.dst * d + shift) :
    keepB c (d.tdiv 4) p = true ↔ Zag c p ∨ (c.endpieces = true ∧ p.src = p.dst ∧ ¬ Tiny (d.tdiv 4) p) := by
  have hne : p.pts.dropLast ≠ [] := by
    intro h0
    have := congrArg List.length h0
    rw [List.length_dropLast, List.length_nil] at this
    omega
  unfold keepB
  rw [Bool.and_eq_true, shouldAdd_iff h, Bool.not_eq_true', ← Bool.not_eq_true, tooClose_iff hne]
  constructor
  · rintro ⟨h1 | h1, h3⟩
    · exact .inl h1
    · exact .inr ⟨h1.1, h1.2, h3⟩
  · rintro (h1 | h1)
    · refine ⟨.inl h1, fun ht => ?_⟩
      have hmem : p.pts.headD (0, 0) ∈ p.pts.dropLast := by
        cases hp : p.pts with
        | nil => rw [hp] at h2; simp at h2
        | cons a l =>
          cases l with
          | nil => rw [hp] at h2; simp at h2
          | cons b l => simp
      have := ht _ hmem
      rw [hh, hl, show p.src * d + shift - (p.dst * d + shift) = (p.src - p.dst) * d by ring, abs_mul, abs_of_pos hd] at this
      have h5 : 1 ≤ |p.src - p.dst| := Int.one_le_abs (by have := h1.2.1; omega)
      have h6 : d.tdiv 4 ≤ d := by
        rw [Int.tdiv_eq_ediv_of_nonneg hd.le]
        omega
      nlinarith
    · exact ⟨.inr ⟨h1.1, h1.2.1⟩, h1.2.2⟩

/-! ## One polygon -/

/-- Everything about the pieces of a polygon. -/
theorem pieces_spec {d shift : Int} (hd : 0 < d) {poly : List Pt} (hne : poly ≠ []) :
    (∀ p ∈ pieces (polyEvents d shift poly), |p.src - p.dst| ≤ 1 ∧ Follows poly p.pts ∧ 2 ≤ p.pts.length ∧
      (p.pts.headD (0, 0)).1 = p.src * d + shift ∧ (p.pts.getLastD (0, 0)).1 = p.dst * d + shift) ∧
    (pieces (polyEvents d shift poly)).IsChain (fun p q => p.dst = q.src ∧ p.pts.getLastD (0, 0) = q.pts.headD (0, 0)) ∧
    (∀ p ∈ (pieces (polyEvents d shift poly)).getLast?, ∀ q ∈ (pieces (polyEvents d shift poly)).head?,
      p.dst = q.src ∧ p.pts.getLastD (0, 0) = q.pts.headD (0, 0)) ∧
    (pieces (polyEvents d shift poly)).map (fun p => (p.src, (p.pts.headD (0, 0)).2)) = (polyEvents d shift poly).filterMap Event.crossing? := by
  rcases first_cross (polyEvents d shift poly) with hv | ⟨a, p, s, b, he, hv⟩
  · rw [pieces_none hv]
    refine ⟨by simp, by simp, by simp, ?_⟩
    symm
    rw [List.map_nil, List.filterMap_eq_nil_iff]
    intro e hmem
    cases e with
    | vertex p => rfl
    | cross p s => exact absurd (hv _ hmem) (by simp [Event.isVertex])
  · have hat : ∀ p s, Event.cross p s ∈ polyEvents d shift poly → p.1 = s * d + shift := fun p s h => cross_at h
    obtain ⟨k, hst⟩ := poly_steps (shift := shift) hd poly
    have hal := poly_along (shift := shift) hd poly
    have hback : ∃ a' b', a = .vertex (poly.getLastD (0, 0)) :: a' ∧ b = b' ++ [.vertex (poly.getLastD (0, 0))] := by
      have h1 : ∃ r, polyEvents d shift poly = .vertex (poly.getLastD (0, 0)) :: r := ⟨_, rfl⟩
      have h2 : ∃ r, polyEvents d shift poly = r ++ [.vertex (poly.getLastD (0, 0))] := by
        unfold polyEvents
        have : ∀ (l : List Pt) (p0 : Pt), l ≠ [] → ∃ r, walk d shift p0 l = r ++ [.vertex (l.getLastD p0)] := by
          intro l
          induction l with
          | nil => intro _ h; exact absurd rfl h
          | cons p1 l ih =>
            intro p0 _
            rw [List.getLastD_cons, walk]
            cases l with
            | nil => exact ⟨(scans d shift p0 p1).map _, by rw [walk, List.append_nil]; rfl⟩
            | cons p2 l =>
              obtain ⟨r, hr⟩ := ih p1 (by simp)
              exact ⟨edgeEvents d shift p0 p1 ++ r, by rw [hr, List.append_assoc]⟩
        obtain ⟨r, hr⟩ := this poly (poly.getLastD (0, 0)) hne
        rw [getLastD_idem] at hr
        exact ⟨.vertex (poly.getLastD (0, 0)) :: r, by rw [hr]; rfl⟩
      obtain ⟨r1, h1⟩ := h1
      obtain ⟨r2, h2⟩ := h2
      have ha : ∃ a', a = .vertex (poly.getLastD (0, 0)) :: a' := by
        rw [he] at h1
        cases a with
        | nil => simp at h1
        | cons x a' =>
          simp only [List.cons_append, List.cons.injEq] at h1
          exact ⟨a', by rw [h1.1]⟩
      have hb : ∃ b', b = b' ++ [.vertex (poly.getLastD (0, 0))] := by
        rw [he] at h2
        rcases List.eq_nil_or_concat b with rfl | ⟨b', x, rfl⟩
        · have := congrArg List.getLast? h2
          simp at this
        · have := congrArg List.getLast? h2
          rw [List.getLast?_append] at this
          simp only [List.concat_eq_append, List.getLast?_cons, List.getLast?_append, List.getLast?_singleton, Option.some_or] at this
          refine ⟨b', ?_⟩
          simp only [List.concat_eq_append]
          simpa using this
      obtain ⟨a', ha⟩ := ha
      obtain ⟨b', hb⟩ := hb
      exact ⟨a', b', ha, hb⟩
    rw [he] at hst hal
    obtain ⟨m, hs1, hs2⟩ := hst.split
    have hkey : ∃ m', (m' = s ∨ m' = s - 1) ∧ Steps m' b k ∧ ∃ m'', Steps m [.cross p s] m'' := by
      cases hs2 with
      | right h => exact ⟨_, .inl rfl, h, _, .right (.nil _)⟩
      | left h => exact ⟨_, .inr rfl, h, _, .left (.nil _)⟩
    obtain ⟨m', hm', hsb, m'', hs3⟩ := hkey
    have hround : Steps m' (b ++ a ++ [.cross p s]) m'' := (hsb.append hs1).append hs3
    have hp1 : p.1 = s * d + shift := hat p s (by rw [he]; simp)
    have hal2 : ([p] ++ (b ++ a ++ [Event.cross p s]).map Event.point).IsChain (Along (edges poly)) := by
      obtain ⟨a', b', ha, hb⟩ := hback
      rw [List.map_append] at hal
      have c1 : (p :: b.map Event.point).IsChain (Along (edges poly)) := hal.suffix ⟨a.map Event.point, by simp [Event.point]⟩
      have c2 : (a.map Event.point ++ [p]).IsChain (Along (edges poly)) := hal.prefix ⟨b.map Event.point, by simp [Event.point]⟩
      have e1 : [p] ++ (b ++ a ++ [Event.cross p s]).map Event.point = (p :: b.map Event.point) ++ (a.map Event.point ++ [p]) := by
        simp [Event.point]
      rw [e1, List.isChain_append]
      refine ⟨c1, c2, ?_⟩
      intro x hx y hy
      left
      rw [hb] at hx
      rw [ha] at hy
      simp only [List.map_append, List.map_cons, List.map_nil, Event.point] at hx hy
      rw [← List.cons_append, List.getLast?_concat] at hx
      simp only [List.cons_append, List.head?_cons, Option.mem_def, Option.some.injEq] at hx hy
      rw [← hx, ← hy]
    have hcut := cut_spec (es := edges poly) (d := d) (shift := shift) s m' m'' [p] (b ++ a ++ [.cross p s]) ⟨p, [], rfl, hp1⟩ hm' hround hal2 (by
      intro q t h
      apply hat
      rw [he]
      simp only [List.mem_append, List.mem_singleton, List.mem_cons] at h ⊢
      tauto)
    have hpieces : pieces (polyEvents d shift poly) = cut s [p] (b ++ a ++ [.cross p s]) := by
      rw [he, pieces_some hv, List.append_assoc, cut_append, cut_vertices _ _ _ hv]
    have hlast : ∃ x, (cut s [p] (b ++ a ++ [.cross p s])).getLast? = some x ∧ x.dst = s ∧ x.pts.getLastD (0, 0) = p := by
      rw [← hpieces, he, pieces_some hv, List.getLast?_concat]
      exact ⟨_, rfl, rfl, by rw [← List.append_assoc, getLastD_concat]⟩
    rw [hpieces]
    obtain ⟨h1, h2, h3, h4⟩ := hcut
    refine ⟨?_, h2, ?_, ?_⟩
    · intro x hx
      exact h1 x hx
    · intro x hx y hy
      obtain ⟨w, hw, hw1, hw2⟩ := hlast
      rw [hw, Option.mem_def, Option.some.injEq] at hx
      subst hx
      obtain ⟨g1, g2⟩ := h3 y hy
      rw [hw1, hw2, g1, g2]
      exact ⟨rfl, rfl⟩
    · have hafter : after s [p] (b ++ a ++ [.cross p s]) = (s, [p]) := by
        have : ∀ (l : List Event) (t : Int) (acc : List Pt), after t acc (l ++ [.cross p s]) = (s, [p]) := by
          intro l
          induction l with
          | nil => intros; rfl
          | cons e l ih =>
            intro t acc
            cases e with
            | vertex q => rw [List.cons_append, after]; exact ih ..
            | cross q u => rw [List.cons_append, after]; exact ih ..
        exact this ..
      rw [hafter] at h4
      rw [he, List.filterMap_append, List.filterMap_cons]
      have hnone : a.filterMap Event.crossing? = [] := by
        rw [List.filterMap_eq_nil_iff]
        intro e hmem
        cases e with
        | vertex p => rfl
        | cross p s => exact absurd (hv _ hmem) (by simp [Event.isVertex])
      rw [hnone]
      simp only [Event.crossing?, List.nil_append]
      rw [List.filterMap_append, List.filterMap_append, hnone, List.append_nil] at h4
      simp only [List.filterMap_cons, Event.crossing?, List.filterMap_nil] at h4
      rw [← List.cons_append] at h4
      have := List.append_inj' h4 rfl
      exact this.1

theorem walk_plain {d shift : Int} (l : List Pt) (p0 : Pt) (h : ∀ e ∈ walk d shift p0 l, e.isVertex = true) : (walk d shift p0 l).map Event.point = l := by
  induction l generalizing p0 with
  | nil => rfl
  | cons p1 l ih =>
    rw [walk] at h ⊢
    rw [List.map_append, ih p1 (fun e he => h e (by simp [he]))]
    have hs : scans d shift p0 p1 = [] := by
      cases hs : scans d shift p0 p1 with
      | nil => rfl
      | cons s rest =>
        exfalso
        have := h (.cross (s * d + shift, crossY p0 p1 (s * d + shift)) s) (by
          rw [List.mem_append]
          left
          unfold edgeEvents
          rw [hs]
          simp)
        simp [Event.isVertex] at this
    unfold edgeEvents
    rw [hs]
    rfl

theorem poly_run {c : Zigzag} {d shift : Int} (hd : 0 < d) {poly : List Pt} (hne : poly ≠ []) (out : List (List Pt)) :
    ((polyEvents d shift poly).foldl (Zig.step c (d.tdiv 4)) (Zig.reset out)).finish c = Zig.reset (out ++ connectionsOf c d poly (pieces (polyEvents d shift poly))) := by
  obtain ⟨hall, -, -, -⟩ := pieces_spec (shift := shift) hd hne
  unfold connectionsOf
  rcases first_cross (polyEvents d shift poly) with hv | ⟨a, p, s, b, he, hv⟩
  · rw [if_pos (pieces_none hv), run_vertices c _ _ hv _ rfl]
    unfold Zig.finish
    simp only [Zig.reset, Bool.true_or, Bool.not_true, Bool.false_and, Bool.or_false, Bool.true_and, List.nil_append]
    congr 1
    split
    · have hp : (polyEvents d shift poly).map Event.point = poly.getLastD (0, 0) :: poly := by
        unfold polyEvents at hv ⊢
        rw [List.map_cons, walk_plain _ _ (fun e he => hv e (List.mem_cons_of_mem _ he))]
        rfl
      have hlen : 2 ≤ (poly.getLastD (0, 0) :: poly).length := by
        have := List.length_pos_iff.mpr hne
        simp only [List.length_cons]
        omega
      rw [hp, addZag_two hlen, trim_eq c ⟨0, poly.getLastD (0, 0) :: poly, 0⟩ true (by simp)]
    · simp
  · have hps := pieces_some (p := p) (s := s) (b := b) hv
    rw [he] at hall ⊢
    rw [hps] at hall ⊢
    rw [if_neg (by simp), List.foldl_append, run_vertices c _ a hv _ rfl, List.foldl_cons]
    have h1 : Zig.step c (d.tdiv 4) { Zig.reset out with first := (Zig.reset out).first ++ a.map Event.point } (.cross p s) =
        ⟨false, s, s, a.map Event.point ++ [p], [p], out⟩ := by
      simp [Zig.step, Zig.cross, Zig.reset]
    rw [h1, run_cut c _ b _ rfl (by simp)]
    unfold Zig.finish
    dsimp only
    congr 1
    set q : Piece := ⟨(after s [p] b).1, (after s [p] b).2 ++ (a.map Event.point ++ [p]), s⟩ with hq
    have hqs := hall q (by simp)
    classical
    have hprinted : printed c (d.tdiv 4) (cut s [p] b ++ [q]) = (cut s [p] b).filter (keepB c (d.tdiv 4)) ++ if shouldAdd c q.src q.dst = true then [q] else [] := by
      unfold printed
      rw [List.dropLast_concat, List.getLast?_concat]
      congr 1
      · apply List.filter_congr
        intro x hx
        obtain ⟨g1, -, g2, g3, g4⟩ := hall x (by simp [hx])
        rw [Bool.eq_iff_iff, decide_eq_true_eq, keep_iff hd g1 g2 g3 g4]
      · rw [Option.toList_some, List.filter_singleton]
        have := shouldAdd_iff (c := c) hqs.1
        by_cases hsa : shouldAdd c q.src q.dst = true
        · rw [if_pos hsa, decide_eq_true (this.mp hsa)]
          rfl
        · rw [if_neg hsa, decide_eq_false (fun h => hsa (this.mpr h))]
          rfl
    rw [hprinted, List.map_append, ← List.append_assoc]
    have hcond : ((false || decide ((after s [p] b).1 = s)) && c.endpieces || !(false || decide ((after s [p] b).1 = s)) && shouldAdd c (after s [p] b).1 s) =
        shouldAdd c q.src q.dst := by
      show _ = shouldAdd c (after s [p] b).1 s
      rw [Bool.false_or]
      by_cases hsame : (after s [p] b).1 = s
      · rw [hsame]
        simp [shouldAdd]
      · simp [hsame]
    rw [hcond]
    split
    · rw [List.append_assoc _ _ [p], show (after s [p] b).2 ++ (a.map Event.point ++ [p]) = q.pts from rfl, addZag_two hqs.2.2.1]
      rw [trim_eq c q (false || decide ((after s [p] b).1 = s)) (by rw [Bool.false_or])]
      rw [List.append_assoc]
      rfl
    · simp

theorem connectors_eq {c : Zigzag} {d shift : Int} (hd : 0 < d) {outline : List (List Pt)} (hne : ∀ poly ∈ outline, poly ≠ []) :
    connectors c d shift outline = outline.flatMap (fun poly => connectionsOf c d poly (pieces (polyEvents d shift poly))) := by
  unfold connectors
  have : ∀ (l : List (List Pt)) (out : List (List Pt)), (∀ poly ∈ l, poly ≠ []) →
      l.foldl (fun z poly => ((polyEvents d shift poly).foldl (Zig.step c (d.tdiv 4)) z).finish c) (Zig.reset out) =
        Zig.reset (out ++ l.flatMap (fun poly => connectionsOf c d poly (pieces (polyEvents d shift poly)))) := by
    intro l
    induction l with
    | nil => intro out _; simp
    | cons poly l ih =>
      intro out h
      rw [List.foldl_cons, poly_run hd (h poly (by simp)), ih _ (fun q hq => h q (by simp [hq]))]
      simp
  rw [this outline [] hne]
  simp [Zig.reset]

theorem pieces_round {d shift : Int} (hd : 0 < d) {poly : List Pt} (hne : poly ≠ []) : Round d shift poly (pieces (polyEvents d shift poly)) := by
  obtain ⟨h1, h2, h3, h4⟩ := pieces_spec (shift := shift) hd hne
  refine ⟨fun p hp => ⟨(h1 p hp).2.2.1, (h1 p hp).2.1⟩, fun p hp => (h1 p hp).2.2.2, fun p hp => (h1 p hp).1, h2, h3, fun s => ?_⟩
  have h5 := crossings_eq d shift [poly]
  unfold crossings allEdges at h5
  rw [List.flatMap_singleton, ← h4, List.flatMap_singleton] at h5
  have h6 := congrArg List.length (scan_heights (shift := shift) hd s (edges poly))
  rw [← h5, List.length_map, List.length_map, ← List.countP_eq_length_filter, ← List.countP_eq_length_filter, List.countP_map] at h6
  exact h6

end Verif.Lines
