import Verif.Order.TopLemmas
import Verif.Order.NearLemmas

/-! # C29: path ordering -/

namespace Verif.Order

variable {env : Env} {edges : Edges}

/-- Three paths: a square, an open line from (1000, 0) to (2000, 0), and another open line. -/
def demo : Env where
  paths := [⟨10, [⟨5000, 5000⟩, ⟨6000, 5000⟩, ⟨6000, 6000⟩, ⟨5000, 6000⟩], true, false⟩,
    ⟨20, [⟨2000, 0⟩, ⟨1500, 50⟩, ⟨1000, 0⟩], false, false⟩,
    ⟨30, [⟨2100, 0⟩, ⟨5000, 4000⟩], false, false⟩]
  startPoint := ⟨0, 0⟩
  combing := none
  seam := fun _ _ => 0
  seamPos := ⟨0, 0⟩
  length := fun _ => 0
  nearby := fun _ => []
  hashOrder := fun l => l
  precompute := true
  detectLoops := true
  preferLongest := false
  reverse := false
  group := false

theorem demo_sane : demo.Sane := by
  refine ⟨?_, fun l => .refl l, by simp [demo], by simp [demo, InRange],
    by simp [demo, InRange], by simp [demo], by simp [demo]⟩
  intro i p pos _ hne
  exact List.length_pos_iff.2 hne

/-- **C29.** Without order requirements every added path comes out exactly once, whatever the geometry
decides; an open path is printed from one of its ends to the other, a closed one from one of its
vertices. This holds for the reversed order as well. -/
theorem C29_free (hs : env.Sane) (fuel : Nat) :
    ∃ out, optimize env [] fuel = .ok out ∧ EachOnce env out ∧
      ∀ o ∈ out, GoodStart env.detected o := by
  unfold optimize
  by_cases h0 : env.paths = []
  · rw [if_pos h0]
    exact ⟨[], rfl, by unfold EachOnce; rw [h0]; simp, by simp⟩
  · rw [if_neg h0]
    dsimp only
    rw [if_pos rfl]
    have hd := detected_sane hs
    obtain ⟨out, e, hl, hn, ho⟩ := freeLoop_ok hd env.detected.paths.length hd.startPoint (order := [])
      (initial_wf hd) (by simp) (by simp) (by simp)
    rw [e]
    have once : ∀ l : List Out, l.length = env.detected.paths.length → (l.map (·.idx)).Nodup →
        (∀ o ∈ l, o.idx < env.detected.paths.length) → EachOnce env l := by
      intro l h1 h2 h3
      unfold EachOnce
      rw [detected_length] at h1 h3
      have hsub : ∀ i ∈ l.map (·.idx), i ∈ List.range env.paths.length := by
        intro i hi
        obtain ⟨o, h1, rfl⟩ := List.mem_map.1 hi
        exact List.mem_range.2 (h3 o h1)
      apply (h2.subperm hsub).perm_of_length_le
      rw [List.length_range, List.length_map]
      omega
    simp only [Outcome.bind_ok]
    split_ifs with hr
    · obtain ⟨out', e', f'⟩ := mapM_ok (reverseOut env.detected)
        (fun o o' => o'.idx = o.idx ∧ GoodStart env.detected o') out.reverse (fun o h => by
          obtain ⟨h1, h2⟩ := ho o (List.mem_reverse.1 h)
          obtain ⟨o', k1, k2, -, k4⟩ := reverseOut_ok hd h1 h2
          exact ⟨o', k1, k2, k4⟩)
      have hidx : out'.map (·.idx) = (out.map (·.idx)).reverse := by
        rw [← List.map_reverse]
        clear e' e hl hn ho
        generalize out.reverse = r at f' ⊢
        induction f' with
        | nil => rfl
        | cons h _ ih => simp only [List.map_cons, h.1, ih]
      refine ⟨out', e', ?_, ?_⟩
      · apply once
        · rw [← f'.length_eq, List.length_reverse, hl]
        · rw [hidx, List.nodup_reverse]; exact hn
        · intro o ho'
          have : o.idx ∈ out'.map (·.idx) := List.mem_map.2 ⟨o, ho', rfl⟩
          rw [hidx, List.mem_reverse] at this
          obtain ⟨o2, h2, h3⟩ := List.mem_map.1 this
          rw [← h3]
          exact (ho o2 h2).1
      · intro o ho'
        clear e' hidx
        generalize out.reverse = r at f'
        induction f' with
        | nil => simp at ho'
        | cons h _ ih =>
          rcases List.mem_cons.1 ho' with rfl | h'
          · exact h.2
          · exact ih h'
    · exact ⟨out, rfl, once out hl hn (fun o h => (ho o h).1), fun o h => (ho o h).2⟩

/-- **C29.** Reversing gives the same paths in the opposite order, each in the opposite direction. -/
theorem C29_reverse (hs : env.Sane) (fuel : Nat) :
    ∃ a b, optimize { env with reverse := false } [] fuel = .ok a ∧
      optimize { env with reverse := true } [] fuel = .ok b ∧
      b.map (fun o => (o.idx, o.backwards)) = a.reverse.map (fun o => (o.idx, !o.backwards)) := by
  have hs0 : Env.Sane { env with reverse := false } :=
    ⟨hs.seam, hs.hash, hs.near, hs.startPoint, hs.points, hs.size, hs.comb⟩
  unfold optimize
  by_cases h0 : env.paths = []
  · exact ⟨[], [], by rw [if_pos h0], by rw [if_pos h0], rfl⟩
  · rw [if_neg h0, if_neg h0]
    dsimp only
    rw [if_pos rfl, if_pos rfl]
    have hd := detected_sane hs0
    obtain ⟨out, e, hl, hn, ho⟩ := freeLoop_ok hd env.detected.paths.length hd.startPoint (order := [])
      (initial_wf hd) (by simp [Env.detected]) (by simp) (by simp)
    have loopEq : ∀ (n : Nat) (pos : Pt) (order : List Out) (st : St),
        freeLoop (Env.detected { env with reverse := true }) n pos order st =
          freeLoop (Env.detected { env with reverse := false }) n pos order st := by
      intro n
      induction n with
      | zero => intro pos order st; rfl
      | succ n ih =>
        intro pos order st
        have hb : ∀ c, findBest (Env.detected { env with reverse := true }) pos c st =
            findBest (Env.detected { env with reverse := false }) pos c st := by
          intro c
          have hlg : findLongest (Env.detected { env with reverse := true }) c =
              findLongest (Env.detected { env with reverse := false }) c := by
            induction c with
            | nil => rfl
            | cons a c ihc => unfold findLongest; rw [ihc]; rfl
          unfold findBest
          rw [hlg]
          rfl
        have ha : ∀ l, available (Env.detected { env with reverse := true }) pos l =
            available (Env.detected { env with reverse := false }) pos l := fun l => rfl
        have hp : ∀ i, Env.path (Env.detected { env with reverse := true }) i =
            Env.path (Env.detected { env with reverse := false }) i := fun i => rfl
        have hl : (Env.detected { env with reverse := true }).paths =
          (Env.detected { env with reverse := false }).paths := rfl
        rw [freeLoop, freeLoop]
        simp only [ih, hb, ha, hp, hl]
    obtain ⟨out', e', f'⟩ := mapM_ok (reverseOut (Env.detected { env with reverse := false }))
      (fun o o' => o'.idx = o.idx ∧ o'.backwards = !o.backwards) out.reverse (fun o h => by
        obtain ⟨h1, h2⟩ := ho o (List.mem_reverse.1 h)
        obtain ⟨o', k1, k2, k3, -⟩ := reverseOut_ok hd h1 h2
        exact ⟨o', k1, k2, k3⟩)
    refine ⟨out, out', ?_, ?_, ?_⟩
    · have : (freeLoop (Env.detected { env with reverse := false })
          (Env.detected { env with reverse := false }).paths.length
          (Env.detected { env with reverse := false }).startPoint []
          (initialState (Env.detected { env with reverse := false }))) = .ok out := e
      rw [this]
      rfl
    · rw [loopEq]
      have : (freeLoop (Env.detected { env with reverse := false })
          (Env.detected { env with reverse := true }).paths.length
          (Env.detected { env with reverse := true }).startPoint []
          (initialState (Env.detected { env with reverse := true }))) = .ok out := e
      rw [this]
      exact e'
    · clear e' e loopEq hl hn ho
      generalize out.reverse = r at f' ⊢
      induction f' with
      | nil => rfl
      | cons h _ ih => simp only [List.map_cons, h.1, h.2, ih]

example : optimize demo [] 0 = .ok [⟨1, 2, true⟩, ⟨2, 0, false⟩, ⟨0, 0, false⟩] ∧
    optimize { demo with reverse := true } [] 0 = .ok [⟨0, 0, true⟩, ⟨2, 1, true⟩, ⟨1, 0, false⟩] := by
  decide +kernel

/-- **C29.** With order requirements that contain no cycle, every path comes out exactly once and every
requirement is met, with and without grouping of the outer walls, in both directions and for every
choice that the geometry makes. The depth of the search is at most the number of paths. -/
theorem C29_required (hs : env.Sane) (hne : ∀ p ∈ env.paths, p.points ≠ []) (hab : About env edges)
    (hac : Acyclic edges) (fuel : Nat) (hf : env.paths.length < fuel) :
    ∃ out, optimize env edges fuel = .ok out ∧ EachOnce env out ∧ Respects edges (env.printed out) ∧
      ∀ o ∈ out, GoodStart env.detected o := by
  by_cases he : edges = []
  · subst he
    obtain ⟨out, h1, h2, h3⟩ := C29_free hs fuel
    exact ⟨out, h1, h2, by intro u v h; simp at h, h3⟩
  · have h0 : env.paths ≠ [] := by
      intro h
      obtain ⟨e, he'⟩ := List.exists_mem_of_ne_nil _ he
      have := (hab.2 e he').1
      rw [h] at this
      simp at this
    have hd := detected_sane hs
    have hab' : About env.detected edges := by unfold About; rw [detected_ids]; exact hab
    have hne' : NonEmptyPaths env.detected := by
      intro p hp
      obtain ⟨q, hq, rfl⟩ := List.mem_map.1 hp
      rw [detect_points]
      exact hne q hq
    obtain ⟨out, e, fin⟩ := constrained_ok hd hne' hab' hac (fuel := fuel)
      (by rw [detected_length]; exact hf) (initial_wf hd)
    refine ⟨out, ?_, ?_, ?_, fun o ho => (fin.outs o ho).2⟩
    · unfold optimize
      rw [if_neg h0]
      dsimp only
      rw [if_neg he]
      exact e
    · apply eachOnce_of_printed (fun o ho => by rw [← detected_length]; exact (fin.outs o ho).1) hab.1
      rw [← detected_printed, ← detected_ids]
      exact fin.perm
    · rw [← detected_printed]
      exact fin.respects

/-- **C29.** Grouping: if outer walls are to be grouped, those paths that nothing has to precede come first;
in the reversed case those that precede nothing come last. -/
theorem C29_grouped (hs : env.Sane) (hne : ∀ p ∈ env.paths, p.points ≠ []) (hab : About env edges)
    (hac : Acyclic edges) (fuel : Nat) (hf : env.paths.length < fuel) (he : edges ≠ [])
    (hg : env.group = true) :
    ∃ out l₁ l₂, optimize env edges fuel = .ok out ∧ env.printed out = l₁ ++ l₂ ∧
      (env.reverse = false → ∀ v, v ∈ l₁ ↔ v ∈ env.paths.map (·.id) ∧ ∀ u, (u, v) ∉ edges) ∧
      (env.reverse = true → ∀ v, v ∈ l₂ ↔ v ∈ env.paths.map (·.id) ∧ ∀ w, (v, w) ∉ edges) := by
  have h0 : env.paths ≠ [] := by
    intro h
    obtain ⟨e, he'⟩ := List.exists_mem_of_ne_nil _ he
    have := (hab.2 e he').1
    rw [h] at this
    simp at this
  have hd := detected_sane hs
  have hab' : About env.detected edges := by unfold About; rw [detected_ids]; exact hab
  have hne' : NonEmptyPaths env.detected := by
    intro p hp
    obtain ⟨q, hq, rfl⟩ := List.mem_map.1 hp
    rw [detect_points]
    exact hne q hq
  obtain ⟨out, e, fin⟩ := constrained_ok hd hne' hab' hac (fuel := fuel)
    (by rw [detected_length]; exact hf) (initial_wf hd)
  have hopt : optimize env edges fuel = .ok out := by
    unfold optimize
    rw [if_neg h0]
    dsimp only
    rw [if_neg he]
    exact e
  have hroots : ∀ v, v ∈ rootsOf env.detected edges ↔
      v ∈ env.paths.map (·.id) ∧ ∀ u, (u, v) ∉ edges := by
    intro v
    rw [mem_roots, detected_ids]
    constructor
    · rintro ⟨h1, h2⟩
      exact ⟨h1, fun u hu => h2 _ hu rfl⟩
    · rintro ⟨h1, h2⟩
      refine ⟨h1, ?_⟩
      rintro ⟨a, b⟩ he' rfl
      exact h2 a he'
  have hleaves : ∀ v, v ∈ leavesOf env.detected edges ↔
      v ∈ env.paths.map (·.id) ∧ ∀ w, (v, w) ∉ edges := by
    intro v
    rw [mem_leaves, detected_ids]
    constructor
    · rintro ⟨h1, h2⟩
      exact ⟨h1, fun u hu => h2 _ hu rfl⟩
    · rintro ⟨h1, h2⟩
      refine ⟨h1, ?_⟩
      rintro ⟨a, b⟩ he' rfl
      exact h2 b he'
  cases hr : env.reverse with
  | false =>
    obtain ⟨l₁, l₂, h1, h2⟩ := fin.first hg hr
    rw [detected_printed] at h1
    exact ⟨out, l₁, l₂, hopt, h1, fun _ v => by rw [h2.mem_iff, hroots], by simp⟩
  | true =>
    obtain ⟨l₁, l₂, h1, h2⟩ := fin.last hg hr
    rw [detected_printed] at h1
    exact ⟨out, l₁, l₂, hopt, h1, by simp, fun _ v => by rw [h2.mem_iff, hleaves]⟩

/-- The line 30 must come after the square 10, which must come after the line 20. -/
example : About demo [(10, 30), (20, 10)] ∧ Acyclic [(10, 30), (20, 10)] ∧
    optimize demo [(10, 30), (20, 10)] 4 = .ok [⟨1, 2, true⟩, ⟨0, 0, false⟩, ⟨2, 1, true⟩] ∧
    optimize { demo with group := true } [(10, 30)] 4 =
      .ok [⟨1, 2, true⟩, ⟨0, 0, false⟩, ⟨2, 1, true⟩] ∧
    optimize { demo with group := true, reverse := true } [(10, 30)] 4 =
      .ok [⟨0, 0, false⟩, ⟨2, 1, true⟩, ⟨1, 0, false⟩] := by
  refine ⟨by simp [About, demo], ?_, by decide +kernel, by decide +kernel, by decide +kernel⟩
  intro v hv
  have key : ∀ a b, Relation.TransGen (fun a b => (a, b) ∈ [(10, 30), (20, 10)]) a b →
      (b = 30 ∧ (a = 10 ∨ a = 20)) ∨ (b = 10 ∧ a = 20) := by
    intro a b h
    induction h with
    | single h => simp at h; omega
    | tail _ h ih => simp at h; omega
  have := key v v hv
  omega

/-- **C29.** The next path is a nearest one: by the direct distance (no combing), no candidate has an end (or,
for a closed path, a seam) that is nearer to the nozzle than the place where the chosen path starts. -/
theorem C29_nearest (hs : env.Sane) (hcomb : env.combing = none) {pos : Pt} (hpos : InRange pos) {st : St}
    (hw : ∀ i, GoodStart env ⟨i, st.start i, st.back i⟩) {cands : List Nat} (hc : ∀ i ∈ cands, i < env.paths.length)
    (hnd : cands.Nodup) (hne : cands ≠ [])
    (hpts : ∀ i ∈ cands, ∀ p, env.paths[i]? = some p → p.points ≠ []) :
    ∃ b st' p q, findClosest env pos cands st = .ok (some b, st') ∧ b ∈ cands ∧ env.paths[b]? = some p ∧
      p.points[st'.start b]? = some q ∧ Entry env pos st b q ∧
      ∀ j ∈ cands, ∀ e, Entry env pos st j e → direct pos q ≤ direct pos e := by
  have h0 : Closest env st cands (COORD_MAX, none, st) :=
    ⟨hw, rfl, le_rfl, fun h => absurd h (lt_irrefl _), fun b hb => by cases hb⟩
  obtain ⟨acc, e, c, n⟩ := near_fold hs hcomb hpos hc hpts cands [] (COORD_MAX, none, st) rfl hnd h0
    ⟨fun j _ => rfl, fun j hj => by simp at hj, fun b hb => by cases hb⟩
  obtain ⟨b, st', hb, -, -⟩ := findClosest_ok hs hpos hw hc hne
  have hb' := hb
  unfold findClosest at hb'
  rw [e] at hb'
  simp only [Outcome.bind_ok] at hb'
  have h2 := Outcome.ok.inj hb'
  have h3 : acc.2.1 = some b := congrArg Prod.fst h2
  have h4 : acc.2.2 = st' := congrArg Prod.snd h2
  obtain ⟨b1, p, q, b2, b3, b4, b5⟩ := n.best b h3
  rw [h4] at b3
  refine ⟨b, st', p, q, hb, b1, b2, b3, b4, ?_⟩
  intro j hj e' he'
  rw [← b5]
  exact n.least j hj e' he'

/-- **C29.** Starting with the longest path: the first path is one that no other path exceeds in length, and it
starts where it was set up to start. -/
theorem C29_longest {pos : Pt} {st : St} (hl : st.longest = true) {cands : List Nat} (hne : cands ≠ []) :
    ∃ b, findBest env pos cands st = .ok (some b, { st with longest := false }) ∧ b ∈ cands ∧
      ∀ j ∈ cands, env.length j ≤ env.length b := by
  obtain ⟨b, hb, hm⟩ := findLongest_ok env hne
  refine ⟨b, by unfold findBest; rw [if_pos hl, hb], hm, ?_⟩
  clear hm hne
  induction cands generalizing b with
  | nil => simp
  | cons i l ih =>
    unfold findLongest at hb
    cases h : findLongest env l with
    | none =>
      have : l = [] := by
        by_contra hl'
        obtain ⟨b', h1, -⟩ := findLongest_ok env hl'
        rw [h] at h1
        cases h1
      rw [h] at hb
      obtain rfl := Option.some.inj hb
      subst this
      simp
    | some j =>
      rw [h] at hb
      dsimp only at hb
      have := ih j h
      split_ifs at hb with hlt
      · obtain rfl := Option.some.inj hb
        intro k hk
        rcases List.mem_cons.1 hk with rfl | hk
        · exact hlt.le
        · exact this k hk
      · obtain rfl := Option.some.inj hb
        intro k hk
        rcases List.mem_cons.1 hk with rfl | hk
        · exact le_rfl
        · exact (this k hk).trans (not_lt.1 hlt)

/-- **C29.** The same for the first path of a result without requirements, reversal or grid: it is a longest one
if that was asked for, and otherwise starts nearest to the start position. -/
theorem C29_first (hs : env.Sane) (h0 : env.paths ≠ []) (hne : ∀ p ∈ env.paths, p.points ≠ [])
    (hnear : ∀ pos, env.nearby pos = []) (hr : env.reverse = false) (fuel : Nat) :
    ∃ o rest, optimize env [] fuel = .ok (o :: rest) ∧ o.idx < env.paths.length ∧
      (env.preferLongest = true → ∀ j < env.paths.length, env.length j ≤ env.length o.idx) ∧
      (env.preferLongest = false → env.combing = none → ∃ p q, env.paths[o.idx]? = some p ∧
        p.points[o.start]? = some q ∧ ∀ j < env.paths.length, ∀ e,
          Entry env.detected env.startPoint (initialState env.detected) j e →
            direct env.startPoint q ≤ direct env.startPoint e) := by
  have hd := detected_sane hs
  have hlen := detected_length (env := env)
  have hpos : 0 < env.paths.length := List.length_pos_iff.2 h0
  obtain ⟨out, e, hl, -, -⟩ := freeLoop_ok hd env.detected.paths.length hd.startPoint (order := [])
    (initial_wf hd) (by simp) (by simp) (by simp)
  have hopt : optimize env [] fuel = .ok out := by
    unfold optimize
    rw [if_neg h0]
    dsimp only
    rw [if_pos rfl, e]
    simp only [Outcome.bind_ok]
    rw [if_neg (by show ¬ env.reverse = true; rw [hr]; simp)]
  have hav : available env.detected env.detected.startPoint [] = List.range env.paths.length := by
    unfold available
    have : env.detected.nearby = env.nearby := rfl
    rw [this, hnear, hlen]
    simp
  have hpts : ∀ i ∈ List.range env.paths.length, ∀ p, env.detected.paths[i]? = some p → p.points ≠ [] := by
    intro i _ p hp
    obtain ⟨q, hq, rfl⟩ := List.mem_map.1 (List.mem_of_getElem? hp)
    rw [detect_points]
    exact hne q hq
  have hrange : ∀ i ∈ List.range env.paths.length, i < env.detected.paths.length := by
    intro i hi
    rw [hlen]
    exact List.mem_range.1 hi
  have hrne : List.range env.paths.length ≠ [] := by
    intro h
    have := congrArg List.length h
    rw [List.length_range] at this
    exact hpos.ne' this
  obtain ⟨i, st', e1, e2, e3⟩ := findBest_ok hd hd.startPoint (initial_wf hd) hrange hrne
  have hi := List.mem_range.1 e2
  obtain ⟨p, hp⟩ : ∃ p, env.detected.paths[i]? = some p := ⟨_, List.getElem?_eq_getElem (hrange i e2)⟩
  have hpn := hpts i e2 p hp
  have hstep := e
  rw [hlen] at hstep
  obtain ⟨n, hn⟩ : ∃ n, env.paths.length = n + 1 := ⟨env.paths.length - 1, by omega⟩
  have hout : ∃ rest, out = ⟨i, st'.start i, st'.back i⟩ :: rest := by
    rw [hn, freeLoop, if_pos (by rw [hlen]; simpa using hpos)] at hstep
    simp only [List.map_nil, hav, e1, Outcome.bind_ok, path_ok hp, List.nil_append] at hstep
    rw [if_neg hpn] at hstep
    obtain ⟨q, hq, -⟩ := endPosition_ok hd hp hpn e3
    rw [hq] at hstep
    simp only [Outcome.bind_ok] at hstep
    obtain ⟨rest, hrest⟩ := freeLoop_prefix hstep
    exact ⟨rest, hrest.symm⟩
  obtain ⟨rest, rfl⟩ := hout
  refine ⟨_, rest, hopt, hi, ?_, ?_⟩
  · intro hlg j hj
    obtain ⟨b, k1, -, k3⟩ := C29_longest (env := env.detected) (pos := env.detected.startPoint)
      (st := initialState env.detected) hlg hrne
    rw [e1] at k1
    have : i = b := by
      have := congrArg Prod.fst (Outcome.ok.inj k1)
      exact Option.some.inj this
    rw [this]
    exact k3 j (List.mem_range.2 hj)
  · intro hlg hcomb
    obtain ⟨b, st2, p', q, k1, -, k3, k4, -, k6⟩ := C29_nearest (env := env.detected) hd hcomb hd.startPoint
      (initial_wf hd) hrange List.nodup_range hrne hpts
    have hf : findBest env.detected env.detected.startPoint (List.range env.paths.length)
        (initialState env.detected) = findClosest env.detected env.detected.startPoint
          (List.range env.paths.length) (initialState env.detected) := by
      unfold findBest
      rw [if_neg (by show ¬ env.preferLongest = true; rw [hlg]; simp)]
    rw [hf, k1] at e1
    have h1 := Outcome.ok.inj e1
    have h2 : b = i := Option.some.inj (congrArg Prod.fst h1)
    have h3 : st2 = st' := congrArg Prod.snd h1
    subst h2 h3
    obtain ⟨p0, hp0, hp1⟩ : ∃ p0, env.paths[b]? = some p0 ∧ detect env p0 = p' := by
      have : env.detected.paths[b]? = (env.paths[b]?).map (detect env) := by
        unfold Env.detected
        simp
      rw [this] at k3
      exact Option.map_eq_some_iff.1 k3
    refine ⟨p0, q, hp0, ?_, fun j hj e he => k6 j (List.mem_range.2 hj) e he⟩
    rw [← hp1, detect_points] at k4
    exact k4

example : (findClosest demo ⟨2000, 0⟩ [0, 1, 2] ⟨fun _ => 0, fun _ => false, false⟩).bind
      (fun r => .ok (r.1, r.2.start 1, r.2.back 1)) = .ok (some 1, 0, false) ∧
    (findClosest demo ⟨4000, 4000⟩ [0, 1, 2] ⟨fun _ => 0, fun _ => false, false⟩).bind
      (fun r => .ok (r.1, r.2.start 2, r.2.back 2)) = .ok (some 2, 1, true) ∧
    (findBest { demo with length := fun i => i % 2 } ⟨0, 0⟩ [0, 1, 2] ⟨fun _ => 0, fun _ => false, true⟩).bind
      (fun r => .ok r.1) = .ok (some 1) := by decide +kernel

/-- **C29.** Which paths count as closed: those added as closed and, if detection was asked for, those whose
ends are less than 10 units apart. -/
theorem C29_loops (i : Nat) (p : PathIn) (hp : env.paths[i]? = some p) :
    ∃ p', env.detected.paths[i]? = some p' ∧ p'.points = p.points ∧
      (p'.closed = true ↔ p.closed = true ∨ (env.detectLoops = true ∧ ∃ f b, p.points.head? = some f ∧
        p.points.getLast? = some b ∧ (b.x - f.x) ^ 2 + (b.y - f.y) ^ 2 < 10 ^ 2)) := by
  refine ⟨detect env p, by unfold Env.detected; simp [hp], detect_points env p, ?_⟩
  unfold detect isLooping direct
  cases hc : p.closed <;> cases hd : env.detectLoops <;> simp
  · exact hc
  · cases h1 : p.points.head? <;> cases h2 : p.points.getLast? <;> simp [sq]
  · exact hc
  · exact hc

/-- Ends 7 apart are joined, ends exactly 10 apart are not. -/
example : ((Env.detected { demo with paths := [⟨1, [⟨0, 0⟩, ⟨500, 0⟩, ⟨0, 7⟩], false, false⟩,
    ⟨2, [⟨0, 0⟩, ⟨500, 0⟩, ⟨0, 10⟩], false, false⟩] }).paths.map (·.closed)) = [true, false] := by
  decide +kernel

/-- **C29**, the condition that there is no cycle is needed: the paths on a cycle and those behind it are left
out without a word. -/
theorem C29_cycle_drops_paths :
    optimize demo [(10, 30), (30, 10)] 4 = .ok [⟨1, 2, true⟩] := by decide +kernel

/-- **C29**, the condition that the requirements are about the added paths is needed: a successor that was not
added is undefined behaviour, and everything behind a predecessor that was not added is left out. -/
theorem C29_unknown_path :
    optimize demo [(10, 99)] 4 = .ub ∧ optimize demo [(99, 10), (10, 30)] 4 = .ok [⟨1, 2, true⟩] := by
  decide +kernel

/-- **C29**, the condition that all paths have vertices is needed with requirements: an empty path is
undefined behaviour, while it is put at the end without requirements. -/
theorem C29_empty_path :
    optimize { demo with paths := [⟨10, [], true, false⟩, ⟨20, [⟨5, 5⟩, ⟨9, 9⟩], false, false⟩] } [(20, 10)] 4 = .ub ∧
    optimize { demo with paths := [⟨10, [], true, false⟩, ⟨20, [⟨5, 5⟩, ⟨9, 9⟩], false, false⟩] } [] 4 =
      .ok [⟨1, 0, false⟩, ⟨0, 0, false⟩] := by
  decide +kernel

end Verif.Order
