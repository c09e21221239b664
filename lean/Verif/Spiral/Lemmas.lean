import Verif.Spiral.Spec
import Mathlib.Tactic.Ring
import Mathlib.Tactic.FieldSimp
import Mathlib.Tactic.Positivity
import Mathlib.Algebra.Order.Floor.Ring

/-! # Lemmas on writing spirals -/

namespace Verif.Spiral

variable {len : Pt → Pt → ℚ}

theorem total_eq (acc : ℚ) (p0 : Pt) (l : List Pt) : total len acc p0 l = acc + along len p0 l := by
  induction l generalizing acc p0 with
  | nil => simp [total, along]
  | cons p ps ih => simp only [total, along, ih]; ring

theorem along_nonneg (hlen : ∀ p q, 0 ≤ len p q) (p0 : Pt) (l : List Pt) : 0 ≤ along len p0 l := by
  induction l generalizing p0 with
  | nil => simp [along]
  | cons p ps ih => simp only [along]; have := hlen p0 p; have := ih p; linarith

theorem along_append (p0 : Pt) (l m : List Pt) : along len p0 (l ++ m) = along len p0 l + along len (l.getLast?.getD p0) m := by
  induction l generalizing p0 with
  | nil => simp [along]
  | cons p ps ih =>
    simp only [List.cons_append, along, ih]
    rcases List.eq_nil_or_concat ps with h | ⟨q, x, h⟩
    · subst h; simp [along]
    · subst h; simp [List.getLast?_cons]; ring

theorem along_take_mono (hlen : ∀ p q, 0 ≤ len p q) (p0 : Pt) (l : List Pt) {i j : Nat} (h : i ≤ j) :
    along len p0 (l.take i) ≤ along len p0 (l.take j) := by
  have e : l.take j = l.take i ++ (l.take j).drop i := by
    conv_lhs => rw [← List.take_append_drop i (l.take j)]
    rw [List.take_take, min_eq_left h]
  rw [e, along_append]
  have := along_nonneg hlen ((l.take i).getLast?.getD p0) ((l.take j).drop i)
  linarith

theorem along_take_le (hlen : ∀ p q, 0 ≤ len p q) (p0 : Pt) (l : List Pt) (i : Nat) : along len p0 (l.take i) ≤ along len p0 l := by
  conv_rhs => rw [← List.take_append_drop i l, along_append]
  have := along_nonneg hlen ((l.take i).getLast?.getD p0) (l.drop i)
  linarith

/-- A way without length stays where it is. -/
theorem along_zero (hlen : ∀ p q, 0 ≤ len p q) (heq : ∀ p q, len p q = 0 → p = q) (p0 : Pt) (l : List Pt) (h : along len p0 l = 0) :
    ∀ p ∈ l, p = p0 := by
  induction l generalizing p0 with
  | nil => simp
  | cons q qs ih =>
    simp only [along] at h
    have h1 := hlen p0 q
    have h2 := along_nonneg hlen q qs
    have e : p0 = q := heq _ _ (by linarith)
    intro p hp
    rcases List.mem_cons.mp hp with rfl | hp
    · exact e.symm
    · rw [e]; exact ih q (by linarith) p hp

/-! ## Rounding -/

theorem roundAway_nonneg {q : ℚ} (h : 0 ≤ q) : 0 ≤ roundAway q := by
  rw [roundAway, if_pos h]
  exact Int.floor_nonneg.mpr (by linarith)

theorem roundAway_mono {p q : ℚ} (h0 : 0 ≤ p) (h : p ≤ q) : roundAway p ≤ roundAway q := by
  rw [roundAway, if_pos h0, roundAway, if_pos (h0.trans h)]
  exact Int.floor_le_floor (by linarith)

theorem roundAway_int (t : Int) (h : 0 ≤ t) : roundAway (t : ℚ) = t := by
  rw [roundAway, if_pos (by exact_mod_cast h), Int.floor_eq_iff]
  constructor <;> norm_num

theorem roundAway_near {q : ℚ} (h : 0 ≤ q) : |(roundAway q : ℚ) - q| ≤ 1 / 2 := by
  rw [roundAway, if_pos h, abs_le]
  have h1 := Int.floor_le (q + 1 / 2)
  have h2 := Int.lt_floor_add_one (q + 1 / 2)
  constructor <;> linarith

theorem factor_one {z0 t z o : Int} (ht : 0 ≤ t) (hz : z0 ≤ z) (ho : 0 ≤ o) : factor z0 t z o = 1 := by
  have hc : ∀ a : ℚ, 0 ≤ a → clamp (1 + a) = 1 := by
    intro a ha
    rw [clamp, if_neg (by linarith)]
    split
    · rfl
    · linarith
  rw [factor]
  split
  · have ht' : (0 : ℚ) ≤ t := by exact_mod_cast ht
    rw [hc _ (div_nonneg (by exact_mod_cast (by omega : 0 ≤ z - z0)) ht'), hc _ (div_nonneg (by exact_mod_cast ho) ht')]
    norm_num
  · rfl

/-! ## Writing points one after the other -/

/-- A point with its height and the flow of the move to it. -/
structure Step where
  dst : Pt
  z : Int
  flow : ℚ

/-- What `spiralPaths` writes for points, each with its flow. -/
def spiralFlat (len : Pt → Pt → ℚ) (z0 t : Int) (all : ℚ) (atEnd : Bool) (r : Run) : List Step → Option (Run × List Out)
  | [] => some (r, [])
  | p :: ps =>
    (offset t all (r.length + len r.pos p.dst) atEnd).bind fun o =>
      (spiralFlat len z0 t all atEnd ⟨p.dst, r.length + len r.pos p.dst, p.z + z0 + o⟩ ps).map fun q =>
        (q.1, ⟨p.dst, p.z + z0 + o, some (p.flow * factor z0 t r.z o)⟩ :: q.2)

/-- The points of a path. -/
def Path.steps (p : Path) : List Step := p.points.map fun q => ⟨q.1, q.2, p.flow⟩

theorem spiralPoints_eq (z0 t : Int) (all : ℚ) (e : Bool) (flow : ℚ) (r : Run) (l : List (Pt × Int)) :
    spiralPoints len z0 t all e flow r l = spiralFlat len z0 t all e r (l.map fun q => ⟨q.1, q.2, flow⟩) := by
  induction l generalizing r with
  | nil => rfl
  | cons p ps ih => simp only [spiralPoints, List.map_cons, spiralFlat, ih]

theorem spiralFlat_append (z0 t : Int) (all : ℚ) (e : Bool) (r : Run) (l m : List Step) :
    spiralFlat len z0 t all e r (l ++ m) =
      (spiralFlat len z0 t all e r l).bind fun q => (spiralFlat len z0 t all e q.1 m).map fun s => (s.1, q.2 ++ s.2) := by
  induction l generalizing r with
  | nil => simp [spiralFlat]
  | cons p ps ih =>
    simp only [List.cons_append, spiralFlat, ih]
    cases offset t all (r.length + len r.pos p.dst) e with
    | none => rfl
    | some o =>
      simp only [Option.bind_some]
      cases spiralFlat len z0 t all e ⟨p.dst, r.length + len r.pos p.dst, p.z + z0 + o⟩ ps with
      | none => rfl
      | some q =>
        simp only [Option.bind_some, Option.map_some]
        cases spiralFlat len z0 t all e q.1 m with
        | none => rfl
        | some s => rfl

theorem spiralPaths_eq (z0 t : Int) (all : ℚ) (e : Bool) (r : Run) (ps : List Path) :
    spiralPaths len z0 t all e r ps = spiralFlat len z0 t all e r (ps.flatMap Path.steps) := by
  induction ps generalizing r with
  | nil => rfl
  | cons p ps ih =>
    rw [spiralPaths, List.flatMap_cons, spiralFlat_append, spiralPoints_eq]
    simp only [ih]
    rfl

/-- What is written on the way up. -/
theorem spiralFlat_up {z0 t : Int} {all : ℚ} {r r' : Run} {l : List Step} {out : List Out}
    (h : spiralFlat len z0 t all false r l = some (r', out)) :
    out.map Out.dst = l.map Step.dst ∧ r'.length = r.length + along len r.pos (l.map Step.dst) ∧
      r'.pos = (l.map Step.dst).getLast?.getD r.pos ∧ r'.z = (out.map Out.z).getLast?.getD r.z ∧ (l ≠ [] → all ≠ 0) ∧
      ∀ i (s : Step), l[i]? = some s → (out[i]?).map Out.z = some (s.z + z0 +
        roundAway ((t : ℚ) * (r.length + along len r.pos ((l.map Step.dst).take (i + 1))) / all)) := by
  induction l generalizing r out with
  | nil =>
    simp only [spiralFlat, Option.some.injEq, Prod.mk.injEq] at h
    obtain ⟨rfl, rfl⟩ := h
    simp [along]
  | cons p ps ih =>
    simp only [spiralFlat] at h
    by_cases ha : all = 0
    · simp [offset, ha] at h
    · simp only [offset, if_neg ha, Bool.false_eq_true, if_false, Option.bind_some, Option.map_eq_some_iff] at h
      obtain ⟨q, hq, e⟩ := h
      obtain ⟨rfl, rfl⟩ := Prod.mk.inj e
      obtain ⟨h1, h2, h3, h4, -, h5⟩ := ih hq
      refine ⟨by simp [h1], ?_, ?_, ?_, fun _ => ha, ?_⟩
      · rw [h2]; simp only [List.map_cons, along]; ring
      · rw [h3, List.map_cons, List.getLast?_cons]; rfl
      · rw [h4, List.map_cons, List.getLast?_cons]; rfl
      · intro i s hs
        cases i with
        | zero =>
          simp only [List.getElem?_cons_zero, Option.some.injEq] at hs
          subst hs
          simp [along]
        | succ i =>
          simp only [List.getElem?_cons_succ] at hs ⊢
          rw [h5 i s hs]
          simp only [List.map_cons, List.take_succ_cons, along]
          rw [add_assoc r.length]

/-- What is written at the end of the layer. -/
theorem spiralFlat_end {z0 t : Int} {all : ℚ} {r : Run} {l : List Step} :
    ∃ r' out, spiralFlat len z0 t all true r l = some (r', out) ∧ out.map Out.dst = l.map Step.dst ∧
      out.map Out.z = l.map (fun s => s.z + z0 + t.tdiv 2) ∧ r'.pos = (l.map Step.dst).getLast?.getD r.pos ∧
      r'.z = (out.map Out.z).getLast?.getD r.z := by
  induction l generalizing r with
  | nil => exact ⟨r, [], rfl, rfl, rfl, rfl, rfl⟩
  | cons p ps ih =>
    obtain ⟨r', out, h1, h2, h3, h4, h5⟩ := ih (r := ⟨p.dst, r.length + len r.pos p.dst, p.z + z0 + t.tdiv 2⟩)
    refine ⟨r', ⟨p.dst, p.z + z0 + t.tdiv 2, some (p.flow * factor z0 t r.z (t.tdiv 2))⟩ :: out, ?_, by simp [h2], by simp [h3], ?_, ?_⟩
    · simp only [spiralFlat, offset, if_true, Option.bind_some, h1, Option.map_some]
    · rw [h4, List.map_cons, List.getLast?_cons]; rfl
    · rw [h5, List.map_cons, List.getLast?_cons]; rfl

/-- Flows are not changed if nothing is below the layer. -/
theorem spiralFlat_flow {z0 t : Int} {all : ℚ} (hlen : ∀ p q, 0 ≤ len p q) (ht : 0 ≤ t) (hall : 0 ≤ all) {e : Bool} {r r' : Run} {l : List Step} {out : List Out}
    (hr : 0 ≤ r.length) (hz : z0 ≤ r.z) (hl : ∀ s ∈ l, 0 ≤ s.z)
    (h : spiralFlat len z0 t all e r l = some (r', out)) : out.map Out.flow = l.map (fun s => some s.flow) ∧ z0 ≤ r'.z := by
  induction l generalizing r out with
  | nil =>
    simp only [spiralFlat, Option.some.injEq, Prod.mk.injEq] at h
    obtain ⟨rfl, rfl⟩ := h
    exact ⟨rfl, hz⟩
  | cons p ps ih =>
    simp only [spiralFlat, Option.bind_eq_some_iff, Option.map_eq_some_iff] at h
    obtain ⟨o, ho, q, hq, e⟩ := h
    obtain ⟨rfl, rfl⟩ := Prod.mk.inj e
    have hp := hl p (by simp)
    have hn : 0 ≤ r.length + len r.pos p.dst := add_nonneg hr (hlen _ _)
    have ho0 : 0 ≤ o := by
      unfold offset at ho
      split at ho
      · cases ho; exact Int.tdiv_nonneg ht (by norm_num)
      · split at ho
        · exact absurd ho (by simp)
        · cases ho
          exact roundAway_nonneg (div_nonneg (mul_nonneg (by exact_mod_cast ht) hn) hall)
    obtain ⟨h1, h2⟩ := ih (r := ⟨p.dst, _, _⟩) hn (by show z0 ≤ p.z + z0 + o; omega) (fun s hs => hl s (by simp [hs])) hq
    exact ⟨by simp [h1, factor_one ht hz ho0], h2⟩

/-- It does not fail if there is a way. -/
theorem spiralFlat_isSome {z0 t : Int} {all : ℚ} (h : all ≠ 0) (e : Bool) (r : Run) (l : List Step) :
    ∃ q, spiralFlat len z0 t all e r l = some q := by
  induction l generalizing r with
  | nil => exact ⟨_, rfl⟩
  | cons p ps ih =>
    have : ∃ o, offset t all (r.length + len r.pos p.dst) e = some o := by
      unfold offset
      cases e with
      | true => exact ⟨_, rfl⟩
      | false => exact ⟨_, by rw [if_neg (by simp), if_neg h]⟩
    obtain ⟨o, ho⟩ := this
    obtain ⟨q, hq⟩ := ih ⟨p.dst, r.length + len r.pos p.dst, p.z + z0 + o⟩
    exact ⟨_, by rw [spiralFlat, ho, Option.bind_some, hq]; rfl⟩

/-! ## Gathering moves into paths -/

/-- A move as a step. -/
def Move.step (m : Move) : Step := ⟨m.dst, m.z, m.flow⟩

/-- Paths of a kind, the latest of them first, hold exactly the given moves. -/
structure Holds (spiral : Bool) (ps : List Path) (moves : List Move) : Prop where
  kind : ∀ p ∈ ps, p.travel = false ∧ p.spiral = spiral ∧ p.points ≠ []
  steps : ps.reverse.flatMap Path.steps = moves.map Move.step
  flow : ∀ p, ps.head? = some p → ∃ m, moves.getLast? = some m ∧ p.flow = m.flow

theorem Holds.nil (b : Bool) : Holds b [] [] := ⟨by simp, rfl, by simp⟩

theorem Holds.add {b : Bool} {ps base : List Path} {moves : List Move} {m : Move} (h : Holds b ps moves) (hm : m.spiral = b)
    (hbase : ps = [] → ∀ p, base.head? = some p → p.travel = true ∨ p.flow ≠ m.flow) :
    ∃ ps', Spiral.add (ps ++ base) m = ps' ++ base ∧ Holds b ps' (moves ++ [m]) ∧ ps' ≠ [] := by
  cases ps with
  | nil =>
    have e : moves = [] := by
      have := h.steps
      simpa using this.symm
    subst e
    refine ⟨[⟨false, m.spiral, m.flow, m.speed, [(m.dst, m.z)]⟩], ?_, ⟨by simp [hm], by simp [Path.steps, Move.step], by simp⟩, by simp⟩
    cases base with
    | nil => rfl
    | cons p ps =>
      have := hbase rfl p rfl
      dsimp only [List.nil_append, Spiral.add]
      rw [if_neg]
      · rfl
      · rcases this with h | h <;> simp [h]
  | cons p ps =>
    have hp := h.kind p (by simp)
    dsimp only [List.cons_append, Spiral.add]
    split
    · rename_i hc
      simp only [Bool.and_eq_true, decide_eq_true_eq] at hc
      refine ⟨{ p with points := p.points ++ [(m.dst, m.z)] } :: ps, rfl, ⟨?_, ?_, ?_⟩, by simp⟩
      · intro q hq
        rcases List.mem_cons.mp hq with rfl | hq
        · exact ⟨hp.1, hp.2.1, by simp⟩
        · exact h.kind q (by simp [hq])
      · have := h.steps
        simp only [List.reverse_cons, List.flatMap_append, List.flatMap_cons, List.flatMap_nil, List.append_nil, List.map_append, List.map_cons,
          List.map_nil] at this ⊢
        rw [← this]
        simp [Path.steps, Move.step, hc.1.2]
      · intro q hq
        simp only [List.head?_cons, Option.some.injEq] at hq
        subst hq
        exact ⟨m, by simp, hc.1.2⟩
    · refine ⟨⟨false, m.spiral, m.flow, m.speed, [(m.dst, m.z)]⟩ :: p :: ps, rfl, ⟨?_, ?_, ?_⟩, by simp⟩
      · intro q hq
        rcases List.mem_cons.mp hq with rfl | hq
        · exact ⟨rfl, hm, by simp⟩
        · exact h.kind q hq
      · have := h.steps
        simp only [List.reverse_cons, List.flatMap_append, List.flatMap_cons, List.flatMap_nil, List.append_nil, List.map_append, List.map_cons,
          List.map_nil] at this ⊢
        rw [← this]
        simp [Path.steps, Move.step]
      · intro q hq
        simp only [List.head?_cons, Option.some.injEq] at hq
        subst hq
        exact ⟨m, by simp, rfl⟩

/-- Moves of a kind make paths of that kind, if the path before is not continued. -/
theorem Holds.foldl {b : Bool} {base : List Path} {moves : List Move} (hm : ∀ m ∈ moves, m.spiral = b)
    (hbase : ∀ m, moves.head? = some m → ∀ p, base.head? = some p → p.travel = true ∨ p.flow ≠ m.flow) :
    ∃ ps, moves.foldl Spiral.add base = ps ++ base ∧ Holds b ps moves := by
  have main : ∀ (l : List Move) (done : List Move) (ps : List Path), (∀ m ∈ l, m.spiral = b) → Holds b ps done →
      (ps = [] → ∀ m, l.head? = some m → ∀ p, base.head? = some p → p.travel = true ∨ p.flow ≠ m.flow) →
      ∃ ps', l.foldl Spiral.add (ps ++ base) = ps' ++ base ∧ Holds b ps' (done ++ l) := by
    intro l
    induction l with
    | nil => intro done ps _ h _; exact ⟨ps, rfl, by simpa using h⟩
    | cons m l ih =>
      intro done ps hl h hb
      obtain ⟨ps', h1, h2, h3⟩ := Holds.add h (hl m (by simp)) (fun hp p he => hb hp m rfl p he)
      obtain ⟨ps'', h4, h5⟩ := ih (done ++ [m]) ps' (fun q hq => hl q (by simp [hq])) h2 (fun hp => absurd hp h3)
      exact ⟨ps'', by rw [List.foldl_cons, h1, h4], by simpa using h5⟩
  obtain ⟨ps, h1, h2⟩ := main moves [] [] hm (Holds.nil b) (fun _ => hbase)
  exact ⟨ps, by simpa using h1, by simpa using h2⟩

end Verif.Spiral
