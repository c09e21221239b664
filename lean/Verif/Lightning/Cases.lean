import Verif.Lightning.Props
import Mathlib.Data.Nat.Sqrt
import Mathlib.Tactic.SplitIfs

/-! # Cases of C113, C114 and C115 -/

namespace Verif.Lightning

/-- A strip from `lo` to `hi`. -/
def strip (lo hi : Int) : Env Int Int where
  closest x := if x < (lo + hi) / 2 then lo else hi
  dist a b := (a - b).natAbs
  dist2 a b := (a - b) * (a - b)
  collides a b := decide (a < lo ∨ hi < a ∨ b < lo ∨ hi < b)
  crossing a b := if lo ≤ a ∧ a ≤ hi ∧ b < lo then some lo else if lo ≤ a ∧ a ≤ hi ∧ hi < b then some hi else none
  inside x := decide (lo ≤ x ∧ x ≤ hi)
  empty := false
  nearby loc u d := (loc.filter fun e => decide ((e.1 - u).natAbs ≤ d)).map (·.2)
  cell x := x.tdiv 5
  cells _ leaf := [leaf.tdiv 5 - 1, leaf.tdiv 5, leaf.tdiv 5 + 1]
  short a b := decide ((a - b).natAbs ≤ 30)
  radius := 30
  wallRadius := 40
  along b a d := if a < b then b - d else b + d

/-- Nodes are moved by at most 4. -/
def demoSmooth : Smooth Int where
  dest a b n m := a + (b - a) * n / m
  toward p q := if (q - p).natAbs < 4 then q else if p < q then p + 4 else p - 4
  close q p c := decide (min q c ≤ p ∧ p ≤ max q c ∧ (q - c).natAbs < 60)
  push p _ := p
  near d := decide (d < 4)

def demoLayers : List (Layer Int Int) := [⟨strip 0 1000, [400, 405, 500, 600]⟩, ⟨strip 0 1100, [300]⟩, ⟨strip 450 1200, []⟩]

theorem demo_smooth : demoSmooth.Ok fun a b => (a - b).natAbs ≤ 4 := by
  refine ⟨fun p => by simp, fun p q => ?_, fun p ds => by simp [demoSmooth], fun p => by simp [demoSmooth], fun a b m => by simp [demoSmooth]⟩
  simp only [demoSmooth]
  split_ifs <;> omega

theorem strip_outline (lo hi : Int) : Outline (strip lo hi) fun x => x = lo ∨ x = hi := by
  refine ⟨fun x => ?_, fun x y z h => ?_⟩
  · simp only [strip]
    split_ifs
    · exact Or.inl rfl
    · exact Or.inr rfl
  · simp only [strip] at h
    split_ifs at h
    · exact Or.inl (Option.some.inj h).symm
    · exact Or.inr (Option.some.inj h).symm

theorem demo_ok : ∀ l ∈ demoLayers, l.Ok := by
  intro l hl
  simp only [demoLayers, List.mem_cons, List.not_mem_nil, or_false] at hl
  rcases hl with rfl | rfl | rfl
  · exact ⟨by decide, fun node u _ => by simp [strip], fun u => by simp [strip]⟩
  · exact ⟨by decide, fun node u _ => by simp [strip], fun u => by simp [strip]⟩
  · exact ⟨by decide, fun node u _ => by simp [strip], fun u => by simp [strip]⟩

/-- The layers fulfil the assumptions of C113; the trees have branches, which are connected from layer to layer. -/
example : (∀ l ∈ demoLayers, l.Ok ∧ ∃ on, Outline l.env on) ∧
    ((generate demoSmooth 20 demoLayers [] 0).map fun res => res.map nodesList) =
      some [[(0, 0), (1, 400), (2, 500), (3, 600)], [(0, 0), (1, 400), (2, 500), (3, 580), (4, 300)], [(5, 450), (2, 500), (3, 560)]] := by
  refine ⟨fun l hl => ⟨demo_ok l hl, ?_⟩, by decide +kernel⟩
  simp only [demoLayers, List.mem_cons, List.not_mem_nil, or_false] at hl
  rcases hl with rfl | rfl | rfl <;> exact ⟨_, strip_outline _ _⟩

/-- A tree with a fork. -/
def demoTree : Tree Int := .node 0 0 (some 0) [.node 1 100 none [.node 2 150 none [], .node 3 200 none [.node 4 210 none []]]]

example : (ids [demoTree]).Nodup ∧ (∀ i ∈ ids [demoTree], i < 5) ∧ demoTree.height (strip 0 1000).dist = 210 ∧
    ((demoTree.prune (strip 0 1000) 60).2.kids.map brief) = [(0, 1, 100), (1, 3, 150)] ∧
    demoTree.ends = [(2, 150), (4, 210)] ∧
    ((demoTree.straighten (strip 0 1000) demoSmooth none 0 0).2.nodes) = [(0, 0), (1, 100), (2, 150), (3, 200), (4, 210)] ∧
    ((propagate (strip 0 180) demoSmooth 5 demoTree).map Tree.nodes) = [[(0, 0), (1, 100), (2, 145)]] ∧
    (demoTree.lines (fun _ => 1)) = ([210, 200, 100, 0], [[150, 100]]) ∧
    demoTree.toLines (strip 0 1000).dist (strip 0 1000).along (fun _ => 1) 20 = [[210, 200, 100, 10], [150, 110]] ∧
    demoTree.toLines (strip 0 1000).dist (strip 0 1000).along (fun _ => 0) 222 = [[150, 111]] := by
  decide +kernel

example : ([⟨5, 10⟩, ⟨-5, 10⟩, ⟨0, 0⟩] : List Grid.Pt).Nodup ∧ ∀ u ∈ ([⟨5, 10⟩, ⟨-5, 10⟩, ⟨0, 0⟩] : List Grid.Pt), (5 : Int) ∣ u.x ∧ (5 : Int) ∣ u.y := by decide

/-! ## What does not hold -/

/-- If two points were in the same cell, trees would be added without end. The cell at zero is twice as large as the others. -/
theorem C113_same_cell_counterexample (n next : Nat) : newLoop (strip (-500) 500) n (Field.init (strip (-500) 500) [3, -3]) ⟨[], [], next⟩ = none := by
  have h : ∀ n st, newLoop (strip (-500) 500) n ⟨[-3], []⟩ st = none := by
    intro n
    induction n with
    | zero => intro st; simp [newLoop]
    | succ n ih =>
      intro st
      rw [newLoop]
      exact ih _
  cases n with
  | zero => simp [newLoop, Field.init]
  | succ n =>
    rw [newLoop]
    exact h n _

/-- A hole from (18, 10) to (22, 10). -/
def holed : Env (Int × Int) (Int × Int) where
  closest _ := (18, 10)
  dist a b := Nat.sqrt (((a.1 - b.1) * (a.1 - b.1) + (a.2 - b.2) * (a.2 - b.2)).toNat)
  dist2 a b := (a.1 - b.1) * (a.1 - b.1) + (a.2 - b.2) * (a.2 - b.2)
  collides a b := decide ((a.2 - 10) * (b.2 - 10) < 0) &&
    (let x := a.1 + ((b.1 - a.1) * (10 - a.2)).tdiv (b.2 - a.2); decide (18 ≤ x ∧ x ≤ 22))
  crossing _ _ := none
  inside _ := true
  empty := false
  nearby loc u d := (loc.filter fun e => decide ((e.1.1 - u.1) * (e.1.1 - u.1) + (e.1.2 - u.2) * (e.1.2 - u.2) ≤ d * d)).map (·.2)
  cell x := x
  cells _ _ := []
  short a b := decide (a = b)
  radius := 10
  wallRadius := 30
  along _ a _ := a

/-- When a tree from above is connected to another one, it is the line from its start that is checked against the outline, but another node may be connected. -/
theorem C113_reconnect_counterexample :
    ((reconnectOne holed 0 ⟨[.node 0 (0, 0) none [.node 1 (20, 19) none []], .node 2 (20, 0) none [.node 3 (40, 0) none []]],
        [((0, 0), 0), ((20, 19), 1), ((20, 0), 2), ((40, 0), 3)], 4⟩).map fun st => links st.forest) =
      some [(2, (20, 0), 3, (40, 0)), (2, (20, 0), 1, (20, 19)), (1, (20, 19), 0, (0, 0))] ∧
      holed.collides (0, 0) (20, 0) = false ∧ holed.collides (20, 19) (20, 0) = true := by
  decide +kernel

/-- The trees are to end at the infill walls, which take the number of walls times the width of a line. They are only as many micrometres away from the edge as
there are walls. -/
theorem C113_walls_counterexample : ∃ count width : Int, 0 < count ∧ 0 < width ∧ meshWallOffset count width ≠ -(count * width) := ⟨2, 400, by decide⟩

end Verif.Lightning
