import Verif.Slicer.StitchSpec
import Verif.Slicer.LoopLemmas
import Mathlib.Data.List.Flatten
import Mathlib.Tactic.Ring

/-! # Lemmas on stitching -/

namespace Verif.Slicer

theorem term_lineOf (i : Nat) (e : Bool) : lineOf (term i e) = i := by unfold lineOf term; cases e <;> (simp; try omega)
theorem term_isEnd (i : Nat) (e : Bool) : isEnd (term i e) = e := by unfold isEnd term; cases e <;> simp
theorem term_eta (t : Nat) : term (lineOf t) (isEnd t) = t := by
  unfold term lineOf isEnd
  by_cases h : t % 2 = 1
  · simp [h]; omega
  · simp [h]; omega
theorem term_inj {i j : Nat} {e f : Bool} : term i e = term j f ↔ i = j ∧ e = f := by
  constructor
  · intro h
    refine ⟨?_, ?_⟩
    · have := congrArg lineOf h; rwa [term_lineOf, term_lineOf] at this
    · have := congrArg isEnd h; rwa [term_isEnd, term_isEnd] at this
  · rintro ⟨rfl, rfl⟩; rfl

/-- Where a piece starts and ends: as an end point of an original polyline. -/
def startT (x : Piece) : Nat := term x.1 x.2
def endT (x : Piece) : Nat := term x.1 (!x.2)
def flip (x : Piece) : Piece := (x.1, !x.2)

theorem startT_flip (x : Piece) : startT (flip x) = endT x := rfl
theorem endT_flip (x : Piece) : endT (flip x) = startT x := by unfold endT flip startT; simp
theorem flip_flip (x : Piece) : flip (flip x) = x := by unfold flip; simp

/-- The end point of an original polyline. -/
def pointT (lines : List (List P2)) (t : Nat) : Option P2 :=
  if isEnd t then (lines.getD (lineOf t) []).getLast? else (lines.getD (lineOf t) []).head?

/-- Two end points of original polylines are close. -/
def Close (lines : List (List P2)) (maxDist : Int) (a b : Nat) : Prop :=
  ∃ p ∈ pointT lines a, ∃ q ∈ pointT lines b, dist2 p q < maxDist * maxDist

theorem dist2_comm (p q : P2) : dist2 p q = dist2 q p := by unfold dist2; ring

theorem Close.symm {lines : List (List P2)} {maxDist : Int} {a b : Nat} (h : Close lines maxDist a b) : Close lines maxDist b a := by
  obtain ⟨p, hp, q, hq, hd⟩ := h
  exact ⟨q, hq, p, hp, by rw [dist2_comm]; exact hd⟩

theorem oriented_head (lines : List (List P2)) (x : Piece) : (oriented lines x).head? = pointT lines (startT x) := by
  unfold oriented pointT startT
  rw [term_isEnd, term_lineOf]
  split <;> simp

theorem oriented_last (lines : List (List P2)) (x : Piece) : (oriented lines x).getLast? = pointT lines (endT x) := by
  unfold oriented pointT endT
  rw [term_isEnd, term_lineOf]
  cases x.2 <;> simp

theorem joint_iff (lines : List (List P2)) (maxDist : Int) (x y : Piece) :
    Joint lines maxDist x y ↔ Close lines maxDist (endT x) (startT y) := by
  unfold Joint Close
  rw [oriented_head, oriented_last]

/-- A chain of pieces backwards. -/
def back (c : List Piece) : List Piece := (c.map flip).reverse

theorem oriented_flip (lines : List (List P2)) (x : Piece) : oriented lines (flip x) = (oriented lines x).reverse := by
  unfold oriented flip
  cases x.2 <;> simp

theorem piecePoints_back (lines : List (List P2)) (c : List Piece) : piecePoints lines (back c) = (piecePoints lines c).reverse := by
  unfold back piecePoints
  induction c with
  | nil => rfl
  | cons x c ih =>
    rw [List.map_cons, List.reverse_cons, List.flatMap_append, ih]
    simp [oriented_flip]

theorem back_chain {lines : List (List P2)} {maxDist : Int} {c : List Piece} (h : c.IsChain (Joint lines maxDist)) :
    (back c).IsChain (Joint lines maxDist) := by
  unfold back
  rw [List.isChain_reverse, List.isChain_map]
  refine h.imp ?_
  intro x y hxy
  rw [joint_iff] at hxy
  show Joint lines maxDist (flip y) (flip x)
  rw [joint_iff, endT_flip, startT_flip]
  exact hxy.symm

theorem back_fst (c : List Piece) : ((back c).map (·.1)).Perm (c.map (·.1)) := by
  unfold back
  rw [List.map_reverse, List.map_map]
  exact List.reverse_perm _

theorem back_head (c : List Piece) : (back c).head? = c.getLast?.map flip := by
  unfold back
  rw [List.head?_reverse, List.getLast?_map]

theorem back_last (c : List Piece) : (back c).getLast? = c.head?.map flip := by
  unfold back
  rw [List.getLast?_reverse, List.head?_map]

theorem back_nil (c : List Piece) : back c = [] ↔ c = [] := by unfold back; simp

/-- The end point (`e`: the end, otherwise the start) of a chain, as an end point of an original polyline. -/
def chainT (c : List Piece) (e : Bool) : Option Nat := if e then c.getLast?.map endT else c.head?.map startT

theorem chainT_back (c : List Piece) (e : Bool) : chainT (back c) e = chainT c (!e) := by
  unfold chainT
  cases e
  · simp only [Bool.false_eq_true, if_false, Bool.not_false, if_true, back_head, Option.map_map]
    congr 1
  · simp only [if_true, Bool.not_true, Bool.false_eq_true, if_false, back_last, Option.map_map]
    congr 1; funext x; exact endT_flip x

theorem chainT_append {c d : List Piece} (hc : c ≠ []) (hd : d ≠ []) :
    chainT (c ++ d) false = chainT c false ∧ chainT (c ++ d) true = chainT d true := by
  unfold chainT
  constructor
  · obtain ⟨x, c, rfl⟩ := List.exists_cons_of_ne_nil hc; rfl
  · simp only [if_true]
    rw [List.getLast?_append]
    obtain ⟨y, hy⟩ : ∃ y, d.getLast? = some y := by
      exact ⟨_, List.getLast?_eq_getLast_of_ne_nil hd⟩
    rw [hy]; rfl

theorem chainT_some {c : List Piece} (hc : c ≠ []) (e : Bool) : ∃ t, chainT c e = some t := by
  unfold chainT
  cases e
  · obtain ⟨x, c, rfl⟩ := List.exists_cons_of_ne_nil hc; exact ⟨_, rfl⟩
  · obtain ⟨y, hy⟩ : ∃ y, c.getLast? = some y := by
      exact ⟨_, List.getLast?_eq_getLast_of_ne_nil hc⟩
    exact ⟨_, by simp only [if_true, hy]; rfl⟩

theorem chainT_mem {c : List Piece} {e : Bool} {t : Nat} (h : chainT c e = some t) : lineOf t ∈ c.map (·.1) ∧ c ≠ [] := by
  unfold chainT at h
  cases e
  · simp only [Bool.false_eq_true, if_false, Option.map_eq_some_iff] at h
    obtain ⟨x, hx, rfl⟩ := h
    refine ⟨List.mem_map.2 ⟨x, List.mem_of_head? hx, ?_⟩, by rintro rfl; simp at hx⟩
    unfold startT; rw [term_lineOf]
  · simp only [if_true, Option.map_eq_some_iff] at h
    obtain ⟨x, hx, rfl⟩ := h
    refine ⟨List.mem_map.2 ⟨x, List.mem_of_getLast? hx, ?_⟩, by rintro rfl; simp at hx⟩
    unfold endT; rw [term_lineOf]

/-! ## The invariant -/

/-- What holds after some stitches: `chain i` are the pieces of polyline `i`, `closed` those of the polygons made so far. -/
structure SInv (lines : List (List P2)) (polygons : List (List P2)) (maxDist : Int) (s : St) (chain : Nat → List Piece)
    (closed : List (List Piece)) : Prop where
  pts : ∀ i < lines.length, s.lines i = piecePoints lines (chain i)
  polys : s.polygons = polygons ++ closed.map (piecePoints lines)
  perm : (((List.range lines.length).map chain ++ closed).flatten.map (·.1)).Perm (List.range lines.length)
  chains : ∀ i < lines.length, (chain i).IsChain (Joint lines maxDist)
  closes : ∀ c ∈ closed, c.IsChain (Joint lines maxDist) ∧ ∃ x ∈ c.getLast?, ∃ y ∈ c.head?, Joint lines maxDist x y
  /-- The tables lead from the end points of the polylines to the original end points and back. -/
  live : ∀ i < lines.length, ∀ e t, chainT (chain i) e = some t → s.old2cur t = some (term i e) ∧ s.cur2old (term i e) = some t
  dead : ∀ t c, s.old2cur t = some c → lineOf c < lines.length ∧ chainT (chain (lineOf c)) (isEnd c) = some t

theorem upd_same {α : Type} (f : Nat → α) (i : Nat) (a : α) : upd f i a i = a := by simp [upd]
theorem upd_ne {α : Type} (f : Nat → α) {i j : Nat} (a : α) (h : j ≠ i) : upd f i a j = f j := by simp [upd, h]

/-- Changing the chains of two polylines. -/
theorem perm_two {n : Nat} {chain : Nat → List Piece} {i j : Nat} (hi : i < n) (hj : j < n) (hij : i ≠ j) (c : List Piece)
    (hc : (c.map (·.1)).Perm ((chain i).map (·.1) ++ (chain j).map (·.1))) :
    (((List.range n).map (upd (upd chain i c) j [])).flatten.map (·.1)).Perm (((List.range n).map chain).flatten.map (·.1)) := by
  have hmi : i ∈ List.range n := List.mem_range.2 hi
  have hnd : (List.range n).Nodup := List.nodup_range
  have hmj : j ∈ (List.range n).erase i := (List.Nodup.mem_erase_iff hnd).2 ⟨hij.symm, List.mem_range.2 hj⟩
  have hp : (List.range n).Perm (i :: j :: ((List.range n).erase i).erase j) :=
    (List.perm_cons_erase hmi).trans ((List.perm_cons_erase hmj).cons i)
  have hrest : ∀ k ∈ ((List.range n).erase i).erase j, k ≠ i ∧ k ≠ j := by
    intro k hk
    have h1 := (List.Nodup.mem_erase_iff (hnd.erase i)).1 hk
    exact ⟨((List.Nodup.mem_erase_iff hnd).1 h1.2).1, h1.1⟩
  have key : ∀ f : Nat → List Piece, (((List.range n).map f).flatten.map (·.1)).Perm
      ((f i).map (·.1) ++ ((f j).map (·.1) ++ (((((List.range n).erase i).erase j).map f).flatten.map (·.1)))) := by
    intro f
    refine (((hp.map f).flatten).map _).trans ?_
    simp only [List.map_cons, List.flatten_cons, List.map_append]
    exact List.Perm.refl _
  refine (key _).trans (List.Perm.trans ?_ (key chain).symm)
  have e1 : upd (upd chain i c) j [] i = c := by rw [upd_ne _ _ hij, upd_same]
  have e2 : upd (upd chain i c) j [] j = [] := upd_same _ _ _
  have e3 : (((List.range n).erase i).erase j).map (upd (upd chain i c) j []) = (((List.range n).erase i).erase j).map chain := by
    apply List.map_congr_left
    intro k hk
    obtain ⟨h1, h2⟩ := hrest k hk
    rw [upd_ne _ _ h2, upd_ne _ _ h1]
  rw [e1, e2, e3]
  have := hc.append_right ((((((List.range n).erase i).erase j).map chain).flatten).map (·.1))
  simpa [List.append_assoc] using this

end Verif.Slicer
