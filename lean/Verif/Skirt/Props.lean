import Verif.Skirt.Run
import Mathlib.Tactic.Tauto

/-! # C119: skirt and brim -/

namespace Verif.Skirt

open Spec

variable {P : Type}

/-- What is assumed: line widths are not negative, an extruder that is not used needs no length, and there are no lines yet. -/
structure Start (confs : List Conf) (st : St P) : Prop where
  width : ∀ c ∈ confs, 0 ≤ c.width
  unused : ∀ c ∈ confs, c.used = false → c.minLength = 0
  fresh : ∀ e, st.out e = []

/-- Making the lines ends, however small the pieces are that are added, and no line is looked up that is not there. -/
theorem C119_ends (g : Geo P) (confs : List Conf) (brim : Option Nat) (empty : Nat → Bool) (outlines : Nat → Outline P) (sh : Option (Shield P)) (se : Nat) (st : St P)
    (hs : Start confs st) (n : Nat) (hn : (plan brim empty confs).length + (confs.map (·.minLength)).sum ≤ n) :
    ∃ r, generate g confs brim empty outlines sh se st n = some r := by
  obtain ⟨⟨st1, total, l⟩, hp⟩ := primary_ends g outlines (n := n) (total := fun _ => 0) (plan_ready brim empty confs hs.width st hs.fresh) (by
    have : ((List.range confs.length).map fun e => (confs[e]?.elim 0 (·.minLength)) - 0) = confs.map (·.minLength) := by
      refine List.ext_getElem (by simp) ?_
      intro i h1 h2
      simp only [List.length_map, List.length_range] at h1
      simp [List.getElem?_eq_getElem h1]
    rw [work, this]
    exact hn)
  obtain ⟨st2, l', h1, _⟩ := secondary_spec g hs.unused total 0 (onlyOutside g (shield sh se st1)) (outside_uncovered g confs _)
  refine ⟨(st2, l, l'), ?_⟩
  rw [generate, hp]
  dsimp only
  rw [List.drop_zero] at h1
  rw [h1]
  rfl

/-- What is known of the parts. -/
theorem generate_parts {g : Geo P} {confs : List Conf} {brim : Option Nat} {empty : Nat → Bool} {outlines : Nat → Outline P} {sh : Option (Shield P)} {se : Nat}
    {st st' : St P} {n : Nat} {l l' : List (Made P)} (hs : Start confs st) (h : generate g confs brim empty outlines sh se st n = some (st', l, l')) :
    ∃ st1 total, Run g confs outlines st (fun _ => 0) (plan brim empty confs) st1 total l ∧ Fine g confs (onlyOutside g (shield sh se st1)) st' l' ∧
      ∀ (e : Nat) (c : Conf), confs[e]? = some c →
        (c.minLength ≤ total e + sum g.length e l' ∨ ∃ m, (by' e l').getLast? = some m ∧ g.length m.raw = 0) ∧
        ∀ i < (by' e l').length, total e + (((by' e l').map fun m => g.length m.raw).take i).sum < c.minLength := by
  rw [generate] at h
  split at h
  · cases h
  · rename_i st1 total l1 hp
    obtain ⟨st2, l2, h1, h2, _, h4⟩ := secondary_spec g hs.unused total 0 (onlyOutside g (shield sh se st1)) (outside_uncovered g confs _)
    rw [List.drop_zero] at h1
    rw [h1] at h
    cases h
    exact ⟨st1, total, primary_run hp, h2, fun e c => h4 e c (Nat.zero_le _)⟩

section

variable {g : Geo P} {confs : List Conf} {brim : Option Nat} {empty : Nat → Bool} {outlines : Nat → Outline P} {sh : Option (Shield P)} {se : Nat}
  {st st' : St P} {n : Nat} {l l' : List (Made P)}

theorem by_append (e : Nat) (l l' : List (Made P)) : by' e (l ++ l') = by' e l ++ by' e l' := List.filter_append ..

/-- Each extruder has its minimal length, or there was no room for a further line. -/
theorem C119_length (hs : Start confs st) (h : generate g confs brim empty outlines sh se st n = some (st', l, l')) (e : Nat) (c : Conf) (hc : confs[e]? = some c) :
    Enough g.length c.minLength e (l ++ l') := by
  obtain ⟨st1, total, h1, h2, h3⟩ := generate_parts hs h
  have ht := h1.total e
  rcases (h3 e c hc).1 with h4 | ⟨m, h4, h5⟩
  · left
    rw [sum, by_append, List.map_append, List.sum_append]
    simp only [sum] at h4 ht
    omega
  · right
    refine ⟨m, ?_, h5⟩
    rw [by_append, List.getLast?_append, h4]
    rfl

/-- The primary lines are the planned ones, at their distances from the model, and further ones only if the length is not enough yet. The secondary lines are made
only if the length is not enough yet. -/
theorem C119_lines (hs : Start confs st) (h : generate g confs brim empty outlines sh se st n = some (st', l, l')) (e : Nat) (c : Conf) (hc : confs[e]? = some c) :
    (if c.used = true ∧ (∀ b, brim = some b → b = e) ∧ empty e = false then
      ∀ i < c.count, ∃ m, (by' e (l ++ l'))[i]? = some m ∧ m.inset = i ∧ m.total = c.width.tdiv 2 + c.width * (i : Int) + c.gap
     else by' e l = []) ∧
    ∀ i, i < (by' e (l ++ l')).length → i < c.count ∧ i < (by' e l).length ∨ (((by' e (l ++ l')).map fun m => g.length m.raw).take i).sum < c.minLength := by
  obtain ⟨st1, total, h1, h2, h3⟩ := generate_parts hs h
  have hr := plan_ready brim empty confs hs.width st hs.fresh
  have ht := h1.total e
  have hpl := h1.planned hr e
  have hpf := plan_filter brim empty confs hs.width e
  rw [hc] at hpf
  dsimp only at hpf
  have hlo : leftOut brim empty e c = false ↔ c.used = true ∧ (∀ b, brim = some b → b = e) ∧ empty e = false := by
    rw [leftOut]
    cases brim <;> simp [and_assoc]
  refine ⟨?_, ?_⟩
  · split
    · rename_i hl
      rw [← hlo] at hl
      rw [hl, if_neg (by simp)] at hpf
      intro i hi
      have hp := hpl.1
      rw [hpf] at hp
      obtain ⟨o, ho⟩ : ∃ o, (planOf e c)[i]? = some o := ⟨_, List.getElem?_eq_getElem (by rw [planOf_length]; exact hi)⟩
      have hg := planOf_get e c i o ho
      have hq : ((by' e l).map fun m => (m.inset, m.total))[i]? = some (o.inset, o.total) := by
        obtain ⟨t, ht'⟩ := hp
        rw [← ht', List.getElem?_append_left (by simp [planOf_length]; exact hi), List.getElem?_map, ho]
        rfl
      rw [List.getElem?_map, Option.map_eq_some_iff] at hq
      obtain ⟨m, hm, he⟩ := hq
      simp only [Prod.mk.injEq] at he
      refine ⟨m, ?_, by rw [he.1]; exact hg.2.2.1, by rw [he.2]; exact hg.2.2.2.2.1⟩
      rw [by_append, List.getElem?_append_left (List.getElem?_eq_some_iff.1 hm).1]
      exact hm
    · rename_i hl
      rw [← hlo] at hl
      rw [if_pos (by simpa using hl)] at hpf
      refine h1.unplanned e ?_
      intro o ho he
      have := List.filter_eq_nil_iff.1 hpf o ho
      simp [he] at this
  · intro i hi
    rw [by_append, List.length_append] at hi
    by_cases hil : i < (by' e l).length
    · by_cases hic : i < c.count
      · exact Or.inl ⟨hic, hil⟩
      · right
        have := hpl.2 i c hc (by
          rw [hpf]
          split
          · simp
          · rw [planOf_length]; omega) hil
        rw [by_append, List.map_append, List.take_append_of_le_length (by simp; omega)]
        omega
    · right
      have := (h3 e c hc).2 (i - (by' e l).length) (by omega)
      rw [by_append, List.map_append, List.take_append, List.sum_append, List.length_map, List.take_of_length_le (by simp; omega)]
      simp only [sum] at ht
      omega

/-- The primary lines are made from the inside outwards. -/
theorem C119_order (hs : Start confs st) (h : generate g confs brim empty outlines sh se st n = some (st', l, l')) : l.Pairwise fun a b => a.total ≤ b.total := by
  obtain ⟨st1, total, h1, _, _⟩ := generate_parts hs h
  exact (h1.order (plan_ready brim empty confs hs.width st hs.fresh)).1

/-- No line comes within half the width of an earlier one, and 10 µm, of that one. -/
theorem C119_apart (hs : Start confs st) (h : generate g confs brim empty outlines sh se st n = some (st', l, l')) :
    (l ++ l').Pairwise fun x y => ∀ c, confs[x.ext]? = some c → Apart y.raw (g.wide (c.width.tdiv 2 + 10) x.raw) := by
  obtain ⟨st1, total, h1, h2, _⟩ := generate_parts hs h
  have hf := h1.fine (plan_ready brim empty confs hs.width st hs.fresh)
  have hc : ∀ x y : Made P, Apart y.raw (cover g confs x) → ∀ c, confs[x.ext]? = some c → Apart y.raw (g.wide (c.width.tdiv 2 + 10) x.raw) := by
    intro x y hxy c hc
    rw [cover, hc] at hxy
    exact hxy
  refine List.pairwise_append.2 ⟨hf.apart.imp (hc _ _), h2.apart.imp (hc _ _), ?_⟩
  intro x hx y hy
  refine hc x y ?_
  intro p hp
  obtain ⟨c', e1, e2⟩ := h2.used y hy
  exact ((hf.clear x hx).shrunk ((shield_shrunk sh se st1).trans (outside_shrunk g _))) y.ext c' e1 e2 p (h2.inside y hy p hp)

/-- All lines are in the area that is allowed for their extruder. All but the first are off the area that is covered from the beginning, and the secondary ones are off
everything that is covered then and all the holes in it. -/
theorem C119_inside (hs : Start confs st) (h : generate g confs brim empty outlines sh se st n = some (st', l, l')) :
    (∀ m ∈ l ++ l', Inside m.raw (st.allowed m.ext)) ∧ (∀ m ∈ l.tail, Apart m.raw st.covered) ∧
      ∃ a, Inside st.covered a ∧ (∀ m ∈ l, ∀ c, confs[m.ext]? = some c → Inside (g.wide (c.width.tdiv 2 + 10) m.raw) a) ∧ ∀ m ∈ l', Apart m.raw (g.filled a) := by
  obtain ⟨st1, total, h1, h2, _⟩ := generate_parts hs h
  have hf := h1.fine (plan_ready brim empty confs hs.width st hs.fresh)
  refine ⟨?_, hf.uncovered, (shield sh se st1).covered, ?_, ?_, ?_⟩
  · intro m hm
    rcases List.mem_append.1 hm with hm | hm
    · exact hf.inside m hm
    · exact fun p hp => hf.shrunk _ p (((shield_shrunk sh se st1).trans (outside_shrunk g _)) _ p (h2.inside m hm p hp))
  · exact fun p hp => shield_grown sh se st1 p (hf.grown p hp)
  · intro m hm c hc p hp
    refine shield_grown sh se st1 p (hf.coveredBy m hm p ?_)
    rw [cover, hc]
    exact hp
  · intro m hm p hp
    have := h2.inside m hm p hp
    simp only [onlyOutside, Bool.and_eq_true, Bool.not_eq_true'] at this
    exact this.2

/-- What is stored for an extruder: its lines, joined and without short pieces, in order, and between the primary and the secondary ones those of the shield. -/
theorem C119_stored (hs : Start confs st) (h : generate g confs brim empty outlines sh se st n = some (st', l, l')) (e : Nat) (c : Conf) (hc : confs[e]? = some c) :
    ∃ mid : List (Area P), (e ≠ se ∨ sh = none → mid = []) ∧ mid.length ≤ 1 ∧
      st'.out e = ((by' e l).map fun m => g.tidy c.width m.raw) ++ mid ++ (by' e l').map fun m => g.tidy c.width m.raw := by
  obtain ⟨st1, total, h1, h2, _⟩ := generate_parts hs h
  have hf := h1.fine (plan_ready brim empty confs hs.width st hs.fresh)
  have hfin : ∀ x : List (Made P), (by' e x).map (finished g confs) = (by' e x).map fun m => g.tidy c.width m.raw := by
    intro x
    refine List.map_congr_left ?_
    intro m hm
    have : m.ext = e := by
      have := (List.mem_filter.1 hm).2
      simpa using this
    rw [finished, this, hc]
    rfl
  have ho := hf.out e
  rw [hs.fresh, List.nil_append, hfin] at ho
  have ho2 := h2.out e
  rw [hfin] at ho2
  cases sh with
  | none =>
    refine ⟨[], by simp, by simp, ?_⟩
    rw [ho2]
    simp only [onlyOutside, shield, ho, List.append_nil]
  | some s =>
    by_cases he : e = se
    · subst he
      cases hh : s.heap with
      | none =>
        refine ⟨[], by simp, by simp, ?_⟩
        rw [ho2]
        simp only [onlyOutside, shield, hh, ho, List.append_nil]
      | some f =>
        refine ⟨[f (st1.allowed e)], by simp, by simp, ?_⟩
        rw [ho2]
        simp only [onlyOutside, shield, hh, ho, if_true]
    · refine ⟨[], by simp, by simp, ?_⟩
      rw [ho2]
      simp only [onlyOutside, shield]
      cases hh : s.heap with
      | none => simp [ho]
      | some f => simp [ho, he]

end

/-- Whether a place is in the surroundings of an outline, or in a hole. -/
def Piece.has (p : P) : Piece P → Bool
  | .solid grown => grown p
  | .hole free => free p

/-- The polygons of all extruders with their supports, in the order in which they are handled. -/
def pieces (others : List (List (Piece P) × Area P)) : List (Piece P) := others.flatMap fun x => x.1 ++ [Piece.solid x.2]

theorem fold_pieces (l : List (Piece P)) (a : Area P) (p : P) :
    l.foldl piece a p = match (l.filter (Piece.has p)).getLast? with
      | none => a p
      | some (.solid _) => false
      | some (.hole _) => true := by
  induction l generalizing a with
  | nil => rfl
  | cons x xs ih =>
    rw [List.foldl_cons, ih, List.filter_cons]
    cases hl : (xs.filter (Piece.has p)).getLast? with
    | some y =>
      have : (if Piece.has p x = true then x :: xs.filter (Piece.has p) else xs.filter (Piece.has p)).getLast? = some y := by
        split
        · rw [List.getLast?_cons, hl]; rfl
        · exact hl
      rw [this]
      cases y <;> rfl
    | none =>
      have hn : xs.filter (Piece.has p) = [] := List.getLast?_eq_none_iff.1 hl
      rw [hn]
      by_cases hx : Piece.has p x = true
      · rw [if_pos hx]
        cases x <;> simp only [Piece.has] at hx <;> simp [piece, hx]
      · rw [if_neg hx]
        cases x <;> simp only [Piece.has, Bool.not_eq_true] at hx <;> simp [piece, hx]

/-- A place is allowed if it is not near the own outlines, and if the last polygon or support that has it is a hole, or if none has it and it is on the build plate. So it may be near a solid
part only in a hole that comes later. -/
theorem C119_allowed (border : Area P) (others : List (List (Piece P) × Area P)) (own : Outline P) (p : P) :
    allowedArea border others own p = true ↔ own.gapped p = false ∧ own.touching p = false ∧
      match ((pieces others).filter (Piece.has p)).getLast? with
      | none => border p = true
      | some (.solid _) => False
      | some (.hole _) => True := by
  have key : ∀ a : Area P, others.foldl (fun a (x : List (Piece P) × Area P) => fun p => x.1.foldl piece a p && !x.2 p) a p = (pieces others).foldl piece a p := by
    induction others with
    | nil => intro a; rfl
    | cons x xs ih =>
      intro a
      rw [List.foldl_cons, ih, show pieces (x :: xs) = (x.1 ++ [Piece.solid x.2]) ++ pieces xs from List.flatMap_cons .., List.foldl_append, List.foldl_append]
      rfl
  have hk := key border
  rw [fold_pieces] at hk
  rw [allowedArea]
  simp only [Bool.and_eq_true, Bool.not_eq_true']
  rw [show (others.foldl (fun a (x : List (Piece P) × Area P) => fun p => x.1.foldl piece a p && !x.2 p) border p) = _ from hk]
  cases ((pieces others).filter (Piece.has p)).getLast? with
  | none => tauto
  | some y => cases y <;> simp

end Verif.Skirt
