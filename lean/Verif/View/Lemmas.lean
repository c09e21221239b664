import Verif.View.Model
import Mathlib.Data.List.Basic
import Mathlib.Data.List.Nodup
import Mathlib.Data.List.Perm.Basic
import Mathlib.Tactic.SplitIfs

/-! # Lemmas on collecting lines -/

namespace Verif.View

variable {F : Type}

open Spec

/-! ## The buffer -/

/-- A buffered line. -/
structure BL (F : Type) where
  t : Nat
  p : P3
  w : Int
  h : Int
  v : F

def coords (cv : Conv F) (p : P3) : List F := [cv.mm p.x, cv.mm p.y, cv.mm p.z]

def tr (cv : Conv F) (p : P3) : F × F × F := (cv.mm p.x, cv.mm p.y, cv.mm p.z)

def lastOf (s : P3) : List (BL F) → P3
  | [] => s
  | l :: ls => lastOf l.p ls

/-- The buffer holds these lines. -/
structure Buf (cv : Conv F) (c : Compiler F) (s : P3) (ls : List (BL F)) : Prop where
  points : c.points = coords cv s ++ ls.flatMap fun l => coords cv l.p
  types : c.types = ls.map (·.t)
  widths : c.widths = ls.map fun l => cv.mm l.w
  thicknesses : c.thicknesses = ls.map fun l => cv.mm l.h
  speeds : c.speeds = ls.map (·.v)
  last : c.last = lastOf s ls

def shownFrom (cv : Conv F) (e : Nat) (s : P3) : List (BL F) → List (Shown F)
  | [] => []
  | l :: ls => ⟨e, l.t, tr cv s, tr cv l.p, cv.mm l.w, cv.mm l.h, l.v⟩ :: shownFrom cv e l.p ls

theorem read_buf (cv : Conv F) (e : Nat) (s : P3) (ls : List (BL F)) :
    readLines e (coords cv s ++ ls.flatMap fun l => coords cv l.p) (ls.map (·.t)) (ls.map fun l => cv.mm l.w) (ls.map fun l => cv.mm l.h) (ls.map (·.v))
      = some (shownFrom cv e s ls) := by
  induction ls generalizing s with
  | nil => simp [coords, readLines, shownFrom]
  | cons l ls ih =>
    have := ih l.p
    simp only [coords, List.cons_append, List.nil_append, List.flatMap_cons, List.map_cons, readLines, shownFrom, tr] at this ⊢
    rw [this]
    rfl

theorem shownFrom_append (cv : Conv F) (e : Nat) (s : P3) (ls : List (BL F)) (l : BL F) :
    shownFrom cv e s (ls ++ [l]) = shownFrom cv e s ls ++ [⟨e, l.t, tr cv (lastOf s ls), tr cv l.p, cv.mm l.w, cv.mm l.h, l.v⟩] := by
  induction ls generalizing s with
  | nil => simp [shownFrom, lastOf]
  | cons a ls ih => simp [shownFrom, lastOf, ih]

theorem lastOf_append (s : P3) (ls : List (BL F)) (l : BL F) : lastOf s (ls ++ [l]) = l.p := by
  induction ls generalizing s with
  | nil => rfl
  | cons a ls ih => simp [lastOf, ih]

/-- The compiler is empty or holds some lines. -/
def CI (cv : Conv F) (c : Compiler F) : Prop :=
  (c.points = [] ∧ c.types = [] ∧ c.widths = [] ∧ c.thicknesses = [] ∧ c.speeds = []) ∨ ∃ s ls, Buf cv c s ls

def pending (c : Compiler F) : List (Shown F) := (readLines c.extruder c.points c.types c.widths c.thicknesses c.speeds).getD []

theorem Buf.pending {cv : Conv F} {c : Compiler F} {s : P3} {ls : List (BL F)} (h : Buf cv c s ls) : pending c = shownFrom cv c.extruder s ls := by
  rw [View.pending, h.points, h.types, h.widths, h.thicknesses, h.speeds, read_buf]; rfl

theorem Buf.read {cv : Conv F} {c : Compiler F} {s : P3} {ls : List (BL F)} (h : Buf cv c s ls) :
    readSegment ⟨c.extruder, c.types, c.points, c.widths, c.thicknesses, c.speeds⟩ = some (View.pending c) := by
  rw [h.pending, readSegment]
  simp only
  rw [h.points, h.types, h.widths, h.thicknesses, h.speeds, read_buf]

theorem CI.read {cv : Conv F} {c : Compiler F} (h : CI cv c) (ht : c.types ≠ []) :
    readSegment ⟨c.extruder, c.types, c.points, c.widths, c.thicknesses, c.speeds⟩ = some (pending c) := by
  rcases h with h | ⟨s, ls, h⟩
  · exact absurd h.2.1 ht
  · exact h.read

theorem CI.nil {cv : Conv F} {c : Compiler F} (h : CI cv c) (ht : c.types = []) : pending c = [] := by
  rcases h with h | ⟨s, ls, h⟩
  · simp [pending, h.1, ht, readLines]
  · have : ls = [] := by simpa [ht] using h.types.symm
    rw [h.pending, this]; rfl

theorem Buf.addLine {cv : Conv F} {c : Compiler F} {s : P3} {ls : List (BL F)} (h : Buf cv c s ls) (t : Nat) (p : P3) (w g : Int) (v : F) :
    Buf cv (addLine cv c t p w g v) s (ls ++ [⟨t, p, w, g, v⟩]) := by
  constructor <;> simp [View.addLine, addPoint, h.points, h.types, h.widths, h.thicknesses, h.speeds, lastOf_append, coords]

theorem pending_addLine {cv : Conv F} {c : Compiler F} (h : CI cv c) (hp : c.points ≠ []) (t : Nat) (p : P3) (w g : Int) (v : F) :
    CI cv (addLine cv c t p w g v) ∧
      pending (addLine cv c t p w g v) = pending c ++ [⟨c.extruder, t, tr cv c.last, tr cv p, cv.mm w, cv.mm g, v⟩] := by
  rcases h with h | ⟨s, ls, h⟩
  · exact absurd h.1 hp
  · refine ⟨Or.inr ⟨_, _, h.addLine t p w g v⟩, ?_⟩
    rw [(h.addLine t p w g v).pending, shownFrom_append, h.pending, h.last]
    rfl

theorem initial_spec {cv : Conv F} {c : Compiler F} (h : CI cv c) (p : P3) :
    CI cv (initial cv c p) ∧ (initial cv c p).points ≠ [] ∧ (initial cv c p).last = p ∧ (initial cv c p).layer = c.layer ∧
      (initial cv c p).extruder = c.extruder ∧ visible (pending (initial cv c p)) = visible (pending c) := by
  rw [initial]
  split
  · rename_i h0
    have h0 : c.points = [] := List.isEmpty_iff.1 h0
    rcases h with h | ⟨s, ls, h⟩
    · have hb : Buf cv (addPoint cv c p) p [] := by
        constructor <;> simp [addPoint, h.1, h.2.1, h.2.2.1, h.2.2.2.1, h.2.2.2.2, coords, lastOf]
      refine ⟨Or.inr ⟨p, [], hb⟩, by simp [addPoint], rfl, rfl, rfl, ?_⟩
      rw [hb.pending]
      simp [pending, h.1, h.2.1, readLines, shownFrom]
    · rw [h.points] at h0; simp [coords] at h0
  · rename_i h0
    have h0 : c.points ≠ [] := fun e => h0 (by simp [e])
    split
    · obtain ⟨a, b⟩ := pending_addLine h h0 0 p 1 0 cv.zero
      refine ⟨a, by simp [addLine, addPoint], rfl, rfl, rfl, ?_⟩
      rw [b]; simp [visible]
    · rename_i h1
      exact ⟨h, h0, (not_not.1 h1).symm, rfl, rfl, rfl⟩

/-! ## The layers -/

def get (d : Data F) (k : Int) : Option (Layer F) := d.layers.find? fun l => l.id = k

def ids (d : Data F) : List Int := d.layers.map (·.id)

theorem get_id {d : Data F} {k : Int} {l : Layer F} (h : get d k = some l) : l.id = k := by
  simpa using List.find?_some h

theorem get_mem {d : Data F} {k : Int} {l : Layer F} (h : get d k = some l) : l ∈ d.layers := List.mem_of_find?_eq_some h

theorem get_isSome {d : Data F} {k : Int} : (get d k).isSome ↔ k ∈ ids d := by
  simp [get, ids, List.find?_isSome]

theorem get_of_mem {d : Data F} (hn : (ids d).Nodup) {l : Layer F} (h : l ∈ d.layers) : get d l.id = some l := by
  have h1 : (get d l.id).isSome := get_isSome.2 (List.mem_map_of_mem h)
  obtain ⟨l', e⟩ := Option.isSome_iff_exists.1 h1
  rw [e]
  exact congrArg some (List.inj_on_of_nodup_map hn (get_mem e) h (get_id e))

theorem find_map (ls : List (Layer F)) (f : Layer F → Layer F) (hf : ∀ l, (f l).id = l.id) (id k : Int) :
    (ls.map fun l => if l.id = id then f l else l).find? (fun l => l.id = k) =
      (ls.find? fun l => l.id = k).map fun l => if k = id then f l else l := by
  induction ls with
  | nil => rfl
  | cons l ls ih =>
    simp only [List.map_cons, List.find?_cons]
    have hid : (if l.id = id then f l else l).id = l.id := by split <;> simp [hf]
    rw [hid]
    by_cases h : l.id = k
    · simp only [h, decide_true, Option.map_some]
    · simp only [h, decide_false, ih]

theorem get_update (d : Data F) (n k : Int) (f : Layer F → Layer F) (hf : ∀ l, (f l).id = l.id) :
    get (d.update n f) k = if k = n + d.offset then some (f ((get d k).getD { id := k })) else get d k := by
  rw [Data.update]
  split
  · rename_i h
    rw [get, find_map _ _ hf]
    have h' : (get d (n + d.offset)).isSome := by
      rw [get, List.find?_isSome]
      simpa using h
    split
    · rename_i hk
      obtain ⟨l, e⟩ := Option.isSome_iff_exists.1 h'
      rw [hk]
      rw [get] at e ⊢
      simp [e]
    · simp [get]
  · rename_i h
    have h' : get d (n + d.offset) = none := by
      rw [get, List.find?_eq_none]
      simpa using h
    rw [get, List.find?_append]
    split
    · rename_i hk
      rw [hk, h']
      rw [get] at h'
      rw [h']
      simp [hf]
    · rename_i hk
      have : [f { id := n + d.offset }].find? (fun l : Layer F => l.id = k) = none := by
        simp [hf, Ne.symm hk]
      rw [this]
      simp [get]

theorem ids_update (d : Data F) (n : Int) (f : Layer F → Layer F) (hf : ∀ l, (f l).id = l.id) :
    ids (d.update n f) = if n + d.offset ∈ ids d then ids d else ids d ++ [n + d.offset] := by
  rw [Data.update]
  have e : (d.layers.any fun l => l.id = n + d.offset) = true ↔ n + (d.offset : Int) ∈ ids d := by
    simp [ids]
  split
  · rename_i h
    rw [if_pos (e.1 h)]
    simp only [ids, List.map_map]
    apply List.map_congr_left
    intro l _
    simp only [Function.comp]
    split <;> simp [hf]
  · rename_i h
    rw [if_neg (fun h' => h (e.2 h'))]
    simp [ids, hf]

theorem nodup_update {d : Data F} (h : (ids d).Nodup) (n : Int) (f : Layer F → Layer F) (hf : ∀ l, (f l).id = l.id) : (ids (d.update n f)).Nodup := by
  rw [ids_update _ _ _ hf]
  split
  · exact h
  · rename_i h1
    exact List.nodup_append.2 ⟨h, by simp, by
      intro a ha b hb
      rw [List.mem_singleton] at hb
      subst hb
      exact fun e => h1 (e ▸ ha)⟩

theorem count_update {d : Data F} (h : d.count = d.layers.length) (n : Int) (f : Layer F → Layer F) :
    (d.update n f).count = (d.update n f).layers.length := by
  rw [Data.update]
  split
  · simpa using h
  · simp [h]

@[simp] theorem update_offset (d : Data F) (n : Int) (f : Layer F → Layer F) : (d.update n f).offset = d.offset := by
  rw [Data.update]; split <;> rfl

@[simp] theorem update_sliced (d : Data F) (n : Int) (f : Layer F → Layer F) : (d.update n f).sliced = d.sliced := by
  rw [Data.update]; split <;> rfl

theorem readSegments_append (a : List (Segment F)) (s : Segment F) {l m : List (Shown F)} (h1 : readSegments a = some l) (h2 : readSegment s = some m) :
    readSegments (a ++ [s]) = some (l ++ m) := by
  induction a generalizing l with
  | nil =>
    simp only [readSegments, Option.some.injEq] at h1
    subst h1
    simp [readSegments, h2]
  | cons x a ih =>
    simp only [List.cons_append, readSegments] at h1 ⊢
    split at h1
    · rename_i u w e1 e2
      rw [e1, ih e2]
      simp only [Option.some.injEq] at h1
      subst h1
      simp
    · cases h1

/-- What a front-end reads for a layer. -/
def linesOf (d : Data F) (k : Int) : List (Shown F) := ((get d k).bind fun l => readSegments l.segments).getD []

def sizeOf' (d : Data F) (k : Int) : Int × Int := ((get d k).map fun l => (l.height, l.thickness)).getD (0, 0)

/-- All parts can be read. -/
def Readable (d : Data F) : Prop := ∀ k l, get d k = some l → (readSegments l.segments).isSome

def shows (st : St F) (k : Int) : List (Shown F) :=
  linesOf st.data k ++ if st.comp.layer + st.data.offset = k then pending st.comp else []

/-- What holds at all times. -/
structure Ok (cv : Conv F) (st : St F) : Prop where
  comp : CI cv st.comp
  readable : Readable st.data
  nodup : (ids st.data).Nodup
  count : st.data.count = st.data.layers.length

theorem addSegment_lines {d : Data F} (hr : Readable d) (n k : Int) (s : Segment F) {m : List (Shown F)} (hs : readSegment s = some m) :
    linesOf (d.update n fun l => { l with segments := l.segments ++ [s] }) k = linesOf d k ++ if n + d.offset = k then m else [] := by
  rw [linesOf, get_update _ _ _ _ (by intro l; rfl)]
  by_cases hk : k = n + d.offset
  · rw [if_pos hk, if_pos hk.symm]
    simp only [Option.bind_some]
    rw [linesOf]
    cases hg : get d k with
    | none => simp [readSegments, hs]
    | some l =>
      obtain ⟨a, e⟩ := Option.isSome_iff_exists.1 (hr k l hg)
      simp only [Option.getD_some]
      rw [readSegments_append _ _ e hs]
      simp [e]
  · rw [if_neg hk, if_neg (Ne.symm hk)]
    simp [linesOf]

theorem addSegment_readable {d : Data F} (hr : Readable d) (n : Int) (s : Segment F) {m : List (Shown F)} (hs : readSegment s = some m) :
    Readable (d.update n fun l => { l with segments := l.segments ++ [s] }) := by
  intro k l h
  rw [get_update _ _ _ _ (by intro l; rfl)] at h
  split at h
  · simp only [Option.some.injEq] at h
    subst h
    cases hg : get d k with
    | none => simp [readSegments, hs]
    | some l =>
      obtain ⟨a, e⟩ := Option.isSome_iff_exists.1 (hr k l hg)
      simp only [Option.getD_some]
      rw [readSegments_append _ _ e hs]
      rfl
  · exact hr k l h

theorem addSegment_size (d : Data F) (n k : Int) (s : Segment F) :
    sizeOf' (d.update n fun l => { l with segments := l.segments ++ [s] }) k = sizeOf' d k := by
  rw [sizeOf', get_update _ _ _ _ (by intro l; rfl)]
  split
  · rw [sizeOf']
    cases get d k <;> simp
  · rfl

/-- What flushing does. -/
structure Flushed (cv : Conv F) (st st' : St F) : Prop where
  ok : Ok cv st'
  layer : st'.comp.layer = st.comp.layer
  extruder : st'.comp.extruder = st.comp.extruder
  types : st'.comp.types = []
  points : st.comp.types = [] → st' = st
  shows : ∀ k, shows st' k = shows st k
  size : ∀ k, sizeOf' st'.data k = sizeOf' st.data k
  offset : st'.data.offset = st.data.offset
  sliced : st'.data.sliced = st.data.sliced
  objects : st'.objects = st.objects
  sent : st'.sent = st.sent
  ids : ∀ k, k ∈ ids st'.data ↔ k ∈ ids st.data ∨ (st.comp.types ≠ [] ∧ k = st.comp.layer + st.data.offset)

theorem flush_spec {cv : Conv F} {st : St F} (h : Ok cv st) : Flushed cv st (flush st) := by
  by_cases ht : st.comp.types = []
  · have e : flush st = st := by rw [flush]; simp [ht]
    rw [e]
    exact ⟨h, rfl, rfl, ht, fun _ => rfl, fun _ => rfl, fun _ => rfl, rfl, rfl, rfl, rfl, fun k => by simp [ht]⟩
  · have hs := h.comp.read ht
    have e : flush st = { st with
        data := st.data.update st.comp.layer fun l =>
          { l with segments := l.segments ++ [⟨st.comp.extruder, st.comp.types, st.comp.points, st.comp.widths, st.comp.thicknesses, st.comp.speeds⟩] }
        comp := { st.comp with types := [], points := [], widths := [], thicknesses := [], speeds := [] } } := by
      rw [flush]
      simp only
      rw [if_neg (by simpa using ht)]
    rw [e]
    refine ⟨⟨Or.inl ⟨rfl, rfl, rfl, rfl, rfl⟩, addSegment_readable h.readable _ _ hs, nodup_update h.nodup _ _ (by intro l; rfl), count_update h.count _ _⟩,
      rfl, rfl, rfl, fun h0 => absurd h0 ht, ?_, ?_, by simp, by simp, rfl, rfl, ?_⟩
    · intro k
      rw [View.shows, View.shows]
      simp only [update_offset]
      rw [addSegment_lines h.readable _ _ _ hs]
      have : pending { st.comp with types := [], points := [], widths := ([] : List F), thicknesses := [], speeds := [] } = [] := by
        simp [pending, readLines]
      rw [this]
      simp
    · intro k
      exact addSegment_size _ _ _ _
    · intro k
      simp only
      rw [ids_update _ _ _ (by intro l; rfl)]
      split
      · rename_i hi
        constructor
        · exact Or.inl
        · rintro (h | ⟨_, h⟩)
          · exact h
          · exact h ▸ hi
      · simp [ht]

end Verif.View
