import Verif.Cli.Spec
import Mathlib.Data.List.Basic
import Mathlib.Tactic.Common

/-! # The containers of a scene -/

namespace Verif.Cli

/-- The values of an owner, if it exists. -/
def Scene.env (s : Scene) : Owner → Option Env
  | .general => some s.global
  | .extruder n => s.extruders[n]?.map (·.env)
  | .group g => s.groups[g]?.map (·.env)
  | .model g j => (s.groups[g]?).bind fun G => G.meshes[j]?.map (·.env)

/-- The pointer to the settings of an owner. -/
def Scene.target (s : Scene) : Owner → Target
  | .general => .global
  | .extruder n => .extruder ⟨s.gen, n⟩
  | .group g => .group g
  | .model g j => .mesh g ⟨((s.groups[g]?).map (·.gen)).getD 0, j⟩

/-- A group without its values. -/
def Group.shape (g : Group) : List (Str × Str × Ref) × Nat × Nat := (g.meshes.map fun m => (m.file, m.rotation, m.parent), g.gen, g.cap)

/-- What does not change when values are given. -/
def Scene.frame (s : Scene) : List (List (Str × Str × Ref) × Nat × Nat) × Nat × Nat × (Str → Option Ref) :=
  (s.groups.map Group.shape, s.gen, s.cap, s.limit)

def Scene.numbers (s : Scene) : List Nat := s.extruders.map (·.nr)

theorem map_modify {α β : Type} (l : List α) (i : Nat) (f : α → α) (g : α → β) (h : ∀ a, g (f a) = g a) : (l.modify i f).map g = l.map g := by
  apply List.ext_getElem?
  intro j
  rw [List.getElem?_map, List.getElem?_modify, List.getElem?_map]
  cases l[j]? with
  | none => rfl
  | some a =>
    simp only [Option.map_eq_map, Option.map_some, Option.some.injEq]
    split
    · exact h a
    · rfl

theorem index_some {α : Type} {l : List α} {i : Nat} {a : α} (h : l[i]? = some a) : index l i = .ok a := by
  unfold index
  rw [h]

theorem read_target {s : Scene} {o : Owner} {e : Env} (h : s.env o = some e) : s.read (s.target o) = .ok e := by
  cases o with
  | general => simp only [Scene.env, Option.some.injEq] at h; subst h; rfl
  | extruder n =>
    simp only [Scene.env, Option.map_eq_some_iff] at h
    obtain ⟨x, hx, rfl⟩ := h
    simp only [Scene.target, Scene.read, Scene.extruder, if_pos trivial, index_some hx, Run.bind_ok, Run.pure_eq]
  | group g =>
    simp only [Scene.env, Option.map_eq_some_iff] at h
    obtain ⟨x, hx, rfl⟩ := h
    simp only [Scene.target, Scene.read, index_some hx, Run.bind_ok, Run.pure_eq]
  | model g j =>
    simp only [Scene.env, Option.bind_eq_some_iff, Option.map_eq_some_iff] at h
    obtain ⟨G, hG, m, hm, rfl⟩ := h
    simp only [Scene.target, Scene.read, index_some hG, Run.bind_ok, Run.pure_eq, hG, Option.map_some, Option.getD_some, if_pos trivial,
      index_some hm]

theorem write_target {s : Scene} {o : Owner} {e : Env} (h : s.env o = some e) (e' : Env) :
    ∃ s', s.write (s.target o) e' = .ok s' ∧ s'.frame = s.frame ∧ s'.numbers = s.numbers ∧
      ∀ o', s'.env o' = if o' = o then some e' else s.env o' := by
  cases o with
  | general =>
    refine ⟨{ s with global := e' }, rfl, rfl, rfl, ?_⟩
    intro o'
    cases o' <;> simp [Scene.env]
  | extruder n =>
    simp only [Scene.env, Option.map_eq_some_iff] at h
    obtain ⟨x, hx, rfl⟩ := h
    refine ⟨{ s with extruders := s.extruders.modify n fun e => { e with env := e' } }, ?_, rfl, ?_, ?_⟩
    · simp only [Scene.target, Scene.write, Scene.extruder, if_pos trivial, index_some hx, Run.bind_ok, Run.pure_eq]
    · exact map_modify _ _ _ _ fun _ => rfl
    · intro o'
      cases o' with
      | extruder m =>
        simp only [Scene.env, List.getElem?_modify, Owner.extruder.injEq]
        by_cases hm : m = n
        · subst hm; simp [hx]
        · rw [if_neg hm]
          cases s.extruders[m]? <;> simp [show ¬ n = m from fun h => hm h.symm]
      | _ => simp [Scene.env]
  | group g =>
    simp only [Scene.env, Option.map_eq_some_iff] at h
    obtain ⟨x, hx, rfl⟩ := h
    refine ⟨{ s with groups := s.groups.modify g fun g => { g with env := e' } }, ?_, ?_, rfl, ?_⟩
    · simp only [Scene.target, Scene.write, index_some hx, Run.bind_ok, Run.pure_eq]
    · unfold Scene.frame
      dsimp only
      rw [map_modify]
      intro G
      rfl
    · intro o'
      cases o' with
      | group m =>
        simp only [Scene.env, List.getElem?_modify, Owner.group.injEq]
        by_cases hm : m = g
        · subst hm; simp [hx]
        · rw [if_neg hm]
          cases s.groups[m]? <;> simp [show ¬ g = m from fun h => hm h.symm]
      | model m j =>
        simp only [Scene.env, List.getElem?_modify]
        rw [if_neg (by simp)]
        cases s.groups[m]? with
        | none => rfl
        | some G => by_cases hg : g = m <;> simp [hg]
      | _ => simp [Scene.env]
  | model g j =>
    have hr := read_target h
    simp only [Scene.env, Option.bind_eq_some_iff, Option.map_eq_some_iff] at h
    obtain ⟨G, hG, m, hm, rfl⟩ := h
    refine ⟨{ s with groups := s.groups.modify g fun g => { g with meshes := g.meshes.modify j fun m => { m with env := e' } } }, ?_, ?_, rfl, ?_⟩
    · simp only [Scene.target, Scene.write] at hr ⊢
      rw [hr]
      rfl
    · unfold Scene.frame
      dsimp only
      rw [map_modify]
      intro G
      unfold Group.shape
      dsimp only
      rw [map_modify]
      intro G
      rfl
    · intro o'
      cases o' with
      | group m =>
        simp only [Scene.env, List.getElem?_modify]
        rw [if_neg (by simp)]
        cases s.groups[m]? with
        | none => rfl
        | some G => by_cases hg : g = m <;> simp [hg]
      | model g' j' =>
        simp only [Scene.env, List.getElem?_modify, Owner.model.injEq]
        by_cases hg : g' = g
        · subst hg
          simp only [hG, true_and, Option.map_eq_map, Option.map_some, if_true, Option.bind_some, List.getElem?_modify]
          by_cases hj : j' = j
          · subst hj; simp [hm]
          · rw [if_neg hj]
            cases G.meshes[j']? <;> simp [show ¬ j = j' from fun h => hj h.symm]
        · rw [if_neg (fun h => hg h.1)]
          cases s.groups[g']? <;> simp [show ¬ g = g' from fun h => hg h.symm]
      | _ => simp [Scene.env]

theorem shape_get (s : Scene) (g : Nat) : (s.groups.map Group.shape)[g]? = s.groups[g]?.map Group.shape := List.getElem?_map

theorem target_frame {s s' : Scene} (h : s'.frame = s.frame) (o : Owner) : s'.target o = s.target o := by
  simp only [Scene.frame, Prod.mk.injEq] at h
  obtain ⟨h1, h2, -, -⟩ := h
  cases o with
  | general => rfl
  | extruder n => simp only [Scene.target, h2]
  | group g => rfl
  | model g j =>
    have := congrArg (fun l => l[g]?.map fun x => x.2.1) h1
    simp only [shape_get, Option.map_map] at this
    have e : ((fun x : List (Str × Str × Ref) × Nat × Nat => x.2.1) ∘ Group.shape) = fun G : Group => G.gen := rfl
    rw [e] at this
    simp only [Scene.target, this]

theorem env_isSome (s : Scene) (o : Owner) : (s.env o).isSome = true ↔ match o with
    | .general => True
    | .extruder n => n < s.extruders.length
    | .group g => g < (s.groups.map Group.shape).length
    | .model g j => ∃ sh, (s.groups.map Group.shape)[g]? = some sh ∧ j < sh.1.length := by
  cases o with
  | general => simp [Scene.env]
  | extruder n => simp [Scene.env]
  | group g => simp [Scene.env]
  | model g j =>
    simp only [Scene.env, shape_get]
    cases s.groups[g]? with
    | none => simp
    | some G => simp [Group.shape]

theorem env_isSome_mono {s s' : Scene} (h : s'.frame = s.frame) (hl : s.extruders.length ≤ s'.extruders.length) {o : Owner}
    (ho : (s.env o).isSome = true) : (s'.env o).isSome = true := by
  simp only [Scene.frame, Prod.mk.injEq] at h
  rw [env_isSome] at ho ⊢
  rw [h.1]
  cases o with
  | extruder n => exact lt_of_lt_of_le ho hl
  | _ => exact ho

/-! ## Values -/

theorem valueOf_append (asgs : List Assignment) (a : Assignment) (o : Owner) (k : Str) :
    valueOf (asgs ++ [a]) o k = if a.1 = o ∧ a.2.1 = k then some a.2.2 else valueOf asgs o k := by
  unfold valueOf
  rw [List.reverse_append, List.reverse_singleton, List.singleton_append, List.find?_cons]
  by_cases h : a.1 = o ∧ a.2.1 = k
  · rw [if_pos h, decide_eq_true h]; rfl
  · rw [if_neg h, decide_eq_false h]

theorem valueOf_none {asgs : List Assignment} {o : Owner} (h : ∀ a ∈ asgs, a.1 ≠ o) (k : Str) : valueOf asgs o k = none := by
  unfold valueOf
  rw [Option.map_eq_none_iff, List.find?_eq_none]
  intro a ha
  simp only [decide_eq_true_eq, not_and]
  intro he
  exact absurd he (h a (List.mem_reverse.mp ha))

/-- The values of a list of pairs on top of an environment. -/
def Env.adds (e : Env) (l : List (Str × Str)) : Env := l.foldl (fun e x => e.add x.1 x.2) e

theorem adds_value (l : List (Str × Str)) (e : Env) (asgs : List Assignment) (o : Owner) (h : ∀ k, e k = valueOf asgs o k) (k : Str) :
    e.adds l k = valueOf (asgs ++ l.map fun x => (o, x.1, x.2)) o k := by
  induction l generalizing e asgs with
  | nil => simpa [Env.adds] using h k
  | cons x l ih =>
    have := ih (e.add x.1 x.2) (asgs ++ [(o, x.1, x.2)]) (fun k => by
      rw [valueOf_append, Env.add]
      by_cases hk : x.1 = k
      · simp [hk]
      · simp [hk, Ne.symm hk, h k])
    simpa [Env.adds] using this

theorem adds_other (l : List (Str × Str)) (asgs : List Assignment) (o o' : Owner) (h : o ≠ o') (k : Str) :
    valueOf (asgs ++ l.map fun x => (o, x.1, x.2)) o' k = valueOf asgs o' k := by
  induction l generalizing asgs with
  | nil => simp
  | cons x l ih =>
    have := ih (asgs ++ [(o, x.1, x.2)])
    rw [valueOf_append, if_neg (fun hh => h hh.1)] at this
    simpa using this

/-- The extruders are numbered, and all containers have the values that were given. -/
structure Good (s : Scene) (asgs : List Assignment) : Prop where
  numbers : s.numbers = List.range s.extruders.length
  holds : ∀ o e, s.env o = some e → ∀ k, e k = valueOf asgs o k
  known : ∀ a ∈ asgs, (s.env a.1).isSome = true

theorem numbers_length (s : Scene) : s.numbers.length = s.extruders.length := by simp [Scene.numbers]

theorem Good.adds {s : Scene} {asgs : List Assignment} (hg : Good s asgs) {o : Owner} {e : Env} (h : s.env o = some e) (l : List (Str × Str)) :
    ∃ s', s.write (s.target o) (e.adds l) = .ok s' ∧ Good s' (asgs ++ l.map fun x => (o, x.1, x.2)) ∧ s'.frame = s.frame ∧
      s'.extruders.length = s.extruders.length := by
  obtain ⟨s', h1, h2, h3, h4⟩ := write_target h (e.adds l)
  have hlen : s'.extruders.length = s.extruders.length := by rw [← numbers_length, h3, numbers_length]
  refine ⟨s', h1, ⟨?_, ?_, ?_⟩, h2, hlen⟩
  · rw [h3, hlen, hg.numbers]
  · intro o' e' he k
    rw [h4] at he
    split at he
    · rename_i ho
      cases he
      subst ho
      exact adds_value l e asgs _ (hg.holds _ e h) k
    · rename_i ho
      rw [adds_other _ _ _ _ (Ne.symm ho)]
      exact hg.holds o' e' he k
  · intro a ha
    rw [h4]
    split
    · rfl
    · rename_i ho
      rcases List.mem_append.mp ha with ha | ha
      · exact hg.known a ha
      · obtain ⟨x, -, rfl⟩ := List.mem_map.mp ha
        exact absurd rfl ho

theorem Good.add {s : Scene} {asgs : List Assignment} (hg : Good s asgs) {o : Owner} (h : (s.env o).isSome = true) (k v : Str) :
    ∃ s', s.add (s.target o) k v = .ok s' ∧ Good s' (asgs ++ [(o, k, v)]) ∧ s'.frame = s.frame ∧
      s'.extruders.length = s.extruders.length := by
  obtain ⟨e, he⟩ := Option.isSome_iff_exists.mp h
  obtain ⟨s', h1, h2⟩ := hg.adds he [(k, v)]
  refine ⟨s', ?_, h2⟩
  unfold Scene.add
  rw [read_target he, Run.bind_ok]
  exact h1

/-! ## More extruders -/

theorem Good.push {w : World} {s : Scene} {asgs : List Assignment} (hg : Good s asgs) (hc : s.extruders.length < s.cap) :
    Good (s.push w s.extruders.length) asgs ∧ (s.push w s.extruders.length).frame = s.frame ∧
      (s.push w s.extruders.length).extruders.length = s.extruders.length + 1 := by
  unfold Scene.push
  rw [if_pos hc]
  refine ⟨⟨?_, ?_, ?_⟩, rfl, by simp⟩
  · simp only [Scene.numbers, List.map_append, List.map_cons, List.map_nil, List.length_append, List.length_cons, List.length_nil,
      Nat.zero_add, List.range_succ]
    rw [show s.extruders.map (·.nr) = s.numbers from rfl, hg.numbers]
  · intro o e he k
    cases o with
    | extruder n =>
      simp only [Scene.env, Option.map_eq_some_iff] at he
      obtain ⟨x, hx, rfl⟩ := he
      rw [List.getElem?_append] at hx
      split at hx
      · exact hg.holds (.extruder n) x.env (by simp [Scene.env, hx]) k
      · rename_i hn
        have : x = ⟨s.extruders.length, Env.empty⟩ := by
          rcases List.getElem?_eq_some_iff.mp hx with ⟨hlt, hx⟩
          simp only [List.length_cons, List.length_nil] at hlt
          have h0 : n - s.extruders.length = 0 := by omega
          simp only [h0, List.getElem_cons_zero] at hx
          exact hx.symm
        subst this
        refine (valueOf_none (fun a ha hax => ?_) k).symm
        have := hg.known a ha
        rw [hax, env_isSome] at this
        exact hn this
    | general => exact hg.holds .general e he k
    | group g => exact hg.holds (.group g) e he k
    | model g j => exact hg.holds (.model g j) e he k
  · intro a ha
    have := hg.known a ha
    rw [env_isSome] at this ⊢
    cases h : a.1 with
    | extruder n =>
      rw [h] at this
      simp only [List.length_append, List.length_cons, List.length_nil]
      simp only at this
      omega
    | _ => rw [h] at this; exact this

theorem Good.extend {w : World} (n : Nat) {s : Scene} {asgs : List Assignment} (hg : Good s asgs) (hc : s.extruders.length + n ≤ s.cap) :
    Good (s.extend w n) asgs ∧ (s.extend w n).frame = s.frame ∧ (s.extend w n).extruders.length = s.extruders.length + n := by
  induction n generalizing s with
  | zero => exact ⟨hg, rfl, rfl⟩
  | succ n ih =>
    obtain ⟨h1, h2, h3⟩ := hg.push (w := w) (by omega)
    have hcap : (s.push w s.extruders.length).cap = s.cap := congrArg (fun x => x.2.2.1) h2
    obtain ⟨h4, h5, h6⟩ := ih h1 (by rw [h3, hcap]; omega)
    exact ⟨h4, h5.trans h2, by rw [Scene.extend, h6, h3]; omega⟩

/-- Extruders up to a number. -/
theorem Good.extendTo {w : World} (n : Nat) {s : Scene} {asgs : List Assignment} (hg : Good s asgs) (hs : s.extruders.length ≤ s.cap) (hc : n ≤ s.cap) :
    Good (s.extend w (n - s.extruders.length)) asgs ∧ (s.extend w (n - s.extruders.length)).frame = s.frame ∧
      (s.extend w (n - s.extruders.length)).extruders.length = max s.extruders.length n := by
  obtain ⟨h1, h2, h3⟩ := hg.extend (w := w) (n - s.extruders.length) (by omega)
  exact ⟨h1, h2, by rw [h3]; omega⟩

end Verif.Cli
