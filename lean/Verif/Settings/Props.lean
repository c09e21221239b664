import Verif.Settings.Model

/-! # Properties of setting lookup: C11, C12 -/

namespace Verif.Settings
open Verif

/-- `Ancestors w c l`: `l` lists `c`, its parent, the parent's parent, … up to a container without parent. -/
inductive Ancestors (w : World) : Nat → List Nat → Prop
  | root {c} : (w.box c).parent = none → Ancestors w c [c]
  | step {c p l} : (w.box c).parent = some p → Ancestors w p l → Ancestors w c (c :: l)

/-- The nearest ancestor's own value. -/
def nearest (w : World) (key : String) (l : List Nat) : Answer :=
  match l.findSome? fun i => (w.box i).own key with
  | some v => .value v
  | none => .exit2

/-- **C11, key without limit.** The value is that of the nearest ancestor that holds one; if none does, exit. -/
theorem C11_unlimited_lookup (w : World) (key : String) (hl : w.limit key = none) (c : Nat) (l : List Nat)
    (h : Ancestors w c l) : ∀ fuel, l.length ≤ fuel → get w fuel c key = .ok (nearest w key l) := by
  induction h with
  | @root c hp =>
    intro fuel hf
    obtain ⟨f, rfl⟩ : ∃ f, fuel = f + 1 := ⟨fuel - 1, by simp at hf; omega⟩
    simp only [get, hl, hp, nearest, List.findSome?_cons, List.findSome?_nil]
    cases (w.box c).own key <;> rfl
  | @step c p l hp _ ih =>
    intro fuel hf
    obtain ⟨f, rfl⟩ : ∃ f, fuel = f + 1 := ⟨fuel - 1, by simp at hf; omega⟩
    have ih := ih f (by simp at hf; omega)
    simp only [get, hl, hp, nearest, List.findSome?_cons]
    cases h : (w.box c).own key with
    | some v => rfl
    | none => simp only [ih, nearest]

/-- What a lookup of a key limited to extruder `e` gives, from container `c`: `c`'s own value, else the extruder's
own, else the own value of the extruder's parent; `none` if there is neither. -/
def limitedValue (w : World) (key : String) (c e : Nat) : Option String :=
  ((w.box c).own key).or (((w.box e).own key).or ((w.box e).parent.bind fun p => (w.box p).own key))

/-- **C11, limited key.** If one of the container, the extruder and the extruder's parent holds the key, the lookup
yields the first of these values; containers further up are never asked. -/
theorem C11_limited_lookup (w : World) (key : String) (c e : Nat) (hl : w.limit key = some e) (v : String)
    (h : limitedValue w key c e = some v) : ∀ fuel, 3 ≤ fuel → get w fuel c key = .ok (.value v) := by
  intro fuel hf
  obtain ⟨f, rfl⟩ : ∃ f, fuel = f + 3 := ⟨fuel - 3, by omega⟩
  unfold limitedValue at h
  simp only [get, getWithoutLimiting, hl]
  cases hc : (w.box c).own key with
  | some u => simp_all
  | none =>
    cases he : (w.box e).own key with
    | some u => simp_all
    | none =>
      cases hp : (w.box e).parent with
      | none => simp_all
      | some p =>
        cases hpo : (w.box p).own key with
        | some u => simp_all
        | none => simp_all

/-- **C11, limited key, nothing found.** The lookup exits if the extruder has no parent. -/
theorem C11_limited_lookup_exit (w : World) (key : String) (c e : Nat) (hl : w.limit key = some e)
    (h : limitedValue w key c e = none) (hp : (w.box e).parent = none) :
    ∀ fuel, 2 ≤ fuel → get w fuel c key = .ok .exit2 := by
  intro fuel hf
  obtain ⟨f, rfl⟩ : ∃ f, fuel = f + 2 := ⟨fuel - 2, by omega⟩
  unfold limitedValue at h
  simp only [get, getWithoutLimiting, hl]
  cases hc : (w.box c).own key with
  | some u => simp [hc] at h
  | none =>
    cases he : (w.box e).own key with
    | some u => simp [hc, he] at h
    | none => simp [hp]

/-- **C12, violated.** A limited key that neither the container, nor the extruder, nor the extruder's parent holds is
looked up forever, even if a container further up holds it. -/
theorem C12_limited_lookup_diverges (w : World) (key : String) (c e p : Nat) (hl : w.limit key = some e)
    (h : limitedValue w key c e = none) (hp : (w.box e).parent = some p) : ∀ fuel, get w fuel c key = .diverge := by
  have hc : (w.box c).own key = none := by
    unfold limitedValue at h; cases hc : (w.box c).own key <;> simp_all
  have he : (w.box e).own key = none := by
    unfold limitedValue at h; cases he : (w.box e).own key <;> simp_all
  have hpo : (w.box p).own key = none := by
    unfold limitedValue at h; simp_all
  have key2 : ∀ fuel, get w fuel p key = .diverge ∧ getWithoutLimiting w fuel e key = .diverge := by
    intro fuel
    induction fuel with
    | zero => exact ⟨rfl, rfl⟩
    | succ f ih =>
      constructor
      · simp only [get, hpo, hl]; exact ih.2
      · simp only [getWithoutLimiting, he, hp]; exact ih.1
  intro fuel
  cases fuel with
  | zero => rfl
  | succ f => simp only [get, hc, hl]; exact (key2 f).2

/-- **C12, violated.** `has` of a limited key that neither the container nor the extruder holds never returns, even
if the extruder's parent holds it (then `get` does return a value). -/
theorem C12_has_diverges (w : World) (key : String) (c e : Nat) (hl : w.limit key = some e)
    (hc : (w.box c).own key = none) (he : (w.box e).own key = none) :
    ∀ fuel, has w fuel c key true = .diverge := by
  have h2 : ∀ fuel, has w fuel e key true = .diverge := by
    intro fuel
    induction fuel with
    | zero => rfl
    | succ f ih => simp [has, he, hl, ih]
  intro fuel
  cases fuel with
  | zero => rfl
  | succ f => simp [has, hc, hl, h2 f]

/-- A slice in which `get` returns a value although `has` never returns: scene 0 holds the key, extruder 1 and mesh 2
do not, and the key is limited to the extruder. -/
def exampleWorld : World where
  box
    | 0 => ⟨fun k => if k = "layer_height" then some "0.2" else none, none⟩
    | 1 => ⟨fun _ => none, some 0⟩
    | _ => ⟨fun _ => none, some 1⟩
  limit k := if k = "layer_height" then some 1 else none

example : get exampleWorld 10 2 "layer_height" = .ok (.value "0.2") := by decide
theorem C12_get_and_has_disagree : get exampleWorld 10 2 "layer_height" = .ok (.value "0.2") ∧
    ∀ fuel, has exampleWorld fuel 2 "layer_height" true = .diverge :=
  ⟨by decide, C12_has_diverges exampleWorld "layer_height" 2 1 (by decide) (by decide) (by decide)⟩

/-- A slice as the engine sets it up while printing a mesh group (Slice.cpp:36, Scene.cpp:23): mesh 3, extruder 2,
mesh group 1, scene 0. The scene holds the key, nobody else does; limited to the extruder it is never found. -/
def exampleWorld2 : World where
  box
    | 0 => ⟨fun k => if k = "layer_height" then some "0.2" else none, none⟩
    | 1 => ⟨fun _ => none, some 0⟩
    | 2 => ⟨fun _ => none, some 1⟩
    | _ => ⟨fun _ => none, some 2⟩
  limit k := if k = "layer_height" then some 2 else none

theorem C12_get_diverges_although_scene_holds_key :
    (exampleWorld2.box 0).own "layer_height" = some "0.2" ∧ Ancestors exampleWorld2 3 [3, 2, 1, 0] ∧
      ∀ fuel, get exampleWorld2 fuel 3 "layer_height" = .diverge :=
  ⟨by decide, .step rfl (.step rfl (.step rfl (.root rfl))),
    C12_limited_lookup_diverges exampleWorld2 "layer_height" 3 2 1 (by decide) (by decide) (by decide)⟩

/-- **C12 for keys without a limit.** Over every finite parent chain `get` and `has` both return, and `has` is true
exactly if `get` returns a value. -/
theorem C12_terminates_and_agrees_partial (w : World) (key : String) (hl : w.limit key = none) (c : Nat) (l : List Nat)
    (h : Ancestors w c l) (fuel : Nat) (hf : l.length ≤ fuel) :
    ∃ a b, get w fuel c key = .ok a ∧ has w fuel c key true = .ok b ∧ (b = true ↔ ∃ v, a = .value v) := by
  refine ⟨nearest w key l, (l.findSome? fun i => (w.box i).own key).isSome, C11_unlimited_lookup w key hl c l h fuel hf,
    ?_, ?_⟩
  · induction h generalizing fuel with
    | @root c hp =>
      obtain ⟨f, rfl⟩ : ∃ f, fuel = f + 1 := ⟨fuel - 1, by simp at hf; omega⟩
      simp only [has, hl, hp, List.findSome?_cons, List.findSome?_nil]
      cases (w.box c).own key <;> rfl
    | @step c p l hp _ ih =>
      obtain ⟨f, rfl⟩ : ∃ f, fuel = f + 1 := ⟨fuel - 1, by simp at hf; omega⟩
      have ih := ih f (by simp at hf; omega)
      simp only [has, hl, hp, List.findSome?_cons]
      cases h : (w.box c).own key with
      | some v => rfl
      | none => simpa using ih
  · unfold nearest
    cases l.findSome? fun i => (w.box i).own key <;> simp

/-- **C12 for limited keys that the extruder holds**: `get` and `has` return and agree. -/
theorem C12_limited_and_held_partial (w : World) (key : String) (c e : Nat) (hl : w.limit key = some e) (v : String)
    (he : (w.box e).own key = some v) : ∀ fuel, 2 ≤ fuel →
      (∃ u, get w fuel c key = .ok (.value u)) ∧ has w fuel c key true = .ok true := by
  intro fuel hf
  obtain ⟨f, rfl⟩ : ∃ f, fuel = f + 2 := ⟨fuel - 2, by omega⟩
  simp only [get, getWithoutLimiting, has, hl, he]
  cases (w.box c).own key <;> simp

example : Ancestors exampleWorld 2 [2, 1, 0] := .step rfl (.step rfl (.root rfl))

/-- **C11, writing.** After `add`, the container itself returns the new value, whatever the limits. -/
theorem C11_add_visible (w : World) (c : Nat) (key value : String) (fuel : Nat) :
    get (w.add c key value) (fuel + 1) c key = .ok (.value value) := by
  simp [get, World.add]

/-- **C11, writing.** `add` and `remove` change nothing that another container holds itself, and no other key. -/
theorem C11_add_frame (w : World) (c i : Nat) (key k value : String) (h : i ≠ c ∨ k ≠ key) :
    ((w.add c key value).box i).own k = (w.box i).own k ∧ ((w.remove c key).box i).own k = (w.box i).own k := by
  unfold World.add World.remove
  by_cases hi : i = c
  · subst hi
    have hk : k ≠ key := by rcases h with h | h; exact absurd rfl h; exact h
    simp [hk]
  · simp [hi]

/-- **C11, writing.** Setting a value in a container changes no lookup of another key anywhere. -/
theorem C11_add_other_key (w : World) (c : Nat) (key k value : String) (hk : k ≠ key) (fuel i : Nat) :
    get (w.add c key value) fuel i k = get w fuel i k := by
  have h : ∀ fuel, (∀ i, get (w.add c key value) fuel i k = get w fuel i k) ∧
      (∀ i, getWithoutLimiting (w.add c key value) fuel i k = getWithoutLimiting w fuel i k) := by
    intro fuel
    induction fuel with
    | zero => exact ⟨fun _ => rfl, fun _ => rfl⟩
    | succ f ih =>
      have ho : ∀ i, ((w.add c key value).box i).own k = (w.box i).own k := fun i => (C11_add_frame w c i key k value (Or.inr hk)).1
      have hp : ∀ i, ((w.add c key value).box i).parent = (w.box i).parent := by
        intro i; unfold World.add; by_cases hi : i = c <;> simp [hi]
      have hlim : (w.add c key value).limit = w.limit := rfl
      constructor
      · intro i
        simp only [get, ho, hp, hlim, ih.1, ih.2]
      · intro i
        simp only [getWithoutLimiting, ho, hp, ih.1]
  exact (h fuel).1 i

end Verif.Settings
