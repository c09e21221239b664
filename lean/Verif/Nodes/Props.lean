import Verif.Nodes.More

/-! # C111: no branch of tree support hangs in the air -/

namespace Verif.Nodes

variable {P : Type}

/-- No element is used after it was deleted. -/
theorem C111_safe (inp : Input P) (st : State P) (ho : inp.Ok) (hs : Start inp st) : ∃ st', createNodes inp st = some st' := by
  by_cases h : inp.layers = []
  · exact ⟨st, by unfold createNodes; rw [h]⟩
  · obtain ⟨st', h1, _⟩ := run ho hs (keeps_true inp) (fun _ _ => trivial) h
    exact ⟨st', h1⟩

theorem run_of {inp : Input P} (ho : inp.Ok) {st st' : State P} (hs : Start inp st) {Q : Nat → List Nat → State P → List Nat → Prop} (hQ : Keeps inp Q)
    (h0 : ∀ todo, (∀ e, inp.Has e → (inp.elem e).layer = 0 → e ∈ todo) → Q 0 todo st []) (hr : createNodes inp st = some st') :
    (∀ e, st'.alive e = true → inp.Has e) ∧
      ((∀ e, ¬ inp.Has e) ∨ Inv inp inp.layers.length [] st' [] ∧ Q inp.layers.length [] st' []) := by
  by_cases h : inp.layers = []
  · unfold createNodes at hr
    rw [h] at hr
    cases hr
    exact ⟨fun e => (hs.alive e).1, Or.inl fun e ⟨es, he, _⟩ => by rw [h] at he; cases he⟩
  · obtain ⟨st1, h1, h2, h3⟩ := run ho hs hQ h0 h
    rw [hr] at h1
    cases h1
    exact ⟨h2.has, Or.inr ⟨h2, h3⟩⟩

/-- Every element that is left is one of the elements that were there, it has a point, and the elements on the layer above from which it comes are left
too. If it is not on the first layer, the branch goes on below it, or it ends there, or it ends one layer further up. -/
theorem C111_held (inp : Input P) (st st' : State P) (ho : inp.Ok) (hs : Start inp st) (hr : createNodes inp st = some st') (e : Nat)
    (he : st'.alive e = true) :
    inp.Has e ∧ (∃ p, st'.point e = some p) ∧ (∀ p ∈ (inp.elem e).parents, st'.alive p = true) ∧
      ((inp.elem e).layer = 0 ∨ GoesOn inp st' e ∨ Rests inp st' e ∨ ∃ p ∈ (inp.elem e).parents, st'.alive p = true ∧ Rests inp st' p) := by
  obtain ⟨h1, h2⟩ := run_of ho hs (keeps_true inp) (fun _ _ => trivial) hr
  rcases h2 with h2 | ⟨h2, _⟩
  · exact absurd (h1 e he) (h2 e)
  · have hp := (h2.point e he (by simp) (Nat.le_of_lt (has_lt ho (h1 e he))) (by simp)).1
    refine ⟨h1 e he, Option.ne_none_iff_exists'.1 hp, fun p hp => h2.up e p he (by simp) hp, ?_⟩
    rcases Nat.eq_zero_or_pos (inp.elem e).layer with hl | hl
    · exact Or.inl hl
    · right
      rcases h2.held e he (by simp) hl hp with ⟨c, hc, _, hce⟩ | h3 | ⟨p, h3, q, h4, h5⟩
      · exact Or.inl ⟨c, hc, hce⟩
      · exact Or.inr (Or.inl h3)
      · exact Or.inr (Or.inr ⟨p, h3, h2.up e p he (by simp) h3, q, h5, Or.inl h4⟩)

/-- The points are in the areas in which the branches may be. -/
theorem C111_area (inp : Input P) (st st' : State P) (area : Nat → P → Prop) (ho : inp.Ok) (hs : Start inp st) (ha : InAreas inp st area)
    (hr : createNodes inp st = some st') (e : Nat) (he : st'.alive e = true) : ∃ p, st'.point e = some p ∧ area e p := by
  obtain ⟨p, hp⟩ := (C111_held inp st st' ho hs hr e he).2.1
  obtain ⟨h1, h2⟩ := run_of ho hs (keeps_area ho ha) (fun _ _ x q hx hq => ha.start x q ((hs.alive x).1 hx) hq) hr
  rcases h2 with h2 | ⟨_, h2⟩
  · exact absurd (h1 e he) (h2 e)
  · exact ⟨p, hp, h2 e p he hp⟩

/-- If branches rest on the build plate whenever they can, a branch that reaches the first layer is left, up to where it comes from. -/
theorem C111_kept (inp : Input P) (st st' : State P) (ho : inp.Ok) (hs : Start inp st) (hb : inp.buildplate = true)
    (hr : createNodes inp st = some st') (e : Nat) (he : Rooted inp e) : st'.alive e = true ∧ ∃ p, st'.point e = some p := by
  obtain ⟨_, h2⟩ := run_of ho hs (keeps_rooted ho hb) (fun _ _ x hx => ⟨(hs.alive x).2 (hx.has ho), by simp⟩) hr
  rcases h2 with h2 | ⟨_, h2⟩
  · exact absurd (he.has ho) (h2 e)
  · exact ⟨(h2 e he).1, (C111_held inp st st' ho hs hr e (h2 e he).1).2.1⟩

/-- If branches rest on the build plate whenever they can, and no point was set in the beginning, no branch has a gap: it goes on below every element that
is left and not on the first layer, or it ends there. And from one layer to the next the point is only moved as far as the area needs it, unless the
branch rests on the upper one. -/
theorem C111_no_gap (inp : Input P) (st st' : State P) (ho : inp.Ok) (hs : Start inp st) (hb : inp.buildplate = true)
    (h0 : ∀ e, 0 < (inp.elem e).layer → st.point e = none) (hr : createNodes inp st = some st') (e : Nat) (he : st'.alive e = true) :
    ((inp.elem e).layer = 0 ∨ GoesOn inp st' e ∨ Rests inp st' e) ∧
      ∀ p ∈ (inp.elem e).parents, ∃ q, st'.point e = some q ∧
        (st'.point p = some (inp.moved p q) ∨ ∃ r, inp.placed p = some r ∧ st'.point p = some r) := by
  have hQ : ∀ todo, (∀ e, inp.Has e → (inp.elem e).layer = 0 → e ∈ todo) → Tight inp 0 todo st [] := fun todo ht =>
    ⟨fun y _ hl hp => absurd (h0 y hl) hp, fun x _ _ hl hp => absurd (h0 x hl) hp, fun c x hc _ h1 h2 =>
      absurd (ht c ((hs.alive c).1 hc) (Nat.le_zero.1 h2)) h1⟩
  obtain ⟨h1, h2⟩ := run_of ho hs (keeps_tight ho hb) hQ hr
  rcases h2 with h2 | ⟨h2, h3⟩
  · exact absurd (h1 e he) (h2 e)
  · have hl := Nat.le_of_lt (has_lt ho (h1 e he))
    have hp := (h2.point e he (by simp) hl (by simp)).1
    refine ⟨?_, fun p hp => h3.follow e p he (by simp) (by simp) hl hp⟩
    rcases Nat.eq_zero_or_pos (inp.elem e).layer with hl | hl
    · exact Or.inl hl
    · rcases h3.held e he (by simp) hl hp with ⟨c, hc, _, hce⟩ | h4
      · exact Or.inr (Or.inl ⟨c, hc, hce⟩)
      · exact Or.inr (Or.inr h4)

end Verif.Nodes
