import Verif.Skirt.Model

/-! # Lemmas about skirt and brim -/

namespace Verif.Skirt

open Spec

variable {P : Type}

/-! ## Sorting -/

theorem le_iff (a b : Off) : Off.le a b = true ↔ a.total < b.total ∨ a.total = b.total ∧ a.ext ≤ b.ext := by
  rw [Off.le]
  split <;> simp <;> omega

theorem le_trans' (a b c : Off) (h1 : Off.le a b = true) (h2 : Off.le b c = true) : Off.le a c = true := by
  rw [le_iff] at *
  omega

theorem le_total' (a b : Off) : (Off.le a b || Off.le b a) = true := by
  rw [Bool.or_eq_true, le_iff, le_iff]
  omega

instance : Std.Total fun a b : Off => Off.le a b = true := ⟨fun a b => by have := le_total' a b; rwa [Bool.or_eq_true] at this⟩

instance : IsTrans Off fun a b : Off => Off.le a b = true := ⟨le_trans'⟩

theorem sort_perm (l : List Off) : (sort l).Perm l := List.perm_insertionSort _ l

theorem mem_sort {l : List Off} {o : Off} : o ∈ sort l ↔ o ∈ l := (sort_perm l).mem_iff

theorem length_sort (l : List Off) : (sort l).length = l.length := (sort_perm l).length_eq

theorem sorted_sort (l : List Off) : (sort l).Pairwise fun a b => Off.le a b = true :=
  List.pairwise_insertionSort _ l

/-- Those of one kind stay in order if they are in order. -/
theorem filter_sort (p : Off → Bool) (l : List Off) (h : (l.filter p).Pairwise fun a b => Off.le a b = true) :
    (sort l).filter p = l.filter p := by
  have h1 : (l.filter p).Sublist (sort l) := List.sublist_insertionSort h List.filter_sublist
  have h2 := h1.filter p
  rw [List.filter_filter] at h2
  simp only [Bool.and_self] at h2
  refine (h2.eq_of_length ?_).symm
  exact ((sort_perm l).filter p).length_eq.symm

/-! ## One line -/

/-- The pieces of a round. -/
theorem gen_some {g : Geo P} {confs : List Conf} {ol : Outline P} {st st' : St P} {o : Off} {m : Made P} (h : gen g confs ol st o = some (st', m)) :
    ∃ c, confs[o.ext]? = some c ∧ m.ext = o.ext ∧ m.inset = o.inset ∧ m.total = o.total ∧
      Inside m.raw (st.allowed o.ext) ∧
      (∀ p, st'.covered p = (st.covered p || g.wide (c.width.tdiv 2 + 10) m.raw p)) ∧
      (∀ e, st'.allowed e = if (confs[e]?.any (·.used)) then fun p => st.allowed e p && !st'.covered p else st.allowed e) ∧
      (∀ e, st'.out e = if e = o.ext then put (st.out e) o.inset (g.tidy c.width m.raw) else st.out e) := by
  rw [gen] at h
  split at h
  · cases h
  · rename_i c hc
    dsimp only at h
    split at h
    · cases h
    · cases h
      refine ⟨c, hc, rfl, rfl, rfl, ?_, fun _ => rfl, fun _ => rfl, fun _ => rfl⟩
      intro p hp
      simp only [Bool.and_eq_true] at hp
      exact hp.2

theorem gen_isSome (g : Geo P) {confs : List Conf} (ol : Outline P) (st : St P) {o : Off} {c : Conf} (hc : confs[o.ext]? = some c)
    (hr : ∀ k, o.ref = some k → k < (st.out o.ext).length) : ∃ r, gen g confs ol st o = some r := by
  rw [gen, hc]
  dsimp only
  split
  · rename_i hb
    split at hb
    · cases hb
    · rename_i k hk
      rw [List.getElem?_eq_getElem (hr k hk)] at hb
      cases hb
  · exact ⟨_, rfl⟩

theorem put_end (l : List (Area P)) (a : Area P) : put l l.length a = l ++ [a] := by
  rw [put]
  simp only [Nat.le_refl, if_true]
  have h : l.length + 1 - l.length = 1 := by omega
  rw [h]
  simp only [List.replicate_one]
  rw [List.modify_eq_set_getElem?]
  simp

/-! ## What is to be done -/

/-- The offsets that are still to be made fit to what was made. -/
structure Ready (confs : List Conf) (st : St P) (todo : List Off) : Prop where
  sorted : todo.Pairwise fun a b => Off.le a b = true
  conf : ∀ o ∈ todo, ∃ c, confs[o.ext]? = some c ∧ c.used = true ∧ 0 ≤ c.width
  next : ∀ (e i : Nat) (o : Off), (todo.filter fun o => o.ext == e)[i]? = some o → o.inset = (st.out e).length + i ∧
    o.ref = (if o.inset = 0 then none else some (o.inset - 1)) ∧ (o.last = true ↔ i + 1 = (todo.filter fun o => o.ext == e).length)

theorem Ready.tail {confs : List Conf} {st st' : St P} {o : Off} {rest : List Off} (h : Ready confs st (o :: rest))
    (hout : ∀ e, (st'.out e).length = if e = o.ext then (st.out e).length + 1 else (st.out e).length) : Ready confs st' rest where
  sorted := (List.pairwise_cons.1 h.sorted).2
  conf := fun x hx => h.conf x (List.mem_cons_of_mem _ hx)
  next := by
    intro e i x hx
    by_cases he : o.ext = e
    · have := h.next e (i + 1) x (by rw [List.filter_cons_of_pos (by simpa using he)]; simpa using hx)
      rw [List.filter_cons_of_pos (by simpa using he)] at this
      rw [hout, if_pos he.symm]
      refine ⟨by omega, this.2.1, ?_⟩
      rw [this.2.2, List.length_cons]
      omega
    · have := h.next e i x (by rw [List.filter_cons_of_neg (by simpa using he)]; exact hx)
      rw [List.filter_cons_of_neg (by simpa using he)] at this
      rw [hout, if_neg (Ne.symm he)]
      exact this

/-- The offsets without the first, and one more if that was the last one of its extruder. -/
theorem Ready.further {confs : List Conf} {st st' : St P} {o : Off} {rest : List Off} {c : Conf} (h : Ready confs st (o :: rest))
    (hlast : o.last = true) (hout : ∀ e, (st'.out e).length = if e = o.ext then (st.out e).length + 1 else (st.out e).length) :
    Ready confs st' (sort (rest ++ [Verif.Skirt.further c o])) := by
  have ht := h.tail hout
  have h0 := h.next o.ext 0 o (by rw [List.filter_cons_of_pos (by simp)]; rfl)
  have hnone : rest.filter (fun x => x.ext == o.ext) = [] := by
    have := h0.2.2.1 hlast
    rw [List.filter_cons_of_pos (by simp), List.length_cons] at this
    exact List.eq_nil_of_length_eq_zero (by omega)
  have hf : ∀ e, (sort (rest ++ [Verif.Skirt.further c o])).filter (fun x => x.ext == e) =
      if e = o.ext then [Verif.Skirt.further c o] else rest.filter fun x => x.ext == e := by
    intro e
    have hfe : (rest ++ [Verif.Skirt.further c o]).filter (fun x => x.ext == e) = if e = o.ext then [Verif.Skirt.further c o] else rest.filter fun x => x.ext == e := by
      rw [List.filter_append]
      by_cases he : e = o.ext
      · subst he
        rw [hnone, if_pos rfl]
        simp [Verif.Skirt.further]
      · rw [if_neg he, List.filter_cons_of_neg (by simp [Verif.Skirt.further]; exact Ne.symm he)]
        simp
    rw [filter_sort, hfe]
    rw [hfe]
    split
    · simp
    · exact ht.sorted.sublist List.filter_sublist
  constructor
  · exact sorted_sort _
  · intro x hx
    rw [mem_sort, List.mem_append, List.mem_singleton] at hx
    rcases hx with hx | rfl
    · exact ht.conf x hx
    · exact h.conf o List.mem_cons_self
  · intro e i x hx
    rw [hf] at hx ⊢
    split at hx
    · rename_i he
      subst he
      cases i with
      | succ i => simp at hx
      | zero =>
        simp only [List.getElem?_cons_zero, Option.some.injEq] at hx
        subst hx
        rw [hout, if_pos rfl]
        have := h0.1
        simp only [Verif.Skirt.further]
        refine ⟨by omega, by simp, by simp⟩
    · rename_i he
      rw [if_neg he]
      exact ht.next e i x hx

/-! ## All rounds -/

/-- How the totals are changed. -/
def addTo (total : Nat → Nat) (e added : Nat) : Nat → Nat := fun x => if x = e then total x + added else total x

/-- What is to be done after a round. -/
def after (c : Conf) (o : Off) (rest : List Off) (added total : Nat) : List Off :=
  if added ≠ 0 ∧ o.last ∧ total < c.minLength ∧ 0 < total then sort (rest ++ [further c o]) else rest

/-- The rounds of the loop. -/
inductive Run (g : Geo P) (confs : List Conf) (outlines : Nat → Outline P) : St P → (Nat → Nat) → List Off → St P → (Nat → Nat) → List (Made P) → Prop where
  | done (st : St P) (total : Nat → Nat) : Run g confs outlines st total [] st total []
  | step {st st1 st2 : St P} {total total2 : Nat → Nat} {o : Off} {rest : List Off} {c : Conf} {m : Made P} {l : List (Made P)}
      (hc : confs[o.ext]? = some c) (hg : gen g confs (outlines o.ext) st o = some (st1, m))
      (hr : Run g confs outlines st1 (addTo total o.ext (g.length m.raw)) (after c o rest (g.length m.raw) (total o.ext + g.length m.raw)) st2 total2 l) :
      Run g confs outlines st total (o :: rest) st2 total2 (m :: l)

theorem primary_run {g : Geo P} {confs : List Conf} {outlines : Nat → Outline P} {n : Nat} {st st2 : St P} {total total2 : Nat → Nat} {todo : List Off}
    {l : List (Made P)} (h : primary g confs outlines n st total todo = some (st2, total2, l)) : Run g confs outlines st total todo st2 total2 l := by
  induction n generalizing st total todo l with
  | zero =>
    cases todo with
    | nil =>
      rw [primary] at h
      cases h
      exact Run.done _ _
    | cons => simp [primary] at h
  | succ n ih =>
    cases todo with
    | nil =>
      rw [primary] at h
      cases h
      exact Run.done _ _
    | cons o rest =>
      rw [primary] at h
      split at h
      · rename_i st1 m c hg hc
        rw [Option.map_eq_some_iff] at h
        obtain ⟨⟨a, b, l'⟩, h1, h2⟩ := h
        cases h2
        refine Run.step hc hg ?_
        have e1 : (if g.length m.raw = 0 then total else fun e => if e = o.ext then total e + g.length m.raw else total e) = addTo total o.ext (g.length m.raw) := by
          funext e
          simp only [addTo]
          split
          · rename_i h0
            rw [h0]
            simp
          · rfl
        rw [e1] at h1
        have e2 : addTo total o.ext (g.length m.raw) o.ext = total o.ext + g.length m.raw := by simp [addTo]
        rw [e2] at h1
        exact ih h1
      · cases h

/-- How much there is to do, at most. -/
def work (confs : List Conf) (total : Nat → Nat) (todo : List Off) : Nat := todo.length + ((List.range confs.length).map fun e => (confs[e]?.elim 0 (·.minLength)) - total e).sum

theorem sum_le {f f' : Nat → Nat} (hle : ∀ x, f' x ≤ f x) (n : Nat) : ((List.range n).map f').sum ≤ ((List.range n).map f).sum := by
  induction n with
  | zero => simp
  | succ n ih =>
    rw [List.range_succ]
    simp only [List.map_append, List.sum_append, List.map_cons, List.map_nil, List.sum_cons, List.sum_nil]
    have := hle n
    omega

theorem sum_lt {f f' : Nat → Nat} {n e : Nat} (he : e < n) (hle : ∀ x, f' x ≤ f x) (hlt : f' e < f e) : ((List.range n).map f').sum < ((List.range n).map f).sum := by
  induction n with
  | zero => omega
  | succ n ih =>
    rw [List.range_succ]
    simp only [List.map_append, List.sum_append, List.map_cons, List.map_nil, List.sum_cons, List.sum_nil]
    have hn := sum_le hle n
    by_cases h : e = n
    · subst h; omega
    · have := ih (by omega)
      have := hle n
      omega

theorem out_length {g : Geo P} {confs : List Conf} {ol : Outline P} {st st' : St P} {o : Off} {m : Made P} (h : gen g confs ol st o = some (st', m))
    (hi : o.inset = (st.out o.ext).length) (e : Nat) :
    (st'.out e).length = if e = o.ext then (st.out e).length + 1 else (st.out e).length := by
  obtain ⟨c, _, _, _, _, _, _, _, h8⟩ := gen_some h
  rw [h8]
  split
  · rename_i he
    subst he
    rw [hi, put_end]
    simp
  · rfl

theorem Ready.inset {confs : List Conf} {st : St P} {o : Off} {rest : List Off} (h : Ready confs st (o :: rest)) :
    o.inset = (st.out o.ext).length ∧ o.ref = (if o.inset = 0 then none else some (o.inset - 1)) := by
  have h0 := h.next o.ext 0 o (by rw [List.filter_cons_of_pos (by simp)]; rfl)
  exact ⟨h0.1, h0.2.1⟩

theorem Ready.after {g : Geo P} {confs : List Conf} {ol : Outline P} {st st' : St P} {o : Off} {rest : List Off} {m : Made P} (c : Conf) (added total : Nat)
    (h : Ready confs st (o :: rest)) (hg : gen g confs ol st o = some (st', m)) :
    Ready confs st' (Verif.Skirt.after c o rest added total) := by
  have hout := out_length hg h.inset.1
  rw [Verif.Skirt.after]
  split
  · rename_i hl
    exact h.further hl.2.1 hout
  · exact h.tail hout

/-- There are always enough rounds. -/
theorem primary_ends (g : Geo P) {confs : List Conf} (outlines : Nat → Outline P) {n : Nat} {st : St P} {total : Nat → Nat} {todo : List Off}
    (hr : Ready confs st todo) (hn : work confs total todo ≤ n) : ∃ r, primary g confs outlines n st total todo = some r := by
  induction n generalizing st total todo with
  | zero =>
    cases todo with
    | nil => exact ⟨_, by rw [primary]⟩
    | cons => simp [work] at hn
  | succ n ih =>
    cases todo with
    | nil => exact ⟨_, by rw [primary]⟩
    | cons o rest =>
      obtain ⟨c, hc, hu, hw⟩ := hr.conf o List.mem_cons_self
      obtain ⟨hi, href⟩ := hr.inset
      obtain ⟨⟨st1, m⟩, hg⟩ := gen_isSome g (outlines o.ext) st hc (by
        intro k hk
        rw [href] at hk
        split at hk
        · cases hk
        · cases hk; omega)
      have e1 : (if g.length m.raw = 0 then total else fun e => if e = o.ext then total e + g.length m.raw else total e) = addTo total o.ext (g.length m.raw) := by
        funext e
        simp only [addTo]
        split
        · rename_i h0
          rw [h0]
          simp
        · rfl
      have e2 : addTo total o.ext (g.length m.raw) o.ext = total o.ext + g.length m.raw := by simp [addTo]
      have hwork : work confs (addTo total o.ext (g.length m.raw)) (after c o rest (g.length m.raw) (total o.ext + g.length m.raw)) ≤ n := by
        have hle : ∀ x, (confs[x]?.elim 0 (·.minLength)) - addTo total o.ext (g.length m.raw) x ≤ (confs[x]?.elim 0 (·.minLength)) - total x := by
          intro x
          have : total x ≤ addTo total o.ext (g.length m.raw) x := by simp only [addTo]; split <;> omega
          omega
        have ho : o.ext < confs.length := (List.getElem?_eq_some_iff.1 hc).1
        rw [after]
        split
        · rename_i hl
          have hs := sum_lt ho hle (by
            rw [e2, hc]
            simp only [Option.elim_some]
            omega)
          simp only [work, length_sort, List.length_append, List.length_cons, List.length_nil] at hn ⊢
          omega
        · have hs : ((List.range confs.length).map fun e => (confs[e]?.elim 0 (·.minLength)) - addTo total o.ext (g.length m.raw) e).sum ≤
              ((List.range confs.length).map fun e => (confs[e]?.elim 0 (·.minLength)) - total e).sum := by
            exact sum_le hle _
          simp only [work, List.length_cons] at hn ⊢
          omega
      obtain ⟨⟨a, b, l⟩, hp⟩ := ih (hr.after c _ _ hg) hwork
      refine ⟨(a, b, m :: l), ?_⟩
      rw [primary, hg, hc]
      dsimp only
      rw [e1, e2]
      change (primary g confs outlines n st1 _ (after c o rest (g.length m.raw) (total o.ext + g.length m.raw))).map _ = _
      rw [hp]
      rfl

end Verif.Skirt
