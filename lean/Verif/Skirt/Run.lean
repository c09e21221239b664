import Verif.Skirt.Lemmas

/-! # What the rounds make -/

namespace Verif.Skirt

open Spec

variable {P : Type}

/-- What is covered by lines. -/
def cover (g : Geo P) (confs : List Conf) (m : Made P) : Area P := g.wide ((confs[m.ext]?.elim 0 (·.width)).tdiv 2 + 10) m.raw

def finished (g : Geo P) (confs : List Conf) (m : Made P) : Area P := g.tidy (confs[m.ext]?.elim 0 (·.width)) m.raw

/-- The areas only get smaller. -/
def Shrunk (a b : St P) : Prop := ∀ e, Inside (b.allowed e) (a.allowed e)

theorem Shrunk.trans {a b c : St P} (h1 : Shrunk a b) (h2 : Shrunk b c) : Shrunk a c := fun e p h => h1 e p (h2 e p h)

/-- The lines are out of the area that is allowed for extruders that are used. -/
def Clear (g : Geo P) (confs : List Conf) (st : St P) (m : Made P) : Prop := ∀ e c, confs[e]? = some c → c.used = true → Apart (st.allowed e) (cover g confs m)

theorem Clear.shrunk {g : Geo P} {confs : List Conf} {a b : St P} {m : Made P} (h : Clear g confs a m) (hs : Shrunk a b) : Clear g confs b m :=
  fun e c h1 h2 p hp => h e c h1 h2 p (hs e p hp)

theorem gen_shrunk {g : Geo P} {confs : List Conf} {ol : Outline P} {st st' : St P} {o : Off} {m : Made P} (h : gen g confs ol st o = some (st', m)) : Shrunk st st' := by
  obtain ⟨c, _, _, _, _, _, _, h7, _⟩ := gen_some h
  intro e p hp
  rw [h7] at hp
  split at hp
  · simp only [Bool.and_eq_true] at hp
    exact hp.1
  · exact hp

theorem gen_clear {g : Geo P} {confs : List Conf} {ol : Outline P} {st st' : St P} {o : Off} {m : Made P} (h : gen g confs ol st o = some (st', m)) : Clear g confs st' m := by
  obtain ⟨c, hc, h1, _, _, _, h6, h7, _⟩ := gen_some h
  intro e c' he hu p hp
  rw [h7, he] at hp
  simp only [Option.any_some, hu, if_true, Bool.and_eq_true, Bool.not_eq_true', h6, Bool.or_eq_false_iff] at hp
  rw [cover, h1, hc]
  exact hp.2.2

theorem gen_out {g : Geo P} {confs : List Conf} {ol : Outline P} {st st' : St P} {o : Off} {m : Made P} (h : gen g confs ol st o = some (st', m))
    (hi : o.inset = (st.out o.ext).length) (e : Nat) : st'.out e = st.out e ++ (by' e [m]).map (finished g confs) := by
  obtain ⟨c, hc, h1, _, _, _, _, _, h8⟩ := gen_some h
  rw [h8]
  split
  · rename_i he
    subst he
    rw [hi, put_end, by', List.filter_cons_of_pos (by simpa using h1)]
    simp [finished, h1, hc]
  · rename_i he
    rw [by', List.filter_cons_of_neg (by rw [h1]; simpa using Ne.symm he)]
    simp

/-- All that is allowed for extruders that are used is not covered. -/
def Uncovered (confs : List Conf) (st : St P) : Prop := ∀ e c, confs[e]? = some c → c.used = true → Apart (st.allowed e) st.covered

/-- Lines that were made, from a state to another one: all that does not depend on why they were made. -/
structure Fine (g : Geo P) (confs : List Conf) (a b : St P) (l : List (Made P)) : Prop where
  shrunk : Shrunk a b
  inside : ∀ m ∈ l, Inside m.raw (a.allowed m.ext)
  clear : ∀ m ∈ l, Clear g confs b m
  apart : l.Pairwise fun x y => Apart y.raw (cover g confs x)
  out : ∀ e, b.out e = a.out e ++ (by' e l).map (finished g confs)
  inset : ∀ (e i : Nat) (m : Made P), (by' e l)[i]? = some m → m.inset = (a.out e).length + i
  uncovered : ∀ m ∈ l.tail, Apart m.raw a.covered
  grown : Inside a.covered b.covered
  used : ∀ m ∈ l, ∃ c, confs[m.ext]? = some c ∧ c.used = true
  coveredBy : ∀ m ∈ l, Inside (cover g confs m) b.covered
  still : Uncovered confs a → Uncovered confs b

theorem Fine.nil (g : Geo P) (confs : List Conf) (st : St P) : Fine g confs st st [] where
  shrunk := fun _ _ h => h
  inside := by simp
  clear := by simp
  apart := List.Pairwise.nil
  out := by intro e; simp [by']
  inset := by intro e i m h; simp [by'] at h
  uncovered := by simp
  grown := fun _ h => h
  used := by simp
  coveredBy := by simp
  still := id

/-- One more line in front. -/
theorem Fine.cons {g : Geo P} {confs : List Conf} {ol : Outline P} {a b c : St P} {o : Off} {m : Made P} {l : List (Made P)} {cf : Conf}
    (h : gen g confs ol a o = some (b, m)) (hi : o.inset = (a.out o.ext).length) (hc : confs[o.ext]? = some cf) (hu : cf.used = true) (hf : Fine g confs b c l) :
    Fine g confs a c (m :: l) := by
  obtain ⟨c', hc', h1, h2, h3, h4, h5, h6, h7⟩ := gen_some h
  have hs := gen_shrunk h
  have hcl := gen_clear h
  have hout := gen_out h hi
  have hcov : ∀ m' ∈ l, Apart m'.raw b.covered := by
    intro m' hm' p hp
    obtain ⟨c2, e1, e2⟩ := hf.used m' hm'
    have := hf.inside m' hm' p hp
    rw [h6, e1] at this
    simp only [Option.any_some, e2, if_true, Bool.and_eq_true, Bool.not_eq_true'] at this
    exact this.2
  constructor
  · exact hs.trans hf.shrunk
  · intro x hx
    rcases List.mem_cons.1 hx with rfl | hx
    · rw [h1]; exact h4
    · exact fun p hp => hs _ p (hf.inside x hx p hp)
  · intro x hx
    rcases List.mem_cons.1 hx with rfl | hx
    · exact hcl.shrunk hf.shrunk
    · exact hf.clear x hx
  · refine List.pairwise_cons.2 ⟨?_, hf.apart⟩
    intro y hy p hp
    obtain ⟨c2, e1, e2⟩ := hf.used y hy
    exact hcl y.ext c2 e1 e2 p (hf.inside y hy p hp)
  · intro e
    rw [hf.out, hout, List.append_assoc, ← List.map_append]
    congr 2
    simp only [by', ← List.filter_append, List.singleton_append]
  · intro e i x hx
    have hlen : (b.out e).length = (a.out e).length + (by' e [m]).length := by rw [hout]; simp
    rw [by', List.filter_cons] at hx
    split at hx
    · rename_i he
      have he' : m.ext = e := by simpa using he
      cases i with
      | zero =>
        simp only [List.getElem?_cons_zero, Option.some.injEq] at hx
        subst hx
        rw [h2, hi, ← he', h1]
        rfl
      | succ i =>
        simp only [List.getElem?_cons_succ] at hx
        rw [hf.inset e i x hx, hlen, show by' e [m] = [m] from List.filter_cons_of_pos he]
        simp
        omega
    · rename_i he
      rw [hf.inset e i x hx, hlen, show by' e [m] = [] from List.filter_cons_of_neg he]
      simp
  · intro x hx p hp
    have := hcov x hx p hp
    rw [h5, Bool.or_eq_false_iff] at this
    exact this.1
  · intro p hp
    exact hf.grown p (by rw [h5, hp]; rfl)
  · intro x hx
    rcases List.mem_cons.1 hx with rfl | hx
    · exact ⟨cf, by rw [h1]; exact hc, hu⟩
    · exact hf.used x hx
  · intro x hx
    rcases List.mem_cons.1 hx with rfl | hx
    · intro p hp
      refine hf.grown p ?_
      rw [cover, h1, hc'] at hp
      rw [h5]
      simp only [Option.elim_some] at hp
      rw [hp, Bool.or_true]
    · exact hf.coveredBy x hx
  · intro _
    refine hf.still ?_
    intro e c2 e1 e2 p hp
    rw [h6, e1] at hp
    simp only [Option.any_some, e2, if_true, Bool.and_eq_true, Bool.not_eq_true'] at hp
    exact hp.2

/-- Two parts after each other. -/
theorem Fine.append {g : Geo P} {confs : List Conf} {a b c : St P} {l l' : List (Made P)} (h1 : Fine g confs a b l) (h2 : Fine g confs b c l')
    (hu : Uncovered confs b) : Fine g confs a c (l ++ l') where
  shrunk := h1.shrunk.trans h2.shrunk
  inside := by
    intro m hm
    rcases List.mem_append.1 hm with hm | hm
    · exact h1.inside m hm
    · exact fun p hp => h1.shrunk _ p (h2.inside m hm p hp)
  clear := by
    intro m hm
    rcases List.mem_append.1 hm with hm | hm
    · exact (h1.clear m hm).shrunk h2.shrunk
    · exact h2.clear m hm
  apart := by
    refine List.pairwise_append.2 ⟨h1.apart, h2.apart, ?_⟩
    intro x hx y hy p hp
    obtain ⟨c', e1, e2⟩ := h2.used y hy
    exact h1.clear x hx y.ext c' e1 e2 p (h2.inside y hy p hp)
  out := by
    intro e
    rw [h2.out, h1.out, List.append_assoc, ← List.map_append]
    simp only [by', List.filter_append]
  inset := by
    intro e i m hm
    rw [show by' e (l ++ l') = by' e l ++ by' e l' from List.filter_append ..] at hm
    have hlen : (b.out e).length = (a.out e).length + (by' e l).length := by rw [h1.out]; simp
    by_cases hi : i < (by' e l).length
    · rw [List.getElem?_append_left hi] at hm
      exact h1.inset e i m hm
    · rw [List.getElem?_append_right (by omega)] at hm
      rw [h2.inset e _ m hm, hlen]
      omega
  uncovered := by
    intro m hm
    rcases l with _ | ⟨x, xs⟩
    · exact fun p hp => by
        obtain ⟨c', e1, e2⟩ := h2.used m (List.mem_of_mem_tail hm)
        have := hu m.ext c' e1 e2 p (h2.inside m (List.mem_of_mem_tail hm) p hp)
        cases hc : a.covered p
        · rfl
        · rw [h1.grown p hc] at this; cases this
    · rw [List.cons_append, List.tail_cons, List.mem_append] at hm
      rcases hm with hm | hm
      · exact h1.uncovered m hm
      · exact fun p hp => by
          obtain ⟨c', e1, e2⟩ := h2.used m hm
          have := hu m.ext c' e1 e2 p (h2.inside m hm p hp)
          cases hc : a.covered p
          · rfl
          · rw [h1.grown p hc] at this; cases this
  grown := fun p hp => h2.grown p (h1.grown p hp)
  used := by
    intro m hm
    rcases List.mem_append.1 hm with hm | hm
    · exact h1.used m hm
    · exact h2.used m hm
  coveredBy := by
    intro m hm
    rcases List.mem_append.1 hm with hm | hm
    · exact fun p hp => h2.grown p (h1.coveredBy m hm p hp)
    · exact h2.coveredBy m hm
  still := fun h => h2.still (h1.still h)

theorem Run.fine {g : Geo P} {confs : List Conf} {outlines : Nat → Outline P} {st st2 : St P} {total total2 : Nat → Nat} {todo : List Off} {l : List (Made P)}
    (h : Run g confs outlines st total todo st2 total2 l) (hr : Ready confs st todo) : Fine g confs st st2 l := by
  induction h with
  | done st total => exact Fine.nil ..
  | step hc hg hr' ih =>
    obtain ⟨c', hc', hu, _⟩ := hr.conf _ List.mem_cons_self
    exact Fine.cons hg hr.inset.1 hc' hu (ih (hr.after _ _ _ hg))

theorem Run.total {g : Geo P} {confs : List Conf} {outlines : Nat → Outline P} {st st2 : St P} {total total2 : Nat → Nat} {todo : List Off} {l : List (Made P)}
    (h : Run g confs outlines st total todo st2 total2 l) (e : Nat) : total2 e = total e + sum g.length e l := by
  induction h with
  | done st total => simp [sum, by']
  | @step _ _ _ _ _ o _ _ _ _ hc hg hr' ih =>
    obtain ⟨c', hc', h1, _⟩ := gen_some hg
    rw [ih, addTo, sum, sum, by', by', List.filter_cons, h1]
    by_cases he : e = o.ext
    · subst he
      simp
      omega
    · rw [if_neg he, if_neg (by simpa using Ne.symm he)]

/-- Further and further away. -/
theorem Run.order {g : Geo P} {confs : List Conf} {outlines : Nat → Outline P} {st st2 : St P} {total total2 : Nat → Nat} {todo : List Off} {l : List (Made P)}
    (h : Run g confs outlines st total todo st2 total2 l) (hr : Ready confs st todo) :
    l.Pairwise (fun a b => a.total ≤ b.total) ∧ ∀ t, (∀ o ∈ todo, t ≤ o.total) → ∀ m ∈ l, t ≤ m.total := by
  induction h with
  | done st total => simp
  | @step st st1 st2 total total2 o rest c m l hc hg hr' ih =>
    obtain ⟨c', hc', h1, h2, h3, _⟩ := gen_some hg
    obtain ⟨i1, i2⟩ := ih (hr.after _ _ _ hg)
    obtain ⟨c2, hc2, _, hw⟩ := hr.conf _ List.mem_cons_self
    have hcc : c2 = c := by rw [hc] at hc2; cases hc2; rfl
    subst hcc
    have hrest : ∀ x ∈ rest, o.total ≤ x.total := by
      intro x hx
      have := (List.pairwise_cons.1 hr.sorted).1 x hx
      rw [le_iff] at this
      omega
    have hafter : ∀ t, (∀ x ∈ o :: rest, t ≤ x.total) → ∀ x ∈ after c2 o rest (g.length m.raw) (total o.ext + g.length m.raw), t ≤ x.total := by
      intro t ht x hx
      rw [after] at hx
      split at hx
      · rw [mem_sort, List.mem_append, List.mem_singleton] at hx
        rcases hx with hx | rfl
        · exact ht x (List.mem_cons_of_mem _ hx)
        · have := ht o List.mem_cons_self
          simp only [further]
          omega
      · exact ht x (List.mem_cons_of_mem _ hx)
    refine ⟨List.pairwise_cons.2 ⟨?_, i1⟩, ?_⟩
    · intro y hy
      rw [h3]
      exact i2 o.total (hafter _ (by
        intro x hx
        rcases List.mem_cons.1 hx with rfl | hx
        · omega
        · exact hrest x hx)) y hy
    · intro t ht y hy
      rcases List.mem_cons.1 hy with rfl | hy
      · rw [h3]; exact ht o List.mem_cons_self
      · exact i2 t (hafter t ht) y hy

/-- All that was planned is made, in this order for each extruder, and more only if needed. -/
theorem Run.planned {g : Geo P} {confs : List Conf} {outlines : Nat → Outline P} {st st2 : St P} {total total2 : Nat → Nat} {todo : List Off} {l : List (Made P)}
    (h : Run g confs outlines st total todo st2 total2 l) (hr : Ready confs st todo) (e : Nat) :
    ((todo.filter fun o => o.ext == e).map fun o => (o.inset, o.total)) <+: (by' e l).map (fun m => (m.inset, m.total)) ∧
    ∀ (i : Nat) (c : Conf), confs[e]? = some c → (todo.filter fun o => o.ext == e).length ≤ i → i < (by' e l).length →
      total e + (((by' e l).map fun m => g.length m.raw).take i).sum < c.minLength := by
  induction h with
  | done st total =>
    refine ⟨by simp [by'], ?_⟩
    intro i c _ _ h
    simp [by'] at h
  | @step st st1 st2 total total2 o rest c m l hc hg hr' ih =>
    obtain ⟨c', hc', h1, h2, h3, _⟩ := gen_some hg
    obtain ⟨i1, i2⟩ := ih (hr.after _ _ _ hg)
    by_cases he : o.ext = e
    · subst he
      have hm : by' o.ext (m :: l) = m :: by' o.ext l := by rw [by', List.filter_cons_of_pos (by simpa using h1)]; rfl
      have ho : (o :: rest).filter (fun x => x.ext == o.ext) = o :: rest.filter fun x => x.ext == o.ext := by rw [List.filter_cons_of_pos (by simp)]
      rw [hm, ho]
      have hlast : o.last = true → rest.filter (fun x => x.ext == o.ext) = [] := by
        intro hl
        have := (hr.next o.ext 0 o (by rw [ho]; rfl)).2.2.1 hl
        rw [ho, List.length_cons] at this
        exact List.eq_nil_of_length_eq_zero (by omega)
      refine ⟨?_, ?_⟩
      · simp only [List.map_cons, h2, h3]
        rw [List.prefix_cons_inj]
        rw [after] at i1
        split at i1
        · rename_i hl
          rw [hlast hl.2.1]
          exact List.nil_prefix
        · exact i1
      · intro i d hd hi hlt
        rw [hc] at hd
        cases hd
        rw [List.length_cons] at hi hlt
        obtain ⟨j, rfl⟩ : ∃ j, i = j + 1 := ⟨i - 1, by omega⟩
        simp only [List.map_cons, List.take_succ_cons, List.sum_cons]
        have key := i2 j c hc
        have ea : addTo total o.ext (g.length m.raw) o.ext = total o.ext + g.length m.raw := by simp [addTo]
        rw [ea] at key
        rw [after] at key
        split at key
        · rename_i hl
          by_cases hj : j = 0
          · subst hj
            simp
            omega
          · have hlen : (sort (rest ++ [further c o]) |>.filter fun x => x.ext == o.ext).length ≤ 1 := by
              rw [((sort_perm (rest ++ [further c o])).filter _).length_eq, List.filter_append, hlast hl.2.1]
              exact List.length_filter_le _ _
            have := key (by omega) (by omega)
            omega
        · have := key (by omega) (by omega)
          omega
    · have hm : by' e (m :: l) = by' e l := by rw [by', List.filter_cons_of_neg (by rw [h1]; simpa using he)]; rfl
      have ho : (o :: rest).filter (fun x => x.ext == e) = rest.filter fun x => x.ext == e := by rw [List.filter_cons_of_neg (by simpa using he)]
      have hp : ((after c o rest (g.length m.raw) (total o.ext + g.length m.raw)).filter fun x => x.ext == e) = rest.filter fun x => x.ext == e := by
        rw [after]
        split
        · rw [filter_sort]
          · rw [List.filter_append, List.filter_cons_of_neg (by simpa [further] using he)]
            simp
          · rw [List.filter_append, List.filter_cons_of_neg (by simpa [further] using he)]
            simp only [List.filter_nil, List.append_nil]
            exact (List.pairwise_cons.1 hr.sorted).2.sublist List.filter_sublist
        · rfl
      rw [hp] at i1 i2
      rw [hm, ho]
      refine ⟨i1, ?_⟩
      intro i d hd hi hlt
      have := i2 i d hd hi hlt
      rw [addTo, if_neg (Ne.symm he)] at this
      exact this

/-- An extruder that is not in the plan gets no line. -/
theorem Run.unplanned {g : Geo P} {confs : List Conf} {outlines : Nat → Outline P} {st st2 : St P} {total total2 : Nat → Nat} {todo : List Off} {l : List (Made P)}
    (h : Run g confs outlines st total todo st2 total2 l) (e : Nat) (he : ∀ o ∈ todo, o.ext ≠ e) : by' e l = [] := by
  induction h with
  | done st total => rfl
  | @step st st1 st2 total total2 o rest c m l hc hg hr' ih =>
    obtain ⟨c', hc', h1, _⟩ := gen_some hg
    have ho := he o List.mem_cons_self
    rw [by', List.filter_cons_of_neg (by rw [h1]; simpa using ho)]
    refine ih ?_
    intro x hx
    rw [after] at hx
    split at hx
    · rw [mem_sort, List.mem_append, List.mem_singleton] at hx
      rcases hx with hx | rfl
      · exact he x (List.mem_cons_of_mem _ hx)
      · exact ho
    · exact he x (List.mem_cons_of_mem _ hx)

/-! ## The plan -/

theorem planOf_get (e : Nat) (c : Conf) (i : Nat) (o : Off) (h : (planOf e c)[i]? = some o) :
    i < c.count ∧ o.ext = e ∧ o.inset = i ∧ o.ref = (if i = 0 then none else some (i - 1)) ∧ o.total = c.width.tdiv 2 + c.width * (i : Int) + c.gap ∧
      (o.last = true ↔ i + 1 = c.count) := by
  rw [planOf, List.getElem?_map, Option.map_eq_some_iff] at h
  obtain ⟨k, h1, h2⟩ := h
  rw [List.getElem?_eq_some_iff] at h1
  obtain ⟨h3, h4⟩ := h1
  simp only [List.length_range] at h3
  simp only [List.getElem_range] at h4
  subst h4
  dsimp only at h2
  split at h2 <;> subst h2 <;> simp_all

theorem planOf_length (e : Nat) (c : Conf) : (planOf e c).length = c.count := by simp [planOf]

theorem planOf_sorted (e : Nat) (c : Conf) (hw : 0 ≤ c.width) : (planOf e c).Pairwise fun a b => Off.le a b = true := by
  rw [List.pairwise_iff_getElem]
  intro i j hi hj hij
  have h1 := planOf_get e c i _ (List.getElem?_eq_getElem hi)
  have h2 := planOf_get e c j _ (List.getElem?_eq_getElem hj)
  rw [le_iff, h1.2.1, h2.2.1, h1.2.2.2.2.1, h2.2.2.2.2.1]
  have : c.width * (i : Int) ≤ c.width * (j : Int) := Int.mul_le_mul_of_nonneg_left (by omega) hw
  omega

/-- The list before it is sorted. -/
def unsorted (brim : Option Nat) (empty : Nat → Bool) (k : Nat) (confs : List Conf) : List Off :=
  (confs.zipIdx k).flatMap fun (c, e) => if leftOut brim empty e c then [] else planOf e c

theorem unsorted_filter (brim : Option Nat) (empty : Nat → Bool) (confs : List Conf) (k e : Nat) :
    (unsorted brim empty k confs).filter (fun o => o.ext == e) =
      if k ≤ e then match confs[e - k]? with
        | none => []
        | some c => if leftOut brim empty e c then [] else planOf e c
      else [] := by
  induction confs generalizing k with
  | nil => simp [unsorted]
  | cons c cs ih =>
    rw [unsorted, List.zipIdx_cons, List.flatMap_cons, List.filter_append]
    rw [show (List.flatMap (fun (x : Conf × Nat) => if leftOut brim empty x.2 x.1 = true then [] else planOf x.2 x.1) (cs.zipIdx (k + 1))) = unsorted brim empty (k + 1) cs from rfl, ih]
    dsimp only
    by_cases hk : k = e
    · subst hk
      rw [if_neg (show ¬ k + 1 ≤ k by omega), if_pos (Nat.le_refl k)]
      simp only [Nat.sub_self, List.getElem?_cons_zero, List.append_nil]
      split
      · rfl
      · rw [List.filter_eq_self]
        intro o ho
        obtain ⟨i, hi⟩ := List.mem_iff_getElem?.1 ho
        simpa using (planOf_get _ _ _ _ hi).2.1
    · have h0 : (if leftOut brim empty k c = true then [] else planOf k c).filter (fun o => o.ext == e) = [] := by
        rw [List.filter_eq_nil_iff]
        intro o ho
        split at ho
        · simp at ho
        · obtain ⟨i, hi⟩ := List.mem_iff_getElem?.1 ho
          rw [(planOf_get _ _ _ _ hi).2.1]
          simpa using hk
      rw [h0, List.nil_append]
      by_cases hke : k ≤ e
      · rw [if_pos hke, if_pos (show k + 1 ≤ e by omega), show e - k = (e - (k + 1)) + 1 from by omega, List.getElem?_cons_succ]
      · rw [if_neg hke, if_neg (show ¬ k + 1 ≤ e by omega)]

theorem plan_filter (brim : Option Nat) (empty : Nat → Bool) (confs : List Conf) (hw : ∀ c ∈ confs, 0 ≤ c.width) (e : Nat) :
    (plan brim empty confs).filter (fun o => o.ext == e) =
      match confs[e]? with
      | none => []
      | some c => if leftOut brim empty e c then [] else planOf e c := by
  have h := unsorted_filter brim empty confs 0 e
  simp only [Nat.zero_le, if_true, Nat.sub_zero] at h
  have hs : ((unsorted brim empty 0 confs).filter (fun o => o.ext == e)).Pairwise fun a b => Off.le a b = true := by
    rw [h]
    split
    · exact List.Pairwise.nil
    · split
      · exact List.Pairwise.nil
      · exact planOf_sorted _ _ (hw _ (List.mem_of_getElem? (by assumption)))
  rw [← h]
  exact filter_sort _ _ hs

theorem plan_ready (brim : Option Nat) (empty : Nat → Bool) (confs : List Conf) (hw : ∀ c ∈ confs, 0 ≤ c.width) (st : St P) (hst : ∀ e, st.out e = []) :
    Ready confs st (plan brim empty confs) where
  sorted := sorted_sort _
  conf := by
    intro o ho
    have hm : o ∈ (plan brim empty confs).filter (fun x => x.ext == o.ext) := List.mem_filter.2 ⟨ho, by simp⟩
    rw [plan_filter _ _ _ hw] at hm
    split at hm
    · simp at hm
    · rename_i c hc
      refine ⟨c, hc, ?_, hw c (List.mem_of_getElem? hc)⟩
      split at hm
      · simp at hm
      · rename_i hl
        simp only [leftOut, Bool.or_eq_true, not_or, Bool.not_eq_true', Bool.not_eq_true] at hl
        simpa using hl.1.1
  next := by
    intro e i o ho
    rw [plan_filter _ _ _ hw] at ho ⊢
    split at ho
    · simp at ho
    · rename_i c hc
      split at ho
      · simp at ho
      · rename_i hl
        rw [if_neg hl]
        have := planOf_get _ _ _ _ ho
        rw [hst, planOf_length]
        refine ⟨by simp; omega, ?_, this.2.2.2.2.2⟩
        rw [this.2.2.2.1, this.2.2.1]

/-! ## The other extruders -/

/-- The loop for one extruder. -/
theorem secondaryLoop_spec (g : Geo P) {confs : List Conf} {c : Conf} {e : Nat} (outline : Outline P) (hc : confs[e]? = some c) (hu : c.used = true) {n total : Nat}
    {first : Bool} {st : St P} (hn : c.minLength - total ≤ n) (hf : first = false → (st.out e).length ≠ 0) :
    ∃ st' l, secondaryLoop g confs c e outline n first st total = some (st', l) ∧ Fine g confs st st' l ∧ (∀ m ∈ l, m.ext = e) ∧
      (c.minLength ≤ total + (l.map fun m => g.length m.raw).sum ∨ ∃ m, l.getLast? = some m ∧ g.length m.raw = 0) ∧
      ∀ i < l.length, total + ((l.map fun m => g.length m.raw).take i).sum < c.minLength := by
  induction n generalizing total first st with
  | zero =>
    rw [secondaryLoop, if_neg (by omega)]
    exact ⟨_, _, rfl, Fine.nil .., by simp, Or.inl (by simp; omega), by simp⟩
  | succ n ih =>
    rw [secondaryLoop]
    split
    · rename_i ht
      dsimp only
      generalize hod : (⟨if first then none else some ((st.out e).length - 1), c.outside, c.inside, if first then c.width.tdiv 2 else c.width,
        if first then c.width.tdiv 2 else c.width, 0, (st.out e).length, e, false⟩ : Off) = o
      have o1 : o.ext = e := by rw [← hod]
      have o2 : o.inset = (st.out e).length := by rw [← hod]
      obtain ⟨⟨st1, m⟩, hg⟩ := gen_isSome g outline st (o := o) (c := c) (by rw [o1]; exact hc) (by
        intro k hk
        rw [← hod] at hk
        rw [o1]
        cases first with
        | true => simp at hk
        | false =>
          have := hf rfl
          simp at hk
          omega)
      rw [hg]
      dsimp only
      have hme : m.ext = e := by
        obtain ⟨_, _, h1, _⟩ := gen_some hg
        rw [h1, o1]
      have hfine : ∀ {st2 l}, Fine g confs st1 st2 l → Fine g confs st st2 (m :: l) := fun h => Fine.cons hg (by rw [o2, o1]) (by rw [o1]; exact hc) hu h
      split
      · rename_i h0
        refine ⟨_, _, rfl, hfine (Fine.nil ..), by simpa using hme, Or.inr ⟨m, rfl, h0⟩, ?_⟩
        intro i hi
        have : i = 0 := by simp at hi; omega
        subst this
        simpa using ht
      · rename_i h0
        obtain ⟨st2, l, a1, a2, a3, a4, a5⟩ := ih (total := total + g.length m.raw) (first := false) (st := st1) (by omega) (by
          intro _
          have := out_length hg (by rw [o2, o1]) e
          rw [this, o1, if_pos rfl]
          omega)
        refine ⟨st2, m :: l, by rw [a1]; rfl, hfine a2, ?_, ?_, ?_⟩
        · intro x hx
          rcases List.mem_cons.1 hx with rfl | hx
          · exact hme
          · exact a3 x hx
        · rcases a4 with a4 | ⟨x, a4, a4'⟩
          · left; simp only [List.map_cons, List.sum_cons]; omega
          · right
            refine ⟨x, ?_, a4'⟩
            rw [List.getLast?_cons, a4]
            rfl
        · intro i hi
          cases i with
          | zero => simpa using ht
          | succ i =>
            have := a5 i (by simpa using hi)
            simp only [List.map_cons, List.take_succ_cons, List.sum_cons]
            omega
    · exact ⟨_, _, rfl, Fine.nil .., by simp, Or.inl (by simp; omega), by simp⟩

/-- All extruders from `k` on. -/
theorem secondary_spec (g : Geo P) {confs : List Conf} (hm : ∀ c ∈ confs, c.used = false → c.minLength = 0) (total : Nat → Nat) (k : Nat) (st : St P)
    (hu : Uncovered confs st) :
    ∃ st' l, secondary g confs total k (confs.drop k) st = some (st', l) ∧ Fine g confs st st' l ∧ (∀ m ∈ l, k ≤ m.ext) ∧ ∀ (e : Nat) (c : Conf), k ≤ e → confs[e]? = some c →
      (c.minLength ≤ total e + sum g.length e l ∨ ∃ m, (by' e l).getLast? = some m ∧ g.length m.raw = 0) ∧
      ∀ i < (by' e l).length, total e + (((by' e l).map fun m => g.length m.raw).take i).sum < c.minLength := by
  generalize hd : confs.drop k = rest
  induction rest generalizing k st with
  | nil =>
    refine ⟨_, _, rfl, Fine.nil .., by simp, ?_⟩
    intro e c hk hc
    have h1 := (List.getElem?_eq_some_iff.1 hc).1
    have h2 := congrArg List.length hd
    simp only [List.length_drop, List.length_nil] at h2
    omega
  | cons c cs ih =>
    have hck : confs[k]? = some c := by
      have : (confs.drop k)[0]? = some c := by rw [hd]; rfl
      rwa [List.getElem?_drop, Nat.add_zero] at this
    have hcs : confs.drop (k + 1) = cs := by
      rw [← List.drop_drop, hd]
      rfl
    have hloop : ∃ st1 l1, secondaryLoop g confs c k ⟨fun _ => false, st.covered⟩ c.minLength true st (total k) = some (st1, l1) ∧ Fine g confs st st1 l1 ∧
        (∀ m ∈ l1, m.ext = k) ∧ (c.minLength ≤ total k + (l1.map fun m => g.length m.raw).sum ∨ ∃ m, l1.getLast? = some m ∧ g.length m.raw = 0) ∧
        (∀ i < l1.length, total k + ((l1.map fun m => g.length m.raw).take i).sum < c.minLength) := by
      cases huc : c.used with
      | true => exact secondaryLoop_spec g _ hck huc (by omega) (by simp)
      | false =>
        have h0 := hm c (List.mem_of_getElem? hck) huc
        refine ⟨st, [], ?_, Fine.nil .., by simp, Or.inl (by omega), by simp⟩
        rw [secondaryLoop.eq_def]
        dsimp only
        rw [if_neg (by omega)]
    obtain ⟨st1, l1, a1, a2, a3, a4, a5⟩ := hloop
    obtain ⟨st2, l2, b1, b2, b3, b4⟩ := ih (k + 1) st1 (a2.still hu) hcs
    have hby : ∀ e, by' e (l1 ++ l2) = if e = k then l1 else by' e l2 := by
      intro e
      rw [show by' e (l1 ++ l2) = by' e l1 ++ by' e l2 from List.filter_append ..]
      split
      · rename_i he
        subst he
        have e1 : by' e l1 = l1 := by
          rw [by', List.filter_eq_self]
          intro x hx
          simpa using a3 x hx
        have e2 : by' e l2 = [] := by
          rw [by', List.filter_eq_nil_iff]
          intro x hx
          have := b3 x hx
          simp
          omega
        rw [e1, e2, List.append_nil]
      · rename_i he
        have e1 : by' e l1 = [] := by
          rw [by', List.filter_eq_nil_iff]
          intro x hx
          have := a3 x hx
          simp
          omega
        rw [e1, List.nil_append]
    refine ⟨st2, l1 ++ l2, ?_, a2.append b2 (a2.still hu), ?_, ?_⟩
    · rw [secondary, a1]
      dsimp only
      rw [b1]
      rfl
    · intro m hm'
      rcases List.mem_append.1 hm' with h | h
      · exact Nat.le_of_eq (a3 m h).symm
      · have := b3 m h
        omega
    · intro e d hk hd'
      rw [sum, hby]
      by_cases he : e = k
      · subst he
        rw [hck] at hd'
        cases hd'
        simp only [if_true]
        exact ⟨a4, a5⟩
      · simp only [if_neg he]
        exact b4 e d (by omega) hd'

theorem shield_shrunk (s : Option (Shield P)) (e : Nat) (st : St P) : Shrunk st (shield s e st) := by
  intro x p hp
  rw [shield.eq_def] at hp
  split at hp
  · exact hp
  · dsimp only at hp
    split at hp
    · rw [Bool.and_eq_true] at hp
      exact hp.1
    · exact hp

theorem shield_grown (s : Option (Shield P)) (e : Nat) (st : St P) : Inside st.covered (shield s e st).covered := by
  intro p hp
  rw [shield.eq_def]
  split
  · exact hp
  · simp [hp]

theorem outside_shrunk (g : Geo P) (st : St P) : Shrunk st (onlyOutside g st) := by
  intro x p hp
  simp only [onlyOutside, Bool.and_eq_true] at hp
  exact hp.1

theorem outside_uncovered (g : Geo P) (confs : List Conf) (st : St P) : Uncovered confs (onlyOutside g st) := by
  intro e c _ _ p hp
  simp only [onlyOutside, Bool.and_eq_true, Bool.not_eq_true'] at hp ⊢
  exact hp.2

end Verif.Skirt
