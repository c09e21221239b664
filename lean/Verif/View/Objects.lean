import Verif.View.Run

/-! # All objects of a print -/

namespace Verif.View

variable {F : Type}

open Spec

theorem mem_numbers {lo hi n : Int} : n ∈ numbers lo hi ↔ lo ≤ n ∧ n ≤ hi := by
  simp only [numbers, List.mem_map, List.mem_range]
  constructor
  · rintro ⟨i, h1, h2⟩
    omega
  · intro h
    exact ⟨(n - lo).toNat, by omega, by omega⟩

theorem nodup_numbers (lo hi : Int) : (numbers lo hi).Nodup := by
  apply List.Nodup.map
  · intro a b h
    have h : lo + (a : Int) = lo + (b : Int) := h
    omega
  · exact List.nodup_range

theorem length_numbers (lo hi : Int) : (numbers lo hi).length = (hi + 1 - lo).toNat := by simp [numbers]

/-- What is expected of one object. -/
def expectObject (c : Conv F) (off : Int) (o : Object F) (ws : List (Wish F)) : List (Expect F) :=
  (numbers o.lo o.hi).map fun n =>
    ⟨n + off, ((lastDone n o.ops).getD (0, 0)).1, ((lastDone n o.ops).getD (0, 0)).2, visible ((ws.filter fun w => w.layer = n).map (Wish.shown c))⟩

theorem expected_cons (c : Conv F) (layer : Int) (e : Nat) (off : Int) (o : Object F) (os : List (Object F)) {xs : List (Expect F)}
    (h : expected c layer e off (o :: os) = some xs) :
    ∃ ws rest, wishes layer e none o.ops = some ws ∧
      expected c (layerAfter layer o.ops) (extruderAfter e o.ops) (off + (o.hi + 1 - o.lo)) os = some rest ∧ xs = expectObject c off o ws ++ rest := by
  simp only [expected] at h
  split at h
  · rename_i ws rest e1 e2
    simp only [Option.some.injEq] at h
    exact ⟨ws, rest, e1, e2, h.symm⟩
  · cases h

/-- The layers of a state are the expected ones. -/
structure Has (cv : Conv F) (st : St F) (xs : List (Expect F)) : Prop where
  ok : Ok cv st
  types : st.comp.types = []
  nodup : (xs.map (·.id)).Nodup
  ids : ∀ k, k ∈ ids st.data ↔ k ∈ xs.map (·.id)
  is : ∀ x ∈ xs, ∃ l, get st.data x.id = some l ∧ x.Is l

theorem Has.length {cv : Conv F} {st : St F} {xs : List (Expect F)} (h : Has cv st xs) : st.data.count = xs.length := by
  have := ((List.perm_ext_iff_of_nodup h.ok.nodup h.nodup).2 h.ids).length_eq
  rw [h.ok.count]
  simpa [View.ids] using this

theorem Has.messages {cv : Conv F} {st : St F} {xs : List (Expect F)} (h : Has cv st xs) :
    ∃ ms, ms.Perm st.data.layers ∧ List.Forall₂ Expect.Is xs ms := by
  have key : ∀ ys : List (Expect F), (∀ y ∈ ys, y ∈ xs) → ∃ ms : List (Layer F), List.Forall₂ Expect.Is ys ms ∧ ms.map (·.id) = ys.map (·.id) ∧ ∀ m ∈ ms, m ∈ st.data.layers := by
    intro ys
    induction ys with
    | nil => exact fun _ => ⟨[], List.Forall₂.nil, rfl, fun m hm => by cases hm⟩
    | cons y ys ih =>
      intro hy
      obtain ⟨ms, h1, h2, h3⟩ := ih fun z hz => hy z (List.mem_cons_of_mem _ hz)
      obtain ⟨l, g, hl⟩ := h.is y (hy y List.mem_cons_self)
      refine ⟨l :: ms, List.Forall₂.cons hl h1, by simp [h2, get_id g], ?_⟩
      intro m hm
      rcases List.mem_cons.1 hm with e | hm
      · exact e ▸ get_mem g
      · exact h3 m hm
  obtain ⟨ms, h1, h2, h3⟩ := key xs fun _ h => h
  refine ⟨ms, ?_, h1⟩
  have n1 : ms.Nodup := List.Nodup.of_map _ (h2 ▸ h.nodup)
  have n2 : st.data.layers.Nodup := List.Nodup.of_map _ h.ok.nodup
  refine (List.perm_ext_iff_of_nodup n1 n2).2 fun m => ⟨h3 m, fun hm => ?_⟩
  have hk : m.id ∈ ms.map (·.id) := by
    rw [h2]
    exact (h.ids _).1 (List.mem_map_of_mem hm)
  obtain ⟨m', e1, e2⟩ := List.mem_map.1 hk
  have := List.inj_on_of_nodup_map h.ok.nodup (h3 m' e1) hm e2
  exact this ▸ e1

/-- Writing one object. -/
theorem object_spec {cv : Conv F} {st : St F} {xs : List (Expect F)} (h : Has cv st xs) (b : Int) (ho : st.data.offset = st.data.count)
    (hb : ∀ k ∈ ids st.data, k < b + st.data.offset) (o : Object F) (hlo : b ≤ o.lo) (hc : o.Clean st.comp.layer) {ws : List (Wish F)}
    (hw : wishes st.comp.layer st.comp.extruder none o.ops = some ws) :
    ∃ st1, runOps cv st o.ops = some st1 ∧ Has cv (flush st1) (xs ++ expectObject cv st.data.offset o ws) ∧
      (∀ k ∈ ids (flush st1).data, k < o.lo + (flush st1).data.count) ∧ ((flush st1).data.count : Int) = st.data.offset + (o.hi + 1 - o.lo) ∧
      (flush st1).comp.layer = layerAfter st.comp.layer o.ops ∧ (flush st1).comp.extruder = extruderAfter st.comp.extruder o.ops ∧
      (flush st1).data.sliced = st.data.sliced ∧ (flush st1).objects = st.objects ∧ (flush st1).sent = st.sent := by
  obtain ⟨c1, c2, c3⟩ := hc
  obtain ⟨st1, e, r⟩ := runOps_spec o.lo o.hi o.ops st none ws h.ok (fun h0 => absurd h.types h0) (fun q hq => by cases hq) c2 hw
  have hf := flush_spec r.ok
  have hoff : (flush st1).data.offset = st.data.offset := hf.offset.trans r.offset
  have hpend : ∀ k, shows st k = linesOf st.data k := by
    intro k
    simp [shows, h.ok.comp.nil h.types]
  have hpend2 : ∀ k, shows (flush st1) k = linesOf (flush st1).data k := by
    intro k
    simp [shows, hf.ok.comp.nil hf.types]
  have hlines : ∀ k, visible (linesOf (flush st1).data k) =
      visible (linesOf st.data k) ++ visible ((ws.filter fun w => w.layer + st.data.offset = k).map (Wish.shown cv)) := by
    intro k
    rw [← hpend2, hf.shows, r.shows, hpend]
  have hids : ∀ k, k ∈ ids (flush st1).data ↔ k ∈ ids st.data ∨ (o.lo + st.data.offset ≤ k ∧ k ≤ o.hi + st.data.offset) := by
    intro k
    rw [hf.ids, r.offset]
    constructor
    · rintro (h1 | ⟨h1, h2⟩)
      · exact r.new k h1
      · have := r.buf h1
        right; omega
    · rintro (h1 | h1)
      · exact Or.inl (r.old k h1)
      · left
        have := r.done (k - st.data.offset) (c3 _ (by omega) (by omega))
        simpa using this
  -- an old layer is as it was
  have hnw : ∀ w ∈ ws, o.lo ≤ w.layer := by
    have key : ∀ (ops : List (Op F)) (layer : Int) (e : Nat) (pen : Option P3) (ws : List (Wish F)), within o.lo o.hi layer ops →
        wishes layer e pen ops = some ws → ∀ w ∈ ws, o.lo ≤ w.layer := by
      intro ops
      induction ops with
      | nil =>
        intro layer e pen ws _ h2 w hw
        simp only [wishes, Option.some.injEq] at h2
        subst h2; cases hw
      | cons a ops ih =>
        intro layer e pen ws h1 h2
        cases a with
        | setLayer n => exact ih _ _ _ _ h1 h2
        | setExtruder n => exact ih _ _ _ _ h1 h2
        | position p => exact ih _ _ _ _ h1.2 h2
        | layerDone n z t => exact ih _ _ _ _ h1.2 h2
        | line t p w g v =>
          simp only [wishes] at h2
          cases pen with
          | none => cases h2
          | some q =>
            simp only [Option.map_eq_some_iff] at h2
            obtain ⟨rest, g1, g2⟩ := h2
            have := ih _ _ _ _ h1.2 g1
            intro x hx
            split at g2
            · subst g2; exact this x hx
            · subst g2
              rcases List.mem_cons.1 hx with hx | hx
              · subst hx; exact h1.1.1
              · exact this x hx
    exact key _ _ _ _ _ c2 hw
  have hread : ∀ k ∈ ids (flush st1).data, ∃ l, get (flush st1).data k = some l ∧ l.id = k ∧ sizeOf' (flush st1).data k = (l.height, l.thickness) ∧
      ∃ s, readSegments l.segments = some s ∧ linesOf (flush st1).data k = s := by
    intro k hk
    obtain ⟨l, hl⟩ := Option.isSome_iff_exists.1 (get_isSome.2 hk)
    obtain ⟨s, hs⟩ := Option.isSome_iff_exists.1 (hf.ok.readable k l hl)
    exact ⟨l, hl, get_id hl, by simp [sizeOf', hl], s, hs, by simp [linesOf, hl, hs]⟩
  have hnew : (expectObject cv st.data.offset o ws).map (·.id) = (numbers o.lo o.hi).map fun n => n + (st.data.offset : Int) := by
    simp [expectObject]
  have hmemnew : ∀ k, k ∈ (expectObject cv st.data.offset o ws).map (·.id) ↔ o.lo + (st.data.offset : Int) ≤ k ∧ k ≤ o.hi + st.data.offset := by
    intro k
    rw [hnew, List.mem_map]
    constructor
    · rintro ⟨n, h1, h2⟩
      have := mem_numbers.1 h1
      omega
    · intro hk
      exact ⟨k - st.data.offset, mem_numbers.2 (by omega), by omega⟩
  have hhas : Has cv (flush st1) (xs ++ expectObject cv st.data.offset o ws) := by
    refine ⟨hf.ok, hf.types, ?_, ?_, ?_⟩
    · rw [List.map_append]
      refine List.nodup_append.2 ⟨h.nodup, ?_, ?_⟩
      · rw [hnew]
        refine (nodup_numbers _ _).map fun a b hab => ?_
        simpa using hab
      · intro a ha c hc'
        have h1 := hb a ((h.ids a).2 ha)
        have h2 := (hmemnew c).1 hc'
        omega
    · intro k
      rw [List.map_append, List.mem_append, hids, h.ids, hmemnew]
    · intro x hx
      rcases List.mem_append.1 hx with hx | hx
      · obtain ⟨l, g, i1, i2, i3, s, i4, i5⟩ := h.is x hx
        have hk : x.id ∈ ids st.data := (h.ids _).2 (List.mem_map_of_mem hx)
        have hlt := hb _ hk
        obtain ⟨l', g1, g2, g3, s', g4, g5⟩ := hread x.id ((hids _).2 (Or.inl hk))
        refine ⟨l', g1, g2, ?_⟩
        have hz : sizeOf' (flush st1).data x.id = sizeOf' st.data x.id := by
          rw [hf.size]
          have := r.size (x.id - st.data.offset)
          have hnone : lastDone (x.id - st.data.offset) o.ops = none := by
            have key : ∀ (ops : List (Op F)) (layer : Int) (n : Int), n < o.lo → within o.lo o.hi layer ops → lastDone n ops = none := by
              intro ops
              induction ops with
              | nil => intro _ _ _ _; rfl
              | cons a ops ih =>
                intro layer n hn h1
                cases a with
                | setLayer m => exact ih _ _ hn h1
                | setExtruder m => exact ih _ _ hn h1
                | position p => exact ih _ _ hn h1.2
                | line t p w g v => exact ih _ _ hn h1.2
                | layerDone m z t =>
                  simp only [lastDone]
                  rw [ih _ _ hn h1.2, if_neg (by have := h1.1; omega)]
                  rfl
            exact key _ _ _ (by omega) c2
          rw [hnone] at this
          simpa using this
        have hsz : sizeOf' st.data x.id = (l.height, l.thickness) := by simp [sizeOf', g]
        rw [g3, hsz] at hz
        have hz1 := congrArg Prod.fst hz
        have hz2 := congrArg Prod.snd hz
        refine ⟨by simpa [← i2] using hz1, by simpa [← i3] using hz2, s', g4, ?_⟩
        rw [← g5, hlines]
        have h0 : (ws.filter fun w => w.layer + (st.data.offset : Int) = x.id) = [] := by
          rw [List.filter_eq_nil_iff]
          intro w hw'
          have := hnw w hw'
          simp only [decide_eq_true_eq]
          omega
        rw [h0]
        have : linesOf st.data x.id = s := by simp [linesOf, g, i4]
        rw [this, i5]
        simp [visible]
      · have hxid := (hmemnew x.id).1 (List.mem_map_of_mem hx)
        simp only [expectObject, List.mem_map] at hx
        obtain ⟨n, n1, n2⟩ := hx
        have n1 := mem_numbers.1 n1
        obtain ⟨l', g1, g2, g3, s', g4, g5⟩ := hread x.id ((hids _).2 (Or.inr hxid))
        refine ⟨l', g1, g2, ?_⟩
        have hz := r.size n
        obtain ⟨d, hd⟩ := Option.isSome_iff_exists.1 (c3 n n1.1 n1.2)
        subst n2
        simp only at g3 g5 hxid ⊢
        rw [hf.size, hz, hd] at g3
        simp only [Option.getD_some] at g3
        refine ⟨by simp [hd, g3], by simp [hd, g3], s', g4, ?_⟩
        rw [← g5, hlines]
        have h0 : linesOf st.data (n + st.data.offset) = [] := by
          have : get st.data (n + st.data.offset) = none := by
            cases hg : get st.data (n + st.data.offset) with
            | none => rfl
            | some l =>
              have := hb _ (get_isSome.1 (by rw [hg]; rfl))
              omega
          simp [linesOf, this]
        rw [h0]
        have : (ws.filter fun w => w.layer + (st.data.offset : Int) = n + st.data.offset) = ws.filter fun w => w.layer = n := by
          apply List.filter_congr
          intro w _
          simp
        rw [this]
        simp [visible]
  have hcnt : ((flush st1).data.count : Int) = st.data.offset + (o.hi + 1 - o.lo) := by
    have h1 := hhas.length
    have h2 := h.length
    have h3 : (expectObject cv st.data.offset o ws).length = (o.hi + 1 - o.lo).toNat := by simp [expectObject, length_numbers]
    rw [List.length_append, h3, ← h2, ← ho] at h1
    omega
  refine ⟨st1, e, hhas, ?_, hcnt, hf.layer.trans r.layer, hf.extruder.trans r.extruder, hf.sliced.trans r.sliced, hf.objects.trans r.objects, hf.sent.trans r.sent⟩
  intro k hk
  rw [hcnt]
  rcases (hids k).1 hk with h1 | h1
  · have := hb k h1
    omega
  · omega

/-- The first layers of the objects do not get lower. -/
def Rising (b : Int) : List (Object F) → Prop
  | [] => True
  | o :: os => b ≤ o.lo ∧ Rising o.lo os

theorem objects_spec {cv : Conv F} (os : List (Object F)) (st : St F) (xs ys : List (Expect F)) (b : Int) (h : Has cv st xs)
    (ho : st.data.offset = st.data.count) (hb : ∀ k ∈ ids st.data, k < b + st.data.offset) (hr : Rising b os) (hc : AllClean st.comp.layer os)
    (he : expected cv st.comp.layer st.comp.extruder st.data.offset os = some ys) (hne : os ≠ [])
    (hn : st.objects = st.data.sliced + os.length) :
    ∃ st', runObjects cv st (os.map (·.ops)) = some st' ∧ st'.data.layers = [] ∧ st'.comp.types = [] ∧
      ∃ ms new, st'.sent = st.sent ++ new ∧ ms.Perm new ∧ List.Forall₂ Expect.Is (xs ++ ys) ms := by
  induction os generalizing st xs ys b with
  | nil => exact absurd rfl hne
  | cons o os ih =>
    obtain ⟨ws, rest, e1, e2, e3⟩ := expected_cons _ _ _ _ _ _ he
    subst e3
    obtain ⟨st1, r1, r2, r3, r4, r5, r6, r7, r8, r9⟩ := object_spec h b ho hb o hr.1 hc.1 e1
    by_cases h0 : os = []
    · subst h0
      simp only [expected, Option.some.injEq] at e2
      subst e2
      have hd : objectDone st1 = { flush st1 with data := {}, sent := (flush st1).sent ++ (flush st1).data.layers } := by
        rw [objectDone]
        rw [if_neg (by rw [r7, r8, hn]; simp)]
      refine ⟨objectDone st1, by simp [runObjects, r1], by rw [hd], by rw [hd]; exact r2.types, ?_⟩
      obtain ⟨ms, m1, m2⟩ := r2.messages
      refine ⟨ms, (flush st1).data.layers, by rw [hd]; simp [r9], m1, by simpa using m2⟩
    · have hd : objectDone st1 = { flush st1 with
            data := { (flush st1).data with sliced := (flush st1).data.sliced + 1, offset := (flush st1).data.count } } := by
        rw [objectDone]
        rw [if_pos (by
          rw [r7, r8, hn]
          have := List.length_pos_of_ne_nil h0
          simp only [List.length_cons]
          omega)]
      have hhas : Has cv (objectDone st1) (xs ++ expectObject cv st.data.offset o ws) := by
        rw [hd]
        exact ⟨⟨r2.ok.comp, r2.ok.readable, r2.ok.nodup, r2.ok.count⟩, r2.types, r2.nodup, r2.ids, r2.is⟩
      obtain ⟨st', q1, q2, q3, ms, new, q4, q5, q6⟩ := ih (objectDone st1) (xs ++ expectObject cv st.data.offset o ws) rest o.lo hhas (by rw [hd])
        (by rw [hd]; exact r3) hr.2 (by rw [hd]; simp only [r5]; exact hc.2) (by rw [hd]; simp only [r5, r6, r4]; exact e2) h0
        (by rw [hd]; simp only [r7, r8, hn, List.length_cons]; omega)
      refine ⟨st', by simp [runObjects, r1, q1], q2, q3, ms, new, ?_, q5, by simpa using q6⟩
      rw [q4, hd]
      simp [r9]

end Verif.View
