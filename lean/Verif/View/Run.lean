import Verif.View.Lemmas

/-! # Writing an object -/

namespace Verif.View

variable {F : Type}

open Spec

theorem setDone_lines (d : Data F) (n k z t : Int) :
    linesOf (d.update n fun l => { l with height := z, thickness := t }) k = linesOf d k := by
  rw [linesOf, get_update _ _ _ _ (by intro l; rfl)]
  split
  · rw [linesOf]
    cases get d k <;> simp [readSegments]
  · rfl

theorem setDone_readable {d : Data F} (hr : Readable d) (n z t : Int) : Readable (d.update n fun l => { l with height := z, thickness := t }) := by
  intro k l h
  rw [get_update _ _ _ _ (by intro l; rfl)] at h
  split at h
  · simp only [Option.some.injEq] at h
    subst h
    cases hg : get d k with
    | none => simp [readSegments]
    | some l => exact hr k l hg
  · exact hr k l h

theorem setDone_size (d : Data F) (n k z t : Int) :
    sizeOf' (d.update n fun l => { l with height := z, thickness := t }) k = if k = n + d.offset then (z, t) else sizeOf' d k := by
  rw [sizeOf', get_update _ _ _ _ (by intro l; rfl)]
  split <;> rfl

theorem CI.setLayer {cv : Conv F} {c : Compiler F} (h : CI cv c) (n : Int) : CI cv { c with layer := n } := by
  rcases h with h | ⟨s, ls, h⟩
  · exact Or.inl h
  · exact Or.inr ⟨s, ls, ⟨h.points, h.types, h.widths, h.thicknesses, h.speeds, h.last⟩⟩

theorem CI.setExtruder {cv : Conv F} {c : Compiler F} (h : CI cv c) (n : Nat) : CI cv { c with extruder := n } := by
  rcases h with h | ⟨s, ls, h⟩
  · exact Or.inl h
  · exact Or.inr ⟨s, ls, ⟨h.points, h.types, h.widths, h.thicknesses, h.speeds, h.last⟩⟩

theorem step_ok {cv : Conv F} {st st' : St F} (h : Ok cv st) {o : Op F} (hs : step cv st o = some st') : Ok cv st' ∧ st'.sent = st.sent := by
  cases o with
  | setLayer n =>
    simp only [step, Option.some.injEq] at hs
    subst hs
    split
    · have := (flush_spec h)
      exact ⟨⟨this.ok.comp.setLayer n, this.ok.readable, this.ok.nodup, this.ok.count⟩, this.sent⟩
    · exact ⟨h, rfl⟩
  | setExtruder n =>
    simp only [step, Option.some.injEq] at hs
    subst hs
    split
    · have := (flush_spec h)
      exact ⟨⟨this.ok.comp.setExtruder n, this.ok.readable, this.ok.nodup, this.ok.count⟩, this.sent⟩
    · exact ⟨h, rfl⟩
  | position p =>
    simp only [step, Option.some.injEq] at hs
    subst hs
    exact ⟨⟨(initial_spec h.comp p).1, h.readable, h.nodup, h.count⟩, rfl⟩
  | line t p w g v =>
    simp only [step] at hs
    split at hs
    · cases hs
    · rename_i h0
      simp only [Option.some.injEq] at hs
      subst hs
      split
      · exact ⟨⟨(pending_addLine h.comp (fun e => h0 (by simp [e])) _ _ _ _ _).1, h.readable, h.nodup, h.count⟩, rfl⟩
      · exact ⟨h, rfl⟩
  | layerDone n z t =>
    simp only [step, Option.some.injEq] at hs
    subst hs
    exact ⟨⟨h.comp, setDone_readable h.readable _ _ _, nodup_update h.nodup _ _ (by intro l; rfl), count_update h.count _ _⟩, rfl⟩

theorem runOps_ok {cv : Conv F} {ops : List (Op F)} {st st' : St F} (h : Ok cv st) (hs : runOps cv st ops = some st') : Ok cv st' ∧ st'.sent = st.sent := by
  induction ops generalizing st with
  | nil => simp only [runOps, Option.some.injEq] at hs; subst hs; exact ⟨h, rfl⟩
  | cons o ops ih =>
    simp only [runOps, Option.bind_eq_some_iff] at hs
    obtain ⟨st1, h1, h2⟩ := hs
    obtain ⟨a, b⟩ := step_ok h h1
    obtain ⟨c, d⟩ := ih a h2
    exact ⟨c, d.trans b⟩

theorem objectDone_ok {cv : Conv F} {st : St F} (h : Ok cv st) :
    Ok cv (objectDone st) ∧ ∀ m ∈ (objectDone st).sent, m ∈ st.sent ∨ (readSegments m.segments).isSome := by
  have hf := flush_spec h
  rw [objectDone]
  split
  · exact ⟨⟨hf.ok.comp, hf.ok.readable, hf.ok.nodup, hf.ok.count⟩, fun m hm => Or.inl (hf.sent ▸ hm)⟩
  · refine ⟨⟨hf.ok.comp, ?_, by simp [ids], rfl⟩, ?_⟩
    · intro k l hk
      simp [get] at hk
    · intro m hm
      simp only [List.mem_append] at hm
      rcases hm with hm | hm
      · exact Or.inl (hf.sent ▸ hm)
      · exact Or.inr (hf.ok.readable _ _ (get_of_mem hf.ok.nodup hm))

theorem start_ok (cv : Conv F) (n : Nat) : Ok cv ({ objects := n } : St F) :=
  ⟨Or.inl ⟨rfl, rfl, rfl, rfl, rfl⟩, fun k l h => by simp [get] at h, by simp [ids], rfl⟩

/-- What writing an object does. -/
structure Ran (cv : Conv F) (lo hi : Int) (st st' : St F) (ops : List (Op F)) (ws : List (Wish F)) : Prop where
  ok : Ok cv st'
  layer : st'.comp.layer = layerAfter st.comp.layer ops
  extruder : st'.comp.extruder = extruderAfter st.comp.extruder ops
  shows : ∀ k, visible (shows st' k) = visible (shows st k) ++ visible ((ws.filter fun w => w.layer + st.data.offset = k).map (Wish.shown cv))
  size : ∀ n, sizeOf' st'.data (n + st.data.offset) = (lastDone n ops).getD (sizeOf' st.data (n + st.data.offset))
  offset : st'.data.offset = st.data.offset
  sliced : st'.data.sliced = st.data.sliced
  objects : st'.objects = st.objects
  sent : st'.sent = st.sent
  old : ∀ k ∈ ids st.data, k ∈ ids st'.data
  new : ∀ k ∈ ids st'.data, k ∈ ids st.data ∨ (lo + st.data.offset ≤ k ∧ k ≤ hi + st.data.offset)
  done : ∀ n, (lastDone n ops).isSome → n + st.data.offset ∈ ids st'.data
  buf : st'.comp.types ≠ [] → lo ≤ st'.comp.layer ∧ st'.comp.layer ≤ hi

theorem visible_append (a b : List (Shown F)) : visible (a ++ b) = visible a ++ visible b := by simp [visible]

/-- A state from which the rest is run after one call. -/
theorem Ran.step {cv : Conv F} {lo hi : Int} {st st1 st' : St F} {o : Op F} {ops : List (Op F)} {ws0 ws : List (Wish F)}
    (h : Ran cv lo hi st1 st' ops ws)
    (hl : layerAfter st1.comp.layer ops = layerAfter st.comp.layer (o :: ops))
    (he : extruderAfter st1.comp.extruder ops = extruderAfter st.comp.extruder (o :: ops))
    (hs : ∀ k, visible (View.shows st1 k) = visible (View.shows st k) ++ visible ((ws0.filter fun w => w.layer + st.data.offset = k).map (Wish.shown cv)))
    (hz : ∀ n, (lastDone n ops).getD (sizeOf' st1.data (n + st.data.offset)) = (lastDone n (o :: ops)).getD (sizeOf' st.data (n + st.data.offset)))
    (ho : st1.data.offset = st.data.offset) (hc : st1.data.sliced = st.data.sliced) (hb : st1.objects = st.objects) (ht : st1.sent = st.sent)
    (hold : ∀ k ∈ ids st.data, k ∈ ids st1.data)
    (hnew : ∀ k ∈ ids st1.data, k ∈ ids st.data ∨ (lo + st.data.offset ≤ k ∧ k ≤ hi + st.data.offset))
    (hdone : ∀ n, (lastDone n (o :: ops)).isSome → (lastDone n ops).isSome ∨ n + st.data.offset ∈ ids st1.data) :
    Ran cv lo hi st st' (o :: ops) (ws0 ++ ws) := by
  constructor
  · exact h.ok
  · rw [h.layer, hl]
  · rw [h.extruder, he]
  · intro k
    rw [h.shows, hs, ho, List.filter_append, List.map_append, visible_append, List.append_assoc]
  · intro n
    have := h.size n
    rw [ho] at this
    rw [this, hz]
  · rw [h.offset, ho]
  · rw [h.sliced, hc]
  · rw [h.objects, hb]
  · rw [h.sent, ht]
  · intro k hk
    exact h.old k (hold k hk)
  · intro k hk
    rcases h.new k hk with h1 | h1
    · exact hnew k h1
    · exact Or.inr (ho ▸ h1)
  · intro n hn
    rcases hdone n hn with h1 | h1
    · exact ho ▸ h.done n h1
    · exact h.old _ h1
  · exact h.buf


theorem shows_setLayer {cv : Conv F} {st : St F} (h : Ok cv st) (ht : st.comp.types = []) (n : Int) (k : Int) :
    shows { st with comp := { st.comp with layer := n } } k = shows st k := by
  have h1 := h.comp.nil ht
  have h2 : pending { st.comp with layer := n } = [] := h1
  simp [shows, h1, h2]

theorem shows_setExtruder {cv : Conv F} {st : St F} (h : Ok cv st) (ht : st.comp.types = []) (n : Nat) (k : Int) :
    shows { st with comp := { st.comp with extruder := n } } k = shows st k := by
  have h1 := h.comp.nil ht
  have h2 : pending { st.comp with extruder := n } = [] := (h.comp.setExtruder n).nil ht
  simp [shows, h1, h2]

theorem runOps_spec {cv : Conv F} (lo hi : Int) (ops : List (Op F)) (st : St F) (pen : Option P3) (ws : List (Wish F)) (h : Ok cv st)
    (hb : st.comp.types ≠ [] → lo ≤ st.comp.layer ∧ st.comp.layer ≤ hi)
    (hp : ∀ q, pen = some q → st.comp.points ≠ [] ∧ st.comp.last = q)
    (hw : within lo hi st.comp.layer ops)
    (hws : wishes st.comp.layer st.comp.extruder pen ops = some ws) :
    ∃ st', runOps cv st ops = some st' ∧ Ran cv lo hi st st' ops ws := by
  induction ops generalizing st pen ws with
  | nil =>
    simp only [wishes, Option.some.injEq] at hws
    subst hws
    exact ⟨st, rfl, ⟨h, rfl, rfl, fun k => by simp [visible], fun n => rfl, rfl, rfl, rfl, rfl, fun k hk => hk, fun k hk => Or.inl hk,
      fun n hn => by simp [lastDone] at hn, hb⟩⟩
  | cons o ops ih =>
    cases o with
    | setLayer n =>
      simp only [wishes] at hws
      simp only [within] at hw
      by_cases hn : st.comp.layer = n
      · rw [if_pos hn] at hws
        obtain ⟨st', e, r⟩ := ih st pen ws h hb hp (hn ▸ hw) (hn ▸ hws)
        refine ⟨st', ?_, ?_⟩
        · simp only [runOps, step, hn, ne_eq, not_true_eq_false, if_false, Option.bind_some]
          exact e
        · have := Ran.step (o := Op.setLayer n) (ws0 := []) (st := st) r (by simp [layerAfter, hn]) rfl (by simp [visible]) (fun _ => rfl) rfl rfl rfl rfl
            (fun _ hk => hk) (fun _ hk => Or.inl hk) (fun _ hk => Or.inl hk)
          simpa using this
      · rw [if_neg hn] at hws
        have hf := flush_spec h
        have hok : Ok cv { flush st with comp := { (flush st).comp with layer := n } } := ⟨hf.ok.comp.setLayer n, hf.ok.readable, hf.ok.nodup, hf.ok.count⟩
        obtain ⟨st', e, r⟩ := ih { flush st with comp := { (flush st).comp with layer := n } } none ws hok (fun h0 => absurd hf.types h0)
          (fun q hq => by cases hq) hw (by rw [hf.extruder]; exact hws)
        refine ⟨st', ?_, ?_⟩
        · simp only [runOps, step, ne_eq, hn, not_false_eq_true, if_true, Option.bind_some]
          exact e
        · have := Ran.step (o := Op.setLayer n) (ws0 := []) (st := st) r rfl (by simp only [hf.extruder]; rfl)
            (fun k => by rw [shows_setLayer hf.ok hf.types, hf.shows]; simp [visible]) (fun m => by rw [hf.size]; rfl) hf.offset hf.sliced hf.objects hf.sent
            (fun k hk => (hf.ids k).2 (Or.inl hk))
            (fun k hk => by
              rcases (hf.ids k).1 hk with h1 | ⟨h1, h2⟩
              · exact Or.inl h1
              · have := hb h1
                exact Or.inr (by omega))
            (fun _ hk => Or.inl hk)
          simpa using this
    | setExtruder n =>
      simp only [wishes] at hws
      simp only [within] at hw
      by_cases hn : st.comp.extruder = n
      · rw [if_pos hn] at hws
        obtain ⟨st', e, r⟩ := ih st pen ws h hb hp hw (hn ▸ hws)
        refine ⟨st', ?_, ?_⟩
        · simp only [runOps, step, hn, ne_eq, not_true_eq_false, if_false, Option.bind_some]
          exact e
        · have := Ran.step (o := Op.setExtruder n) (ws0 := []) (st := st) r rfl (by simp [extruderAfter, hn]) (by simp [visible]) (fun _ => rfl) rfl rfl rfl rfl
            (fun _ hk => hk) (fun _ hk => Or.inl hk) (fun _ hk => Or.inl hk)
          simpa using this
      · rw [if_neg hn] at hws
        have hf := flush_spec h
        have hok : Ok cv { flush st with comp := { (flush st).comp with extruder := n } } := ⟨hf.ok.comp.setExtruder n, hf.ok.readable, hf.ok.nodup, hf.ok.count⟩
        obtain ⟨st', e, r⟩ := ih { flush st with comp := { (flush st).comp with extruder := n } } none ws hok (fun h0 => absurd hf.types h0)
          (fun q hq => by cases hq) (by simpa [hf.layer] using hw) (by simpa [hf.layer] using hws)
        refine ⟨st', ?_, ?_⟩
        · simp only [runOps, step, ne_eq, hn, not_false_eq_true, if_true, Option.bind_some]
          exact e
        · have := Ran.step (o := Op.setExtruder n) (ws0 := []) (st := st) r (by simp only [hf.layer]; rfl) rfl
            (fun k => by rw [shows_setExtruder hf.ok hf.types, hf.shows]; simp [visible]) (fun m => by rw [hf.size]; rfl) hf.offset hf.sliced hf.objects hf.sent
            (fun k hk => (hf.ids k).2 (Or.inl hk))
            (fun k hk => by
              rcases (hf.ids k).1 hk with h1 | ⟨h1, h2⟩
              · exact Or.inl h1
              · have := hb h1
                exact Or.inr (by omega))
            (fun _ hk => Or.inl hk)
          simpa using this
    | position p =>
      simp only [wishes] at hws
      simp only [within] at hw
      obtain ⟨i1, i2, i3, i4, i5, i6⟩ := initial_spec h.comp p
      have hok : Ok cv { st with comp := initial cv st.comp p } := ⟨i1, h.readable, h.nodup, h.count⟩
      obtain ⟨st', e, r⟩ := ih { st with comp := initial cv st.comp p } (some p) ws hok (fun _ => by rw [i4]; exact hw.1)
        (fun q hq => ⟨i2, by cases hq; exact i3⟩) (by rw [i4]; exact hw.2) (by rw [i4, i5]; exact hws)
      refine ⟨st', by simp only [runOps, step, Option.bind_some]; exact e, ?_⟩
      have := Ran.step (o := Op.position p) (ws0 := []) (st := st) r (by simp only [i4]; rfl) (by simp only [i5]; rfl)
        (fun k => by
          simp only [shows, i4, visible_append]
          split
          · rw [i6]; simp [visible]
          · simp [visible]) (fun m => rfl) rfl rfl rfl rfl (fun k hk => hk) (fun k hk => Or.inl hk) (fun _ hk => Or.inl hk)
      simpa using this
    | line t p w g v =>
      simp only [wishes] at hws
      simp only [within] at hw
      cases pen with
      | none => cases hws
      | some q =>
        simp only [Option.map_eq_some_iff] at hws
        obtain ⟨rest, e1, e2⟩ := hws
        obtain ⟨p1, p2⟩ := hp q rfl
        have p0 : st.comp.points.isEmpty = false := by simpa using p1
        by_cases hq : q = p
        · rw [if_pos hq] at e2
          subst e2
          obtain ⟨st', e, r⟩ := ih st (some p) rest h hb (fun q' h' => ⟨p1, by cases h'; rw [p2, hq]⟩) hw.2 e1
          refine ⟨st', ?_, ?_⟩
          · simp only [runOps, step, p0, p2, hq, ne_eq, not_true_eq_false, if_false, Option.bind_some, Bool.false_eq_true]
            exact e
          · have := Ran.step (o := Op.line t p w g v) (ws0 := []) (st := st) r rfl rfl (by simp [visible]) (fun _ => rfl) rfl rfl rfl rfl
              (fun _ hk => hk) (fun _ hk => Or.inl hk) (fun _ hk => Or.inl hk)
            simpa using this
        · rw [if_neg hq] at e2
          subst e2
          obtain ⟨a1, a2⟩ := pending_addLine h.comp p1 t p w g v
          have hok : Ok cv { st with comp := addLine cv st.comp t p w g v } := ⟨a1, h.readable, h.nodup, h.count⟩
          obtain ⟨st', e, r⟩ := ih { st with comp := addLine cv st.comp t p w g v } (some p) rest hok (fun _ => hw.1)
            (fun q' h' => ⟨by simp [addLine, addPoint], by cases h'; rfl⟩) hw.2 e1
          refine ⟨st', ?_, ?_⟩
          · have hne : p ≠ st.comp.last := by rw [p2]; exact Ne.symm hq
            simp only [runOps, step, p0, hne, ne_eq, not_false_eq_true, if_true, if_false, Option.bind_some, Bool.false_eq_true]
            exact e
          · have := Ran.step (o := Op.line t p w g v) (ws0 := [⟨st.comp.layer, st.comp.extruder, t, q, p, w, g, v⟩]) (st := st) r rfl rfl
              (fun k => by
                simp only [shows]
                have hl : (addLine cv st.comp t p w g v).layer = st.comp.layer := rfl
                rw [hl, a2, p2]
                by_cases hk : st.comp.layer + (st.data.offset : Int) = k
                · rw [if_pos hk, if_pos hk, ← List.append_assoc, visible_append]
                  congr 1
                  simp [hk, Wish.shown, tr]
                · rw [if_neg hk, if_neg hk]
                  simp [hk, visible]) (fun m => rfl) rfl rfl rfl rfl
              (fun _ hk => hk) (fun _ hk => Or.inl hk) (fun _ hk => Or.inl hk)
            simpa using this
    | layerDone n z t =>
      simp only [wishes] at hws
      simp only [within] at hw
      have hok : Ok cv { st with data := st.data.update n fun l => { l with height := z, thickness := t } } :=
        ⟨h.comp, setDone_readable h.readable _ _ _, nodup_update h.nodup _ _ (by intro l; rfl), count_update h.count _ _⟩
      obtain ⟨st', e, r⟩ := ih { st with data := st.data.update n fun l => { l with height := z, thickness := t } } pen ws hok hb hp hw.2 hws
      refine ⟨st', by simp only [runOps, step, Option.bind_some]; exact e, ?_⟩
      have hid : ∀ k, k ∈ ids (st.data.update n fun l => { l with height := z, thickness := t }) ↔ k ∈ ids st.data ∨ k = n + st.data.offset := by
        intro k
        rw [ids_update _ _ _ (by intro l; rfl)]
        split
        · rename_i h1
          exact ⟨Or.inl, fun h2 => h2.elim id fun h3 => h3 ▸ h1⟩
        · simp
      have := Ran.step (o := Op.layerDone n z t) (ws0 := []) (st := st) r rfl rfl
        (fun k => by simp only [shows, update_offset, setDone_lines]; simp [visible])
        (fun m => by
          simp only [setDone_size, lastDone]
          cases lastDone m ops with
          | some x => rfl
          | none =>
            by_cases hm : n = m
            · subst hm; simp
            · have : ¬ m + (st.data.offset : Int) = n + st.data.offset := by omega
              simp [hm, this]) (by simp) (by simp) rfl rfl
        (fun k hk => (hid k).2 (Or.inl hk))
        (fun k hk => by
          rcases (hid k).1 hk with h1 | h1
          · exact Or.inl h1
          · exact Or.inr (by omega))
        (fun m hm => by
          simp only [lastDone] at hm
          by_cases h1 : n = m
          · exact Or.inr ((hid _).2 (Or.inr (by rw [h1])))
          · left
            rw [if_neg h1] at hm
            simpa using hm)
      simpa using this

end Verif.View
