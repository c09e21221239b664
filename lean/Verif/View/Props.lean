import Verif.View.Objects
import Verif.View.Progress

/-! # C116, C117: the layer view and the progress bar -/

namespace Verif.View

variable {F : Type}

open Spec

/-! ## C116: what the front-end shows -/

/-- For all objects whose layers follow each other without gaps and whose first layers do not get lower: when the last object is finished, one message was sent
for each layer of each object and no other, and it has the number, the height, the thickness and exactly the lines that were asked for, in order. Nothing is
left behind. -/
theorem C116_view (cv : Conv F) (os : List (Object F)) (hne : os ≠ []) (hr : os.Pairwise fun a b => a.lo ≤ b.lo) (hc : AllClean 0 os) (xs : List (Expect F))
    (hx : expected cv 0 0 0 os = some xs) :
    ∃ st, runObjects cv { objects := os.length } (os.map (·.ops)) = some st ∧ st.data.layers = [] ∧ st.comp.types = [] ∧
      ∃ ms, ms.Perm st.sent ∧ List.Forall₂ Expect.Is xs ms := by
  have hr' : ∃ b, Rising b os := by
    have key : ∀ (os : List (Object F)) (b : Int), (∀ o ∈ os, b ≤ o.lo) → os.Pairwise (fun a b => a.lo ≤ b.lo) → Rising b os := by
      intro os
      induction os with
      | nil => intro _ _ _; trivial
      | cons o os ih =>
        intro b h1 h2
        obtain ⟨h3, h4⟩ := List.pairwise_cons.1 h2
        exact ⟨h1 o List.mem_cons_self, ih o.lo h3 h4⟩
    cases os with
    | nil => exact absurd rfl hne
    | cons o os =>
      refine ⟨o.lo, key _ _ ?_ hr⟩
      intro x hx
      rcases List.mem_cons.1 hx with e | hx
      · rw [e]
      · exact (List.pairwise_cons.1 hr).1 x hx
  obtain ⟨b, hb⟩ := hr'
  have h0 : Has cv ({ objects := os.length } : St F) [] :=
    ⟨start_ok cv _, rfl, List.nodup_nil, fun k => by simp [ids], fun x hx => by cases hx⟩
  obtain ⟨st, e1, e2, e3, ms, new, e4, e5, e6⟩ := objects_spec os { objects := os.length } [] xs b h0 rfl (fun k hk => by simp [ids] at hk) hb hc hx hne
    (by simp)
  have e4 : st.sent = new := by simpa using e4
  exact ⟨st, e1, e2, e3, ms, e4 ▸ e5, by simpa using e6⟩

/-- Whatever is called, in whatever order: all that is sent can be read. Each part has one more point than lines, and one width, thickness and speed for each
line. -/
theorem C116_format (cv : Conv F) (n : Nat) (os : List (List (Op F))) (st : St F) (h : runObjects cv { objects := n } os = some st) :
    ∀ m ∈ st.sent, ∃ l, readSegments m.segments = some l := by
  have key : ∀ (os : List (List (Op F))) (s : St F), Ok cv s → (∀ m ∈ s.sent, (readSegments m.segments).isSome) → runObjects cv s os = some st →
      ∀ m ∈ st.sent, (readSegments m.segments).isSome := by
    intro os
    induction os with
    | nil =>
      intro s _ h2 h3
      simp only [runObjects, Option.some.injEq] at h3
      exact h3 ▸ h2
    | cons o os ih =>
      intro s h1 h2 h3
      simp only [runObjects, Option.bind_eq_some_iff] at h3
      obtain ⟨s1, h4, h5⟩ := h3
      obtain ⟨k1, k2⟩ := runOps_ok h1 h4
      obtain ⟨k3, k4⟩ := objectDone_ok k1
      refine ih _ k3 (fun m hm => ?_) h5
      rcases k4 m hm with hm | hm
      · exact h2 m (k2 ▸ hm)
      · exact hm
  exact fun m hm => Option.isSome_iff_exists.1 (key os _ (start_ok cv n) (fun m hm => by cases hm) h m hm)

/-- One object: the lines are shown as they were asked for, whatever was there before; only the numbers of the layers have to be within bounds. -/
theorem C116_object (cv : Conv F) (o : Object F) (hc : o.Clean 0) (ws : List (Wish F)) (hw : wishes 0 0 none o.ops = some ws) :
    ∃ st, runObjects cv { objects := 1 } [o.ops] = some st ∧ st.sent.length = (o.hi + 1 - o.lo).toNat ∧
      ∀ n, o.lo ≤ n → n ≤ o.hi → ∃ m ∈ st.sent, m.id = n ∧ some (m.height, m.thickness) = lastDone n o.ops ∧
        ∃ l, readSegments m.segments = some l ∧ visible l = visible ((ws.filter fun w => w.layer = n).map (Wish.shown cv)) := by
  obtain ⟨st, h1, _, _, ms, h2, h3⟩ := C116_view cv [o] (by simp) (by simp) ⟨hc, trivial⟩ (expectObject cv 0 o ws) (by
    simp only [expected, hw]
    simp [expectObject])
  refine ⟨st, h1, ?_, ?_⟩
  · rw [← h2.length_eq, ← h3.length_eq]
    simp [expectObject, length_numbers]
  · intro n n1 n2
    obtain ⟨d, hd⟩ := Option.isSome_iff_exists.1 (hc.2.2 n n1 n2)
    have hm : (⟨n + 0, ((lastDone n o.ops).getD (0, 0)).1, ((lastDone n o.ops).getD (0, 0)).2,
        visible ((ws.filter fun w => w.layer = n).map (Wish.shown cv))⟩ : Expect F) ∈ expectObject cv 0 o ws :=
      List.mem_map.2 ⟨n, mem_numbers.2 ⟨n1, n2⟩, rfl⟩
    have key : ∀ (xs : List (Expect F)) (ms : List (Layer F)), List.Forall₂ Expect.Is xs ms → ∀ x ∈ xs, ∃ m ∈ ms, x.Is m := by
      intro xs ms h
      induction h with
      | nil => intro x hx; cases hx
      | cons a _ ih =>
        intro x hx
        rcases List.mem_cons.1 hx with e | hx
        · exact ⟨_, List.mem_cons_self, e ▸ a⟩
        · obtain ⟨m, m1, m2⟩ := ih x hx
          exact ⟨m, List.mem_cons_of_mem _ m1, m2⟩
    obtain ⟨m, m1, m2, m3, m4, m5⟩ := key _ _ h3 _ hm
    refine ⟨m, h2.subset m1, by simpa using m2, ?_, m5⟩
    rw [hd] at m3 m4 ⊢
    simp only [Option.getD_some] at m3 m4
    rw [m3, m4]

/-! ## C117: progress -/

/-- The share of the work that is done lies between zero and one and does not get smaller, within a stage and from one stage to a later one. The last stage
ends at one. -/
theorem C117_overall (t : List Rat) (ht : ∀ x ∈ t, 0 ≤ x) (hp : 0 < total t 0) :
    (∀ i p, i < t.length → ∃ q, overall t i p = some q ∧ 0 ≤ q ∧ q ≤ 1) ∧
      (∀ i j p p' q q', overall t i p = some q → overall t j p' = some q' → i < j ∨ (i = j ∧ p ≤ p') → q ≤ q') := by
  have hlen : ∀ (t : List Rat) (c : Rat), (accumulated t c).length = t.length := by
    intro t
    induction t with
    | nil => intro c; rfl
    | cons y t ih => intro c; simp [accumulated, ih]
  constructor
  · intro i p hi
    have h1 := List.getElem?_eq_getElem hi
    have h2 := List.getElem?_eq_getElem (l := accumulated t 0) (i := i) (by rw [hlen]; exact hi)
    obtain ⟨g1, g2, g3⟩ := stage_total ht 0 i h2 h1
    obtain ⟨c1, c2⟩ := clamp_bounds p
    refine ⟨_, by rw [overall, h2, h1], ?_, ?_⟩
    · positivity
    · rw [div_le_one hp]
      nlinarith
  · intro i j p p' q q' h1 h2 h
    rw [overall] at h1 h2
    split at h1
    · rename_i a d e1 e2
      split at h2
      · rename_i a' d' e3 e4
        simp only [Option.some.injEq] at h1 h2
        subst h1 h2
        gcongr ?_ / _
        obtain ⟨c1, c2⟩ := clamp_bounds p
        obtain ⟨c3, c4⟩ := clamp_bounds p'
        obtain ⟨g1, g2, g3⟩ := stage_total ht 0 i e1 e2
        obtain ⟨k1, k2, k3⟩ := stage_total ht 0 j e3 e4
        rcases h with h | ⟨h, hpp⟩
        · have := stage_order ht 0 i j h e1 e2 e3
          nlinarith
        · subst h
          rw [e1] at e3
          rw [e2] at e4
          cases e3
          cases e4
          have := clamp_mono hpp
          nlinarith
      · cases h2
    · cases h1

/-- The stages of the program meet this, and the last one ends at one. -/
theorem C117_stages : (∀ x ∈ times, 0 ≤ x) ∧ 0 < total times 0 ∧ times.length = 8 ∧ ∀ p, 1 ≤ p → overall times 7 p = some 1 := by
  refine ⟨by decide +kernel, by decide +kernel, rfl, ?_⟩
  intro p hp
  have : clamp p = 1 := by
    rw [clamp]
    split_ifs <;> linarith
  rw [overall, this]
  decide +kernel

/-- The bar: for all objects before and all progress values of the current one, the amounts that were sent do not get smaller, are between zero and one, and
the last one is less than a thousandth of an object behind. -/
theorem C117_bar (n : Nat) (os : List (List Rat)) (ps : List Rat) (hn : os.length < n) (ho : ∀ o ∈ os, Rises o ∧ o.getLast? = some 1) (hp : Rises ps)
    (h1 : ∀ p ∈ ps, p ≤ 1) :
    let b := ps.foldl sendProgress (os.foldl barObject { objects := n })
    b.sent.Pairwise (· ≤ ·) ∧ (∀ a ∈ b.sent, 0 ≤ a ∧ a ≤ 1) ∧
      ∃ p a, ps.getLast? = some p ∧ b.sent.getLast? = some a ∧ a ≤ (os.length + p) / n ∧ (os.length + p) / n < a + 1 / (1000 * n) := by
  have hn0 : 0 < n := by omega
  have hn' : (0 : Rat) < n := by exact_mod_cast hn0
  obtain ⟨hne, t⟩ := ((before_start n).objects' os (by simpa using hn) ho).object hn0 hp
  simp only [Nat.zero_add] at t
  refine ⟨t.sorted, ?_, ?_⟩
  · intro a ha
    refine ⟨(t.range a ha).1, (t.range a ha).2.trans ?_⟩
    rw [div_le_one hn']
    have h2 : (os.length : Rat) + 1 ≤ n := by exact_mod_cast hn
    have h3 := h1 _ (List.getLast_mem hne)
    linarith
  · obtain ⟨q, q1, q2, q3, q4, q5⟩ := t.last
    refine ⟨_, _, List.getLast?_eq_getLast_of_ne_nil hne, q3, by gcongr, ?_⟩
    have f1 := floor_le' (1000 * q)
    have f2 := lt_floor' (1000 * ps.getLast hne)
    rw [← q4] at f1
    rw [← q5] at f2
    rw [div_add_div _ _ hn'.ne' (by positivity), div_lt_div_iff₀ hn' (by positivity)]
    nlinarith [mul_pos hn' hn']

/-- When the last of all objects is finished the bar is full. -/
theorem C117_full (os : List (List Rat)) (hne : os ≠ []) (ho : ∀ o ∈ os, Rises o ∧ o.getLast? = some 1) :
    ((os.foldl barObject { objects := os.length }).sent).getLast? = some 1 := by
  obtain ⟨os', o, rfl⟩ : ∃ os' o, os = os' ++ [o] := ⟨os.dropLast, os.getLast hne, (List.dropLast_append_getLast hne).symm⟩
  have hlen : (os' ++ [o]).length = os'.length + 1 := by simp
  rw [hlen, List.foldl_append]
  have hb := (before_start (os'.length + 1)).objects' os' (by simp) fun x hx => ho x (List.mem_append_left _ hx)
  obtain ⟨h1, h2⟩ := ho o (by simp)
  obtain ⟨hne', t⟩ := hb.object (by omega) h1
  have e : o.getLast hne' = 1 := by
    rw [List.getLast?_eq_getLast_of_ne_nil hne'] at h2
    exact Option.some.inj h2
  rw [e] at t
  have := t.done.1
  simp only [List.foldl_cons, List.foldl_nil, barObject]
  rw [this]
  have : ((os'.length : Rat) + 1) ≠ 0 := by positivity
  push_cast
  simp only [zero_add, Option.some.injEq]
  exact div_self this

end Verif.View
