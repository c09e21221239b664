import Verif.Support.Exclude
import Verif.Support.Cover

/-! # Areas that are taken out of support (C83) -/

namespace Verif.Support

open Verif.Volumes (Point Region times times_append times_cons times_one times_zero WithinFlat)
open Verif.Box (AABB)

/-- What is assumed: the islands of an area cover it, each point once; the areas lie in their bounding boxes. -/
structure Exclusion.Ok (e : Exclusion) : Prop where
  islands : IslandsOk e.islands
  inside : ∀ p ∈ e.region, WithinFlat e.box p

/-- A part lies in its bounding box. -/
def InfillPart.Ok (q : InfillPart) : Prop := ∀ p ∈ q.outline, WithinFlat q.box p

/-- What becomes of a part: it is left alone, or its islands take its place. -/
def Exclusion.pieces (e : Exclusion) (q : InfillPart) : List Region :=
  if e.box.hit q.box then e.islands (q.outline \ e.region) else [q.outline]

/-- The part at its old place. -/
def Exclusion.first (e : Exclusion) (q : InfillPart) : InfillPart :=
  match e.pieces q with
  | [] => q
  | r :: _ => { q with outline := r }

/-- The parts that are added. -/
def Exclusion.rest (e : Exclusion) (q : InfillPart) : List InfillPart :=
  (e.pieces q).tail.map fun r => ⟨r, e.boxOf r, q.width, q.fractional, q.inset, 0⟩

def Exclusion.dead (e : Exclusion) (q : InfillPart) : Bool := (e.pieces q).isEmpty

/-- The indices of the parts of which nothing is left, the last one first. -/
def deadOnes (e : Exclusion) : List InfillPart → List Nat
  | [] => []
  | q :: qs => (deadOnes e qs).map (· + 1) ++ if e.dead q then [0] else []

theorem deadOnes_append (e : Exclusion) (q : InfillPart) : ∀ qs,
    deadOnes e (qs ++ [q]) = (if e.dead q then [qs.length] else []) ++ deadOnes e qs
  | [] => by simp [deadOnes]
  | a :: qs => by
    rw [List.cons_append, deadOnes, deadOnes_append e q qs, deadOnes]
    by_cases h : e.dead q <;> simp [h]

theorem append_ok (e : Exclusion) (k : Nat) (q : InfillPart) : ∀ (rs : List Region) (valid : Bool) (s t : Parts),
    s.parts[k]? = some q → append e k valid rs s = .ok t →
    t.parts = s.parts ++ rs.map (fun r => ⟨r, e.boxOf r, q.width, q.fractional, q.inset, 0⟩) ∧ t.remove = s.remove
  | [], valid, s, t, _, h => by
    cases h
    simp
  | r :: rs, valid, s, t, hk, h => by
    unfold append at h
    split at h
    · rw [Outcome.index_eq_ok.2 hk] at h
      have hlen : k < s.parts.length := by
        by_contra hc
        rw [List.getElem?_eq_none (not_lt.1 hc)] at hk
        cases hk
      obtain ⟨h1, h2⟩ := append_ok e k q rs _ _ t (by
        dsimp only
        rw [List.getElem?_append_left hlen]
        exact hk) h
      rw [h1, h2]
      simp
    · cases h

theorem excludePart_ok (e : Exclusion) (done rest extra : List InfillPart) (q : InfillPart) (cap : Nat) (rem : List Nat)
    (t : Parts) (h : excludePart e ⟨done ++ q :: rest ++ extra, cap, rem⟩ done.length = .ok t) :
    t.parts = (done ++ [e.first q]) ++ rest ++ (extra ++ e.rest q) ∧
      t.remove = (if e.dead q then [done.length] else []) ++ rem := by
  have hget : (done ++ q :: rest ++ extra)[done.length]? = some q := by simp
  unfold excludePart at h
  rw [Outcome.index_eq_ok.2 hget] at h
  unfold Exclusion.first Exclusion.rest Exclusion.dead Exclusion.pieces
  dsimp only [Outcome.bind] at h
  by_cases hh : e.box.hit q.box = true
  · simp only [hh, if_true] at h ⊢
    cases hi : e.islands (q.outline \ e.region) with
    | nil =>
      rw [hi] at h
      cases h
      simp
    | cons r rs =>
      rw [hi] at h
      have hset : (done ++ q :: rest ++ extra).set done.length { q with outline := r } =
          done ++ { q with outline := r } :: rest ++ extra := by simp
      dsimp only at h
      rw [hset] at h
      obtain ⟨h1, h2⟩ := append_ok e _ { q with outline := r } rs _ _ t (by simp) h
      rw [h1, h2]
      simp
  · simp only [hh, Bool.false_eq_true, if_false] at h ⊢
    cases h
    simp

theorem excludeParts_ok (e : Exclusion) : ∀ (rest done extra : List InfillPart) (cap : Nat) (rem : List Nat) (t : Parts),
    excludeParts e (List.range' done.length rest.length) ⟨done ++ rest ++ extra, cap, rem⟩ = .ok t →
    t.parts = done ++ rest.map e.first ++ (extra ++ rest.flatMap e.rest) ∧
      t.remove = (deadOnes e rest).map (· + done.length) ++ rem
  | [], done, extra, cap, rem, t, h => by
    cases h
    simp [deadOnes]
  | q :: rest, done, extra, cap, rem, t, h => by
    rw [List.length_cons, List.range'_succ] at h
    unfold excludeParts at h
    cases hp : excludePart e ⟨done ++ q :: rest ++ extra, cap, rem⟩ done.length with
    | ub => rw [hp] at h; cases h
    | diverge => rw [hp] at h; cases h
    | ok s =>
      rw [hp] at h
      dsimp only [Outcome.bind] at h
      obtain ⟨h1, h2⟩ := excludePart_ok e done rest extra q cap rem s hp
      have e1 : s = ⟨(done ++ [e.first q]) ++ rest ++ (extra ++ e.rest q), s.capacity,
          (if e.dead q then [done.length] else []) ++ rem⟩ := by
        rw [← h1, ← h2]
      rw [e1, show done.length + 1 = (done ++ [e.first q]).length by simp] at h
      obtain ⟨h3, h4⟩ := excludeParts_ok e rest (done ++ [e.first q]) (extra ++ e.rest q) _ _ t h
      refine ⟨by rw [h3]; simp, ?_⟩
      rw [h4, deadOnes]
      by_cases hd : e.dead q <;> simp [hd, Function.comp_def] <;> (intros; omega)

theorem removePart_last (a : List InfillPart) (x : InfillPart) (b : List InfillPart) :
    ∃ b', removePart (a ++ x :: b) a.length = a ++ b' ∧ b'.Perm b := by
  rcases List.eq_nil_or_concat b with rfl | ⟨b, y, rfl⟩
  · refine ⟨[], ?_, List.Perm.refl _⟩
    unfold removePart
    simp
  · refine ⟨y :: b, ?_, by simpa using (List.perm_append_singleton y b).symm⟩
    unfold removePart
    have : (a ++ x :: (b ++ [y])).getLast? = some y := by
      rw [show a ++ x :: (b ++ [y]) = (a ++ x :: b) ++ [y] by simp]
      exact List.getLast?_concat
    simp only [List.concat_eq_append]
    rw [this]
    dsimp only
    rw [if_pos (by simp)]
    rw [show (a ++ x :: (b ++ [y])).set a.length y = (a ++ y :: b) ++ [y] by simp]
    exact List.dropLast_concat

theorem removeAll (e : Exclusion) (f : InfillPart → InfillPart) : ∀ (qs extra : List InfillPart),
    ((deadOnes e qs).foldl removePart (qs.map f ++ extra)).Perm ((qs.filter fun q => !e.dead q).map f ++ extra) := by
  intro qs
  induction qs using List.reverseRecOn with
  | nil => intro extra; simp [deadOnes]
  | append_singleton qs q ih =>
    intro extra
    rw [deadOnes_append]
    by_cases hd : e.dead q
    · simp only [hd, if_true, List.singleton_append, List.foldl_cons, List.map_append, List.map_cons, List.map_nil,
        List.append_assoc]
      obtain ⟨b, h1, h2⟩ := removePart_last (qs.map f) (f q) extra
      rw [List.length_map] at h1
      rw [h1]
      refine (ih b).trans ?_
      simpa [hd] using List.Perm.append_left _ h2
    · simp only [hd, Bool.false_eq_true, if_false, List.nil_append, List.map_append, List.map_cons, List.map_nil,
        List.append_assoc]
      refine (ih _).trans ?_
      simp [hd]

/-- What `exclude` makes of the parts, in any order. -/
theorem exclude_perm (e : Exclusion) (cap : Nat) (ps out : List InfillPart) (h : exclude e cap ps = .ok out) :
    out.Perm ((ps.filter fun q => !e.dead q).map e.first ++ ps.flatMap e.rest) := by
  unfold exclude at h
  cases hp : excludeParts e (List.range ps.length) ⟨ps, cap, []⟩ with
  | ub => rw [hp] at h; cases h
  | diverge => rw [hp] at h; cases h
  | ok s =>
    rw [hp] at h
    cases h
    rw [List.range_eq_range'] at hp
    obtain ⟨h1, h2⟩ := excludeParts_ok e ps [] [] cap [] s (by simpa using hp)
    rw [h1, h2]
    simpa using removeAll e e.first ps (ps.flatMap e.rest)

theorem times_perm {p : Point} {a b : List Region} (h : a.Perm b) : times p a = times p b := by
  induction h with
  | nil => rfl
  | cons r _ ih => exact congrArg (_ + ·) ih
  | swap r s l => exact Nat.add_left_comm _ _ _
  | trans _ _ h1 h2 => exact h1.trans h2

theorem times_flatMap (p : Point) (f : InfillPart → List Region) : ∀ qs : List InfillPart,
    times p (qs.flatMap f) = (qs.map fun q => times p (f q)).sum
  | [] => rfl
  | q :: qs => by rw [List.flatMap_cons, times_append, times_flatMap p f qs]; simp

theorem pieces_times (e : Exclusion) (p : Point) : ∀ qs : List InfillPart,
    times p (((qs.filter fun q => !e.dead q).map e.first ++ qs.flatMap e.rest).map InfillPart.outline) =
      times p (qs.flatMap e.pieces)
  | [] => rfl
  | q :: qs => by
    have ih := pieces_times e p qs
    rw [List.map_append, times_append] at ih ⊢
    rw [List.flatMap_cons, List.flatMap_cons, times_append, ← ih, List.map_append, times_append]
    unfold Exclusion.dead Exclusion.first Exclusion.rest
    cases h : e.pieces q with
    | nil => simp [h, times]
    | cons r rs =>
      simp only [List.filter_cons, h, List.isEmpty_cons, Bool.not_false, if_true, List.map_cons, List.tail_cons, List.map_map,
        Function.comp_def, List.map_id']
      rw [times_cons, times_cons p r rs]
      omega

theorem hit_of {a b : AABB} {p : Point} (ha : WithinFlat a p) (hb : WithinFlat b p) : a.hit b = true := by
  obtain ⟨a1, a2, a3, a4⟩ := ha
  obtain ⟨b1, b2, b3, b4⟩ := hb
  have h1 : b.min.x ≤ a.max.x := by exact_mod_cast le_trans b1 a2
  have h2 : a.min.x ≤ b.max.x := by exact_mod_cast le_trans a1 b2
  have h3 : b.min.y ≤ a.max.y := by exact_mod_cast le_trans b3 a4
  have h4 : a.min.y ≤ b.max.y := by exact_mod_cast le_trans a3 b4
  unfold AABB.hit
  simp only [not_lt.2 h1, not_lt.2 h3, gt_iff_lt, not_lt.2 h2, not_lt.2 h4, if_false]

theorem pieces_one (e : Exclusion) (he : e.Ok) {q : InfillPart} (hq : q.Ok) (p : Point) :
    times p (e.pieces q) = times p [q.outline \ e.region] := by
  unfold Exclusion.pieces
  split
  · exact he.islands _ _
  · rename_i hh
    by_cases h : p ∈ q.outline
    · have hn : p ∉ e.region := fun hr => hh (hit_of (he.inside p hr) (hq p h))
      rw [times_one p _ h, times_one p (q.outline \ e.region) ⟨h, hn⟩]
    · rw [times_zero p _ h, times_zero p (q.outline \ e.region) fun hc => h hc.1]

/-- C83. What is taken out of support is no longer in any part, and every other point is in as many parts as before. -/
theorem C83_exact_partial (e : Exclusion) (he : e.Ok) (cap : Nat) (ps out : List InfillPart) (hps : ∀ q ∈ ps, q.Ok)
    (h : exclude e cap ps = .ok out) (p : Point) :
    (p ∈ e.region → times p (out.map InfillPart.outline) = 0) ∧
      (p ∉ e.region → times p (out.map InfillPart.outline) = times p (ps.map InfillPart.outline)) := by
  have key : times p (out.map InfillPart.outline) = (ps.map fun q => times p [q.outline \ e.region]).sum := by
    rw [times_perm ((exclude_perm e cap ps out h).map _), pieces_times, times_flatMap]
    congr 1
    exact List.map_congr_left fun q hq => pieces_one e he (hps q hq) p
  rw [key]
  clear key h hps
  constructor
  · intro hp
    induction ps with
    | nil => rfl
    | cons q qs ih =>
      rw [List.map_cons, List.sum_cons, ih, times_zero p _ fun hc => hc.2 hp]
  · intro hp
    induction ps with
    | nil => rfl
    | cons q qs ih =>
      rw [List.map_cons, List.sum_cons, ih, List.map_cons, times_cons p q.outline]
      by_cases hq : p ∈ q.outline
      · rw [times_one p (q.outline \ e.region) ⟨hq, hp⟩, times_one p _ hq]
      · rw [times_zero p (q.outline \ e.region) fun hc => hq hc.1, times_zero p _ hq]

/-- C83. What is left of a part is printed as the part was: with the same line width and walls. -/
theorem C83_same_partial (e : Exclusion) (he : e.Ok) (cap : Nat) (ps out : List InfillPart)
    (h : exclude e cap ps = .ok out) : ∀ t ∈ out, ∃ q ∈ ps, t.outline ⊆ q.outline ∧ t.width = q.width ∧
      t.fractional = q.fractional ∧ t.inset = q.inset ∧ (t.distance = q.distance ∨ t.distance = 0) := by
  have hsub : ∀ q, ∀ r ∈ e.pieces q, r ⊆ q.outline := by
    intro q r hr p hp
    unfold Exclusion.pieces at hr
    split at hr
    · by_contra hc
      have : times p (e.islands (q.outline \ e.region)) = 0 := by
        rw [he.islands, times_zero p _ fun h => hc h.1]
      have h1 : 0 < times p (e.islands (q.outline \ e.region)) := by
        obtain ⟨a, b, hab⟩ := List.append_of_mem hr
        rw [hab, times_append, times_cons, times_one p r hp]
        omega
      omega
    · rw [List.mem_singleton] at hr
      rwa [hr] at hp
  intro t ht
  rw [(exclude_perm e cap ps out h).mem_iff, List.mem_append] at ht
  rcases ht with ht | ht
  · obtain ⟨q, hq, rfl⟩ := List.mem_map.1 ht
    refine ⟨q, (List.mem_filter.1 hq).1, ?_⟩
    unfold Exclusion.first
    split
    · exact ⟨fun _ h => h, rfl, rfl, rfl, .inl rfl⟩
    · rename_i r rs hr
      exact ⟨hsub q r (by rw [hr]; simp), rfl, rfl, rfl, .inl rfl⟩
  · obtain ⟨q, hq, ht⟩ := List.mem_flatMap.1 ht
    obtain ⟨r, hr, rfl⟩ := List.mem_map.1 ht
    exact ⟨q, hq, hsub q r (List.mem_of_mem_tail hr), rfl, rfl, rfl, .inr rfl⟩

theorem append_defined (e : Exclusion) (k : Nat) : ∀ (rs : List Region) (s : Parts), k < s.parts.length →
    (rs.length ≤ 1 ∨ s.parts.length + rs.length ≤ s.capacity) →
    ∃ t, append e k true rs s = .ok t ∧ t.parts.length = s.parts.length + rs.length ∧
      (s.parts.length + rs.length ≤ s.capacity → t.capacity = s.capacity)
  | [], s, _, _ => ⟨s, rfl, by simp, fun _ => rfl⟩
  | r :: rs, s, hk, h => by
    unfold append
    rw [if_pos rfl, Outcome.index_eq_ok.2 (List.getElem?_eq_getElem hk)]
    dsimp only [Outcome.bind]
    by_cases hc : s.parts.length < s.capacity
    · simp only [hc, decide_true, if_true]
      obtain ⟨t, h1, h2, h3⟩ := append_defined e k rs
        ⟨s.parts ++ [⟨r, e.boxOf r, s.parts[k].width, s.parts[k].fractional, s.parts[k].inset, 0⟩], s.capacity, s.remove⟩
        (by simp; omega) (by simp only [List.length_append, List.length_cons, List.length_nil] at h ⊢; omega)
      refine ⟨t, h1, ?_, ?_⟩
      · rw [h2]; simp only [List.length_append, List.length_cons, List.length_nil]; omega
      · intro hh
        refine h3 ?_
        simp only [List.length_append, List.length_cons, List.length_nil] at hh ⊢
        omega
    · have : rs = [] := by
        rw [List.length_cons] at h
        exact List.length_eq_zero_iff.1 (by omega)
      subst this
      refine ⟨_, rfl, by simp, ?_⟩
      intro hh
      simp at hh
      omega

/-- C83. The behaviour is defined if no part falls apart into more than two islands, or if the vector has room for all. -/
theorem C83_defined_partial (e : Exclusion) (cap : Nat) (ps : List InfillPart)
    (h : (∀ q ∈ ps, (e.pieces q).length ≤ 2) ∨ ps.length + (ps.flatMap e.rest).length ≤ cap) :
    ∃ out, exclude e cap ps = .ok out := by
  have key : ∀ (rest done extra : List InfillPart) (cap : Nat) (rem : List Nat),
      ((∀ q ∈ rest, (e.pieces q).length ≤ 2) ∨ (done ++ rest ++ extra).length + (rest.flatMap e.rest).length ≤ cap) →
      ∃ t, excludeParts e (List.range' done.length rest.length) ⟨done ++ rest ++ extra, cap, rem⟩ = .ok t := by
    intro rest
    induction rest with
    | nil => intro done extra cap rem _; exact ⟨_, rfl⟩
    | cons q rest ih =>
      intro done extra cap rem hyp
      have hstep : ∃ t, excludePart e ⟨done ++ q :: rest ++ extra, cap, rem⟩ done.length = .ok t ∧
          ((done ++ q :: rest ++ extra).length + (e.rest q).length ≤ cap → t.capacity = cap) := by
        have hget : (done ++ q :: rest ++ extra)[done.length]? = some q := by simp
        unfold excludePart
        rw [Outcome.index_eq_ok.2 hget]
        dsimp only [Outcome.bind]
        unfold Exclusion.rest Exclusion.pieces at *
        by_cases hh : e.box.hit q.box = true
        · simp only [hh, if_true]
          cases hi : e.islands (q.outline \ e.region) with
          | nil => exact ⟨_, rfl, fun _ => rfl⟩
          | cons r rs =>
            dsimp only
            obtain ⟨t, h1, h2, h3⟩ := append_defined e done.length rs
              ⟨(done ++ q :: rest ++ extra).set done.length { q with outline := r }, cap, rem⟩ (by simp) (by
                rcases hyp with hyp | hyp
                · left
                  have := hyp q (by simp)
                  rw [if_pos hh, hi] at this
                  simpa using this
                · right
                  simp only [List.flatMap_cons, hh, if_true, hi, List.tail_cons, List.length_append, List.length_map,
                    List.length_cons, List.length_set] at hyp ⊢
                  omega)
            refine ⟨t, h1, fun hc => h3 ?_⟩
            simpa using hc
        · simp only [hh, Bool.false_eq_true, if_false]
          exact ⟨_, rfl, fun _ => rfl⟩
      obtain ⟨s, hs, hcap⟩ := hstep
      obtain ⟨h1, h2⟩ := excludePart_ok e done rest extra q cap rem s hs
      have e1 : s = ⟨(done ++ [e.first q]) ++ rest ++ (extra ++ e.rest q), s.capacity,
          (if e.dead q then [done.length] else []) ++ rem⟩ := by
        rw [← h1, ← h2]
      rw [List.length_cons, List.range'_succ]
      unfold excludeParts
      rw [hs]
      dsimp only [Outcome.bind]
      rw [e1, show done.length + 1 = (done ++ [e.first q]).length by simp]
      refine ih _ _ _ _ ?_
      rcases hyp with hyp | hyp
      · exact .inl fun x hx => hyp x (List.mem_cons_of_mem _ hx)
      · right
        rw [hcap (by
          simp only [List.flatMap_cons, List.length_append, List.length_cons] at hyp ⊢
          omega)]
        simp only [List.flatMap_cons, List.length_append, List.length_cons, List.length_nil] at hyp ⊢
        omega
  obtain ⟨t, ht⟩ := key ps [] [] cap [] (by simpa using h)
  unfold exclude
  rw [List.range_eq_range']
  have : excludeParts e (List.range' 0 ps.length) ⟨ps, cap, []⟩ = .ok t := by simpa using ht
  rw [this]
  exact ⟨_, rfl⟩

/-- C83, counterexample: a part that falls apart into three islands, in a vector without room, is undefined behaviour. -/
theorem C83_undefined_counterexample (e : Exclusion) (q : InfillPart) (a b c : Region) (rs : List Region)
    (hh : e.box.hit q.box = true) (hi : e.islands (q.outline \ e.region) = a :: b :: c :: rs) (ps : List InfillPart) :
    exclude e (ps.length + 1) (q :: ps) = .ub := by
  have h0 : excludePart e ⟨q :: ps, ps.length + 1, []⟩ 0 = .ub := by
    unfold excludePart
    have : Outcome.index (q :: ps) 0 = .ok q := rfl
    rw [this]
    dsimp only [Outcome.bind]
    rw [if_pos hh, hi]
    dsimp only
    unfold append
    rw [if_pos rfl]
    have : Outcome.index ((q :: ps).set 0 { q with outline := a }) 0 = .ok { q with outline := a } := rfl
    rw [this]
    dsimp only [Outcome.bind]
    have hn : ¬ (((q :: ps).set 0 { q with outline := a }).length < ps.length + 1) := by simp
    simp only [hn, decide_false]
    unfold append
    rfl
  unfold exclude
  rw [List.length_cons, List.range_eq_range', List.range'_succ]
  unfold excludeParts
  rw [h0]
  rfl

end Verif.Support
