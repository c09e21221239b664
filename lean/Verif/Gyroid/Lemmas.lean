import Verif.Gyroid.Model
import Mathlib.Tactic.Ring
import Mathlib.Tactic.SplitIfs
import Mathlib.Data.List.Chain

namespace Verif.Gyroid

open Spec

variable {pos : End → Pt}

theorem drawn_append {r1 : List Stop} {o1 : List Conn} (h1 : Drawn pos r1 o1) {r2 : List Stop} {o2 : List Conn} (h2 : Drawn pos r2 o2) : Drawn pos (r1 ++ r2) (o1 ++ o2) := by
  induction h1 with
  | none => exact h2
  | skip s r out _ ih => exact .skip s _ _ ih
  | join e corners f c r out hb _ ih =>
    have := Drawn.join e corners f c _ _ hb ih
    simpa only [List.cons_append, List.append_assoc] using this

theorem drawn_nothing (r : List Stop) : Drawn pos r [] := by
  induction r with
  | nil => exact .none
  | cons s r ih => exact .skip s _ _ ih

theorem drawn_more {r1 : List Stop} {o1 : List Conn} (h1 : Drawn pos r1 o1) (r2 : List Stop) : Drawn pos (r1 ++ r2) o1 := by
  have := drawn_append h1 (drawn_nothing (pos := pos) r2)
  simpa only [List.append_nil] using this

theorem dist2_comm (a b : Pt) : dist2 a b = dist2 b a := by unfold dist2; ring

theorem no_stop {l : List Pt} {e : End} : Stop.stop e ∉ l.map Stop.corner := by
  intro h
  obtain ⟨p, _, hp⟩ := List.mem_map.1 h
  cases hp

theorem ends_append (a b : List Stop) : ends (a ++ b) = ends a ++ ends b := by
  induction a with
  | nil => rfl
  | cons x a ih =>
    cases x with
    | corner p => exact ih
    | stop e => simp only [List.cons_append, ends, ih]

theorem ends_corners (l : List Pt) : ends (l.map Stop.corner) = [] := by
  induction l with
  | nil => rfl
  | cons x l ih => exact ih

theorem ends_stops (l : List End) : ends (l.map Stop.stop) = l := by
  induction l with
  | nil => rfl
  | cons x l ih => simp only [List.map_cons, ends, ih]

theorem used_mono {l m : List Conn} (h : ∀ x ∈ l, x ∈ m) {e : End} (hu : Used l e) : Used m e := by
  obtain ⟨x, hx, hh⟩ := hu
  exact ⟨x, h x hx, hh⟩

theorem joined_mono {l m : List Conn} (h : ∀ x ∈ l, x ∈ m) {i k : Nat} (hu : Joined l i k) : Joined m i k := by
  obtain ⟨x, hx, hh⟩ := hu
  exact ⟨x, h x hx, hh⟩

theorem served_mono {l m : List Conn} (h : ∀ x ∈ l, x ∈ m) {e f : End} (hs : Served l e f) : Served m e f := by
  rcases hs with hs | hs | hs | hs
  · exact Or.inl (used_mono h hs)
  · exact Or.inr (Or.inl (used_mono h hs))
  · exact Or.inr (Or.inr (Or.inl hs))
  · exact Or.inr (Or.inr (Or.inr (joined_mono h hs)))

theorem chain_snoc {R : End → End → Prop} {l : List End} (h : l.IsChain R) {e : End} (he : ∀ d, l.getLast? = some d → R d e) : (l ++ [e]).IsChain R := by
  rw [List.isChain_append]
  refine ⟨h, List.isChain_singleton e, ?_⟩
  intro x hx y hy
  simp at hy
  subst hy
  exact he x hx

/-- What holds after a part of the way. -/
structure Inv (cs : List Chain) (G : Prop) (hist : List Conn) (n : Int) (s : St) (w : List Stop) (con : List Conn) : Prop where
  idle : s.drawing = false → s.points = [] ∧ Drawn (place cs) w con ∧ ∀ e : End, (ends w).getLast? = some e → Used con e
  draw : s.drawing = true → ∃ (pre : List Stop) (e : End) (mid : List Pt), w = pre ++ .stop e :: mid.map .corner ∧ Drawn (place cs) pre con
    ∧ (∃ kept : List Pt, kept.Sublist mid ∧ s.points = place cs e :: kept) ∧ ((G ∨ ∀ f : End, Stop.stop f ∉ pre) → s.startChain = some e.chain)
  out : s.out = con.map (·.points)
  differ : G → ∀ x ∈ con, x.a.chain ≠ x.b.chain
  conn : G → ∀ (i : Nat) (b : Bool) (k : Nat), s.connected i b = some k → Joined (hist ++ con) i k
  served : G → (ends w).IsChain (Served (hist ++ con))
  count : s.remaining = n - (ends w).length
  start : G → ∀ k : Nat, s.startChain = some k → k < cs.length
  path0 : s.first = none → s.startChain = none ∧ s.drawing = false ∧ ∃ corners : List Pt, w = corners.map .corner
    ∧ (corners = [] ∧ s.path = [] ∨ ∃ (p : Pt) (before kept : List Pt), corners = p :: before ∧ kept.Sublist before ∧ s.path = p :: kept)
  path1 : ∀ f : Nat, s.first = some f → ∃ (p : Pt) (before : List Pt) (e : End) (rest : List Stop) (kept : List Pt), w = .corner p :: (before.map .corner ++ .stop e :: rest)
    ∧ f = e.chain ∧ kept.Sublist before ∧ s.path = p :: kept ++ [place cs e]

theorem inv_begin (cs : List Chain) (G : Prop) (hist : List Conn) (t : Nat → Bool → Option Nat) (n : Int) (ht : G → ∀ (i : Nat) (b : Bool) (k : Nat), t i b = some k → Joined hist i k) :
    Inv cs G hist n (begin t n) [] [] where
  idle := fun _ => ⟨rfl, .none, fun e h => by cases h⟩
  draw := fun h => by cases h
  out := rfl
  differ := fun _ x hx => by cases hx
  conn := fun hG i b k h => by rw [List.append_nil]; exact ht hG i b k h
  served := fun _ => List.isChain_nil
  count := by simp [begin, ends]
  start := fun _ k h => by cases h
  path0 := fun _ => ⟨rfl, rfl, [], rfl, Or.inl ⟨rfl, rfl⟩⟩
  path1 := fun f h => by cases h

theorem corner_keeps (isFirst : Bool) (s : St) (p : Pt) : (corner isFirst s p).drawing = s.drawing ∧ (corner isFirst s p).first = s.first ∧ (corner isFirst s p).startChain = s.startChain
    ∧ (corner isFirst s p).out = s.out ∧ (corner isFirst s p).connected = s.connected ∧ (corner isFirst s p).remaining = s.remaining := by
  by_cases hc : isFirst = true ∨ dist2 p s.cur > 100
  · simp only [corner, if_pos hc, and_self]
  · simp only [corner, if_neg hc, and_self]

theorem corner_points (isFirst : Bool) (s : St) (p : Pt) : (corner isFirst s p).points = s.points ∨ (s.drawing = true ∧ (corner isFirst s p).points = s.points ++ [p]) := by
  by_cases hc : isFirst = true ∨ dist2 p s.cur > 100
  · cases hd : s.drawing
    · left; simp [corner, if_pos hc, hd]
    · right; simp [corner, if_pos hc, hd]
  · left; simp only [corner, if_neg hc]

theorem corner_path (isFirst : Bool) (s : St) (p : Pt) : ((corner isFirst s p).path = s.path ∧ (isFirst = false ∨ s.first ≠ none)) ∨ (s.first = none ∧ (corner isFirst s p).path = s.path ++ [p]) := by
  by_cases hc : isFirst = true ∨ dist2 p s.cur > 100
  · by_cases hf : s.first = none
    · right; simp [corner, if_pos hc, hf]
    · left; simp [corner, if_pos hc, hf]
  · left
    refine ⟨by simp only [corner, if_neg hc], Or.inl ?_⟩
    cases isFirst
    · rfl
    · exact absurd (Or.inl rfl) hc

theorem inv_corner {cs : List Chain} {G : Prop} {hist : List Conn} {n : Int} {s : St} {w : List Stop} {con : List Conn} (hs : Inv cs G hist n s w con) (isFirst : Bool) (hf : isFirst = true ∨ w ≠ []) (p : Pt) :
    Inv cs G hist n (corner isFirst s p) (w ++ [.corner p]) con := by
  have hmap : ∀ mid : List Pt, mid.map Stop.corner ++ [Stop.corner p] = (mid ++ [p]).map Stop.corner := fun mid => by simp
  obtain ⟨k1, k2, k3, k4, k5, k6⟩ := corner_keeps isFirst s p
  have hends : ends (w ++ [.corner p]) = ends w := by rw [ends_append]; simp [ends]
  constructor
  · intro h
    rw [k1] at h
    obtain ⟨a, b, c⟩ := hs.idle h
    rw [hends]
    refine ⟨?_, drawn_more b _, c⟩
    rcases corner_points isFirst s p with hp | ⟨hp, _⟩
    · rw [hp, a]
    · rw [h] at hp; cases hp
  · intro h
    rw [k1] at h
    obtain ⟨pre, e, mid, hw, hd, ⟨kept, hk, hp⟩, hst⟩ := hs.draw h
    refine ⟨pre, e, mid ++ [p], ?_, hd, ?_, by rw [k3]; exact hst⟩
    · rw [hw, ← hmap]; simp
    · rcases corner_points isFirst s p with hq | ⟨_, hq⟩
      · exact ⟨kept, hk.trans (List.sublist_append_left _ _), by rw [hq, hp]⟩
      · exact ⟨kept ++ [p], List.Sublist.append hk (List.Sublist.refl _), by rw [hq, hp]; rfl⟩
  · rw [k4]; exact hs.out
  · exact hs.differ
  · rw [k5]; exact hs.conn
  · rw [hends]; exact hs.served
  · rw [k6, hends]; exact hs.count
  · intro hg k hk
    rw [k3] at hk
    exact hs.start hg k hk
  · intro h
    rw [k2] at h
    obtain ⟨a, b, corners, hw, hc⟩ := hs.path0 h
    refine ⟨by rw [k3]; exact a, by rw [k1]; exact b, corners ++ [p], by rw [hw, hmap], Or.inr ?_⟩
    rcases hc with ⟨hc, hp⟩ | ⟨q, before, kept, hc, hk, hp⟩
    · have ht : isFirst = true := by
        rcases hf with h | h
        · exact h
        · exfalso; apply h; rw [hw, hc]; rfl
      refine ⟨p, [], [], by rw [hc]; rfl, List.Sublist.refl _, ?_⟩
      rcases corner_path isFirst s p with ⟨_, hq | hq⟩ | ⟨_, hq⟩
      · rw [ht] at hq; cases hq
      · exact absurd h hq
      · rw [hq, hp]; rfl
    · rcases corner_path isFirst s p with ⟨hq, _⟩ | ⟨_, hq⟩
      · exact ⟨q, before ++ [p], kept, by rw [hc]; rfl, hk.trans (List.sublist_append_left _ _), by rw [hq, hp]⟩
      · exact ⟨q, before ++ [p], kept ++ [p], by rw [hc]; rfl, List.Sublist.append hk (List.Sublist.refl _), by rw [hq, hp]; rfl⟩
  · intro f h
    rw [k2] at h
    obtain ⟨q, before, e, rest, kept, hw, hf', hk, hp⟩ := hs.path1 f h
    refine ⟨q, before, e, rest ++ [.corner p], kept, by rw [hw]; simp, hf', hk, ?_⟩
    rcases corner_path isFirst s p with ⟨hq, _⟩ | ⟨hn, _⟩
    · rw [hq, hp]
    · rw [h] at hn; cases hn

theorem between_withEnd {cs : List Chain} {s : St} {e0 e : End} {mid kept : List Pt} (hd : s.drawing = true) (hk : kept.Sublist mid) (hp : s.points = place cs e0 :: kept) :
    Between (place cs e0) mid (place cs e) (withEnd s (place cs e)) := by
  unfold withEnd
  by_cases hc : closeToLast s.points (place cs e) = true
  · rw [if_pos ⟨hd, hc⟩]
    rcases List.eq_nil_or_concat kept with h | ⟨l, q, h⟩
    · subst h
      right
      rw [hp] at hc ⊢
      refine ⟨?_, rfl⟩
      have : dist2 (place cs e) (place cs e0) < 100 := by simpa [closeToLast] using hc
      rw [dist2_comm]; exact this
    · left
      rw [List.concat_eq_append] at h
      refine ⟨l, (List.sublist_append_left l [q]).trans (h ▸ hk), ?_⟩
      rw [hp, h, ← List.cons_append, List.dropLast_concat]
  · rw [if_neg fun h => hc h.2]
    left
    exact ⟨kept, hk, by rw [hp]⟩

theorem note_path {cs : List Chain} {G : Prop} {hist : List Conn} {n : Int} {s : St} {w : List Stop} {con : List Conn} (hs : Inv cs G hist n s w con) (hw : w ≠ []) (e : End) :
    (note cs s e).first ≠ none ∧ ∀ f : Nat, (note cs s e).first = some f → ∃ (p : Pt) (before : List Pt) (e' : End) (rest : List Stop) (kept : List Pt),
      w ++ [.stop e] = .corner p :: (before.map .corner ++ .stop e' :: rest) ∧ f = e'.chain ∧ kept.Sublist before ∧ (note cs s e).path = p :: kept ++ [place cs e'] := by
  cases hfirst : s.first with
  | none =>
    obtain ⟨_, _, corners, hc, h⟩ := hs.path0 hfirst
    rcases h with ⟨h, _⟩ | ⟨p, before, kept, h, hk, hp⟩
    · exfalso; apply hw; rw [hc, h]; rfl
    · refine ⟨by simp [note, hfirst], fun f hf => ⟨p, before, e, [], kept, by rw [hc, h]; simp, ?_, hk, ?_⟩⟩
      · simp [note, hfirst] at hf; exact hf.symm
      · simp [note, hfirst, hp]
  | some k =>
    refine ⟨by simp [note, hfirst], fun f hf => ?_⟩
    have hf' : s.first = some f := by simp [note, hfirst] at hf; rw [hfirst, hf]
    obtain ⟨q, before, e', rest, kept, hw', hfe, hk, hp⟩ := hs.path1 f hf'
    exact ⟨q, before, e', rest ++ [.stop e], kept, by rw [hw']; simp, hfe, hk, by simp [note, hfirst, hp]⟩

theorem isNew_false {cs : List Chain} {start : Option Nat} {i : Nat} (h : ¬ isNew cs start i = true) : ∃ k, start = some k ∧ column cs i = column cs k := by
  cases start with
  | none => exact absurd rfl h
  | some k => exact ⟨k, rfl, by simpa [isNew] using h⟩

theorem column_inj {cs : List Chain} (h : OwnRows cs) {i j : Nat} (hi : i < cs.length) (hj : j < cs.length) (hc : column cs i = column cs j) : i = j := by
  unfold column at hc
  rw [List.getElem?_eq_getElem hi, List.getElem?_eq_getElem hj] at hc
  exact h i j _ _ (List.getElem?_eq_getElem hi) (List.getElem?_eq_getElem hj) (by simpa using hc)

theorem visit_keeps (cs : List Chain) (s : St) (e : End) : (visit cs s e).remaining = s.remaining - 1 := by
  unfold visit
  dsimp only
  split_ifs <;> rfl

theorem inv_visit {cs : List Chain} {G : Prop} {hist : List Conn} {n : Int} {s : St} {w : List Stop} {con : List Conn} (hs : Inv cs G hist n s w con) (hw : w ≠ []) (e : End)
    (hg : G → OwnRows cs ∧ e.chain < cs.length) : ∃ more, Inv cs G hist n (visit cs s e) (w ++ [.stop e]) (con ++ more) := by
  obtain ⟨hn1, hn2⟩ := note_path hs hw e
  have hfirst : (visit cs s e).first = (note cs s e).first := by unfold visit; dsimp only; split_ifs <;> rfl
  have hpath : (visit cs s e).path = (note cs s e).path := by unfold visit; dsimp only; split_ifs <;> rfl
  have hends : ends (w ++ [.stop e]) = ends w ++ [e] := by rw [ends_append]; simp [ends]
  have hcount : (visit cs s e).remaining = n - (ends (w ++ [.stop e])).length := by
    rw [visit_keeps, hs.count, hends, List.length_append, List.length_singleton]; push_cast; ring
  by_cases hd : s.drawing = true
  · obtain ⟨pre, e0, mid, hpre, hdr, ⟨kept, hk, hp⟩, hst⟩ := hs.draw hd
    have hlast : (ends w).getLast? = some e0 := by rw [hpre, ends_append]; simp [ends, ends_corners]
    by_cases hc : some e.chain ≠ s.startChain ∧ s.connected e.chain (!e.back) ≠ s.startChain
    · have hv : visit cs s e = { note cs s e with out := s.out ++ [withEnd s (place cs e)], drawing := false, points := [], connected := records s e } := by
        unfold visit; dsimp only; rw [if_pos hd, if_pos hc]
      have hsub : ∀ x ∈ hist ++ con, x ∈ hist ++ (con ++ [⟨e0, e, withEnd s (place cs e)⟩]) := fun x hx => by rw [← List.append_assoc]; exact List.mem_append_left _ hx
      have hused : Used (con ++ [⟨e0, e, withEnd s (place cs e)⟩]) e := ⟨⟨e0, e, withEnd s (place cs e)⟩, by simp, Or.inr rfl⟩
      refine ⟨[⟨e0, e, withEnd s (place cs e)⟩], ?_⟩
      constructor
      · intro _
        rw [hends, hv]
        refine ⟨rfl, ?_, ?_⟩
        · have hj := Drawn.join (pos := place cs) e0 mid e _ [] [] (between_withEnd (e := e) hd hk hp) .none
          have := drawn_append hdr hj
          rw [hpre]
          simpa only [List.append_assoc, List.cons_append] using this
        · intro d hd'
          simp at hd'
          subst hd'
          exact hused
      · intro h; rw [hv] at h; cases h
      · rw [hv]; change s.out ++ [_] = _; rw [hs.out]; simp
      · intro hG x hx
        rcases List.mem_append.1 hx with hx | hx
        · exact hs.differ hG x hx
        · simp at hx
          subst hx
          exact fun heq => hc.1 (by rw [hst (Or.inl hG), ← heq])
      · intro hG i b k hik
        rw [hv] at hik
        change records s e i b = some k at hik
        have hjoin : Joined (hist ++ (con ++ [⟨e0, e, withEnd s (place cs e)⟩])) e0.chain e.chain := ⟨⟨e0, e, withEnd s (place cs e)⟩, by simp, Or.inl ⟨rfl, rfl⟩⟩
        have hjoin' : Joined (hist ++ (con ++ [⟨e0, e, withEnd s (place cs e)⟩])) e.chain e0.chain := ⟨⟨e0, e, withEnd s (place cs e)⟩, by simp, Or.inr ⟨rfl, rfl⟩⟩
        unfold records at hik
        rw [hst (Or.inl hG)] at hik
        simp only [record] at hik
        split_ifs at hik with h1 h2
        · cases hik; rw [h1.1]; exact hjoin
        · cases hik; rw [h2.1]; exact hjoin'
        · exact joined_mono hsub (hs.conn hG i b k hik)
      · intro hG
        rw [hends]
        refine chain_snoc ((hs.served hG).imp fun a b h => served_mono hsub h) ?_
        intro d _
        exact Or.inr (Or.inl (used_mono (fun x hx => List.mem_append_right _ hx) hused))
      · exact hcount
      · intro hG k hk'; rw [hv] at hk'; exact hs.start hG k hk'
      · intro h; rw [hfirst] at h; exact absurd h hn1
      · intro f h; rw [hfirst] at h; rw [hpath]; exact hn2 f h
    · have hv : visit cs s e = { note cs s e with points := [place cs e], startChain := some e.chain, startBack := e.back } := by
        unfold visit; dsimp only; rw [if_pos hd, if_neg hc]
      refine ⟨[], ?_⟩
      rw [List.append_nil]
      constructor
      · intro h; rw [hv] at h; change s.drawing = false at h; rw [hd] at h; cases h
      · intro _
        refine ⟨w, e, [], rfl, ?_, ⟨[], List.Sublist.refl _, by rw [hv]⟩, fun _ => by rw [hv]⟩
        have := drawn_more hdr (.stop e0 :: mid.map .corner)
        rw [hpre]
        exact this
      · rw [hv]; exact hs.out
      · exact hs.differ
      · rw [hv]; exact hs.conn
      · intro hG
        rw [hends]
        refine chain_snoc (hs.served hG) ?_
        intro d hd'
        rw [hlast] at hd'
        cases hd'
        have hs0 := hst (Or.inl hG)
        rw [hs0] at hc
        by_cases h1 : some e.chain = some e0.chain
        · exact Or.inr (Or.inr (Or.inl (Option.some.inj h1).symm))
        · by_cases h2 : s.connected e.chain (!e.back) = some e0.chain
          · exact Or.inr (Or.inr (Or.inr (hs.conn hG _ _ _ h2)))
          · exact absurd ⟨h1, h2⟩ hc
      · exact hcount
      · intro hG k hk'; rw [hv] at hk'; cases hk'; exact (hg hG).2
      · intro h; rw [hfirst] at h; exact absurd h hn1
      · intro f h; rw [hfirst] at h; rw [hpath]; exact hn2 f h
  · have hd' : s.drawing = false := by simpa using hd
    obtain ⟨hp, hdr, hlast⟩ := hs.idle hd'
    have hwe : withEnd s (place cs e) = [place cs e] := by unfold withEnd; rw [if_neg fun h => hd h.1, hp]; rfl
    have hserved : G → (ends (w ++ [.stop e])).IsChain (Served (hist ++ con)) := by
      intro hG
      rw [hends]
      exact chain_snoc (hs.served hG) fun d h => Or.inl (used_mono (fun x hx => List.mem_append_right _ hx) (hlast d h))
    refine ⟨[], ?_⟩
    rw [List.append_nil]
    by_cases hnew : isNew cs s.startChain e.chain = true
    · have hv : visit cs s e = { note cs s e with points := withEnd s (place cs e), drawing := true, startChain := some e.chain, startBack := e.back } := by
        unfold visit; dsimp only; rw [if_neg hd, if_pos hnew]
      constructor
      · intro h; rw [hv] at h; cases h
      · intro _
        exact ⟨w, e, [], rfl, hdr, ⟨[], List.Sublist.refl _, by rw [hv]; exact hwe⟩, fun _ => by rw [hv]⟩
      · rw [hv]; exact hs.out
      · exact hs.differ
      · rw [hv]; exact hs.conn
      · exact hserved
      · exact hcount
      · intro hG k hk'; rw [hv] at hk'; cases hk'; exact (hg hG).2
      · intro h; rw [hfirst] at h; exact absurd h hn1
      · intro f h; rw [hfirst] at h; rw [hpath]; exact hn2 f h
    · have hv : visit cs s e = { note cs s e with points := withEnd s (place cs e), drawing := true } := by
        unfold visit; dsimp only; rw [if_neg hd, if_neg hnew]
      obtain ⟨k, hk, hcol⟩ := isNew_false hnew
      constructor
      · intro h; rw [hv] at h; cases h
      · intro _
        refine ⟨w, e, [], rfl, hdr, ⟨[], List.Sublist.refl _, by rw [hv]; exact hwe⟩, ?_⟩
        intro hor
        rw [hv]
        change s.startChain = some e.chain
        rcases hor with hG | hno
        · rw [hk, column_inj (hg hG).1 (hg hG).2 (hs.start hG k hk) hcol]
        · exfalso
          cases hf : s.first with
          | none => rw [(hs.path0 hf).1] at hk; cases hk
          | some f =>
            obtain ⟨q, before, e', rest, kept, hw', _⟩ := hs.path1 f hf
            exact hno e' (by rw [hw']; simp)
      · rw [hv]; exact hs.out
      · exact hs.differ
      · rw [hv]; exact hs.conn
      · exact hserved
      · exact hcount
      · intro hG k' hk'; rw [hv] at hk'; exact hs.start hG k' hk'
      · intro h; rw [hfirst] at h; exact absurd h hn1
      · intro f h; rw [hfirst] at h; rw [hpath]; exact hn2 f h

theorem inv_visits {cs : List Chain} {G : Prop} {hist : List Conn} {n : Int} (es : List End) (hg : G → OwnRows cs ∧ ∀ e ∈ es, e.chain < cs.length) : ∀ {s : St} {w : List Stop} {con : List Conn},
    Inv cs G hist n s w con → w ≠ [] → ∃ con', Inv cs G hist n (es.foldl (visit cs) s) (w ++ es.map .stop) con' := by
  induction es with
  | nil => intro s w con hs _; exact ⟨con, by simpa using hs⟩
  | cons e es ih =>
    intro s w con hs hw
    obtain ⟨more, h1⟩ := inv_visit hs hw e fun hG => ⟨(hg hG).1, (hg hG).2 e (by simp)⟩
    obtain ⟨con', h2⟩ := ih (fun hG => ⟨(hg hG).1, fun e he => (hg hG).2 e (by simp [he])⟩) h1 (by simp)
    exact ⟨con', by simpa using h2⟩

/-- The result for a whole outline. -/
structure Res (cs : List Chain) (G : Prop) (hist : List Conn) (s : St) (w : List Stop) (con : List Conn) : Prop where
  out : s.out = con.map (·.points)
  drawn : Drawn (place cs) w con
  differ : G → ∀ x ∈ con, x.a.chain ≠ x.b.chain
  conn : G → ∀ (i : Nat) (b : Bool) (k : Nat), s.connected i b = some k → Joined (hist ++ con) i k

theorem inv_res {cs : List Chain} {G : Prop} {hist : List Conn} {n : Int} {s : St} {w : List Stop} {con : List Conn} (hs : Inv cs G hist n s w con) : Res cs G hist s w con := by
  refine ⟨hs.out, ?_, hs.differ, hs.conn⟩
  cases hd : s.drawing with
  | false => exact (hs.idle hd).2.1
  | true =>
    obtain ⟨pre, e, mid, hw, hdr, _⟩ := hs.draw hd
    rw [hw]
    exact drawn_more hdr _

/-- The way is followed to its end, or to a corner where nothing is being drawn and all ends have been counted. -/
theorem inv_walk {cs : List Chain} {G : Prop} {hist : List Conn} {n : Int} (poly : List (Pt × List End)) (hg : G → OwnRows cs ∧ ∀ x ∈ poly, ∀ e ∈ x.2, e.chain < cs.length) :
    ∀ {s : St} {w : List Stop} {con : List Conn} (isFirst : Bool), Inv cs G hist n s w con → (isFirst = true ∨ w ≠ []) → ∃ con', Inv cs G hist n (walk cs isFirst poly s) (w ++ route poly) con'
      ∨ ((walk cs isFirst poly s).drawing = false ∧ Res cs G hist (walk cs isFirst poly s) (w ++ route poly) con'
        ∧ ∃ done rest, w ++ route poly = done ++ rest ∧ (walk cs isFirst poly s).remaining = n - (ends done).length ∧ (walk cs isFirst poly s).remaining ≤ 0
          ∧ (G → (ends done).IsChain (Served (hist ++ con')))) := by
  induction poly with
  | nil => intro s w con b hs _; exact ⟨con, Or.inl (by simpa [route, walk] using hs)⟩
  | cons x poly ih =>
    intro s w con b hs hb
    obtain ⟨p, es⟩ := x
    rw [walk]
    split_ifs with hc
    · have h1 := inv_corner hs b hb p
      obtain ⟨con1, h2⟩ := inv_visits es (fun hG => ⟨(hg hG).1, fun e he => (hg hG).2 (p, es) (by simp) e he⟩) h1 (by simp)
      have h3 := ih (fun hG => ⟨(hg hG).1, fun x hx => (hg hG).2 x (by simp [hx])⟩) false h2 (Or.inr (by simp))
      have hr : w ++ route ((p, es) :: poly) = w ++ [Stop.corner p] ++ es.map Stop.stop ++ route poly := by simp [route]
      rw [hr]
      exact h3
    · have hd : s.drawing = false := by
        cases h : s.drawing
        · rfl
        · exact absurd (Or.inr h) hc
      have hr := inv_res hs
      exact ⟨con, Or.inr ⟨hd, ⟨hr.out, drawn_more hr.drawn _, hr.differ, hr.conn⟩, w, _, rfl, hs.count, not_lt.1 fun h => hc (Or.inl h), hs.served⟩⟩

theorem inv_closed {cs : List Chain} {G : Prop} {hist : List Conn} {n : Int} {s : St} {w : List Stop} {con : List Conn} (hs : Inv cs G hist n s w con) {f : Nat} (hf : s.first = some f)
    (hd : s.drawing = true) (hne : some f ≠ s.startChain) (p : Pt) (es : List End) (poly : List (Pt × List End)) (hp : w = route ((p, es) :: poly)) :
    ∃ a b, Closed (place cs) w a b (s.points ++ [p]) s.path ∧ (G → a.chain ≠ b.chain) := by
  obtain ⟨pre, e0, mid, hpre, hdr, ⟨kept, hk, hpts⟩, hst⟩ := hs.draw hd
  obtain ⟨q, before, e, rest, kept', hw, hfe, hk', hpath⟩ := hs.path1 f hf
  have hq : q = p := by
    rw [hp] at hw
    simp only [route, List.cons.injEq, Stop.corner.injEq] at hw
    exact hw.1.symm
  subst hq
  have hstop : ¬ ∀ g : End, Stop.stop g ∉ pre := by
    intro hno
    have h1 := hst (Or.inr hno)
    apply hne
    rw [h1, hfe]
    -- the first end is the last one
    rw [hpre] at hw
    have hw2 : pre ++ Stop.stop e0 :: mid.map Stop.corner = (Stop.corner q :: before.map Stop.corner) ++ Stop.stop e :: rest := by rw [hw]; rfl
    rcases List.append_eq_append_iff.1 hw2 with ⟨a, ha, hb⟩ | ⟨a, ha, hb⟩
    · cases a with
      | nil => simp at hb; rw [hb.1]
      | cons y ys =>
        exfalso
        simp only [List.cons_append, List.cons.injEq] at hb
        have : Stop.stop e0 ∈ Stop.corner q :: before.map Stop.corner := by rw [ha, ← hb.1]; simp
        rcases List.mem_cons.1 this with h | h
        · cases h
        · exact no_stop h
    · cases a with
      | nil => simp at hb; rw [hb.1]
      | cons y ys =>
        exfalso
        simp only [List.cons_append, List.cons.injEq] at hb
        exact hno e (by rw [ha, ← hb.1]; simp)
  have hw2 : pre ++ Stop.stop e0 :: mid.map Stop.corner = (Stop.corner q :: before.map Stop.corner) ++ Stop.stop e :: rest := by rw [← hpre, hw]; rfl
  have hcn : ∀ g : End, Stop.stop g ∉ (Stop.corner q :: before.map Stop.corner) := by
    intro g h
    rcases List.mem_cons.1 h with h | h
    · cases h
    · exact no_stop h
  rcases List.append_eq_append_iff.1 hw2 with ⟨a, ha, hb⟩ | ⟨a, ha, hb⟩
  · exfalso; apply hstop; intro g hgm; exact hcn g (by rw [ha]; simp [hgm])
  · cases a with
    | nil => exfalso; apply hstop; intro g hgm; rw [ha, List.append_nil] at hgm; exact hcn g hgm
    | cons y ys =>
      simp only [List.cons_append, List.cons.injEq] at hb
      refine ⟨e, e0, ⟨q, before, ys, mid, ?_, ⟨kept, hk, by rw [hpts]⟩, ⟨kept', hk', hpath⟩⟩, ?_⟩
      · rw [hw, hb.2]
      · intro hG heq; apply hne; rw [hst (Or.inl hG), hfe, heq]

theorem outline_ok (cs : List Chain) (G : Prop) (hist : List Conn) (t : Nat → Bool → Option Nat) (n : Int) (ht : G → ∀ (i : Nat) (b : Bool) (k : Nat), t i b = some k → Joined hist i k)
    (poly : List (Pt × List End)) (hg : G → OwnRows cs ∧ ∀ x ∈ poly, ∀ e ∈ x.2, e.chain < cs.length) :
    ∃ con, Connected (place cs) G (route poly) con (outline cs t n poly).2 ∧ (G → ∀ x ∈ con, x.a.chain ≠ x.b.chain)
      ∧ (G → ∀ (i : Nat) (b : Bool) (k : Nat), (outline cs t n poly).1.connected i b = some k → Joined (hist ++ con) i k)
      ∧ ∃ done rest, route poly = done ++ rest ∧ (outline cs t n poly).1.remaining = n - (ends done).length ∧ (rest = [] ∨ (outline cs t n poly).1.remaining ≤ 0)
        ∧ (G → (ends done).IsChain (Served (hist ++ con))) := by
  unfold outline
  dsimp only
  obtain ⟨con, h⟩ := inv_walk (n := n) poly hg true (inv_begin cs G hist t n ht) (Or.inl rfl)
  rw [List.nil_append] at h
  refine ⟨con, ?_⟩
  rcases h with hs | ⟨hd, hr, done, rest, h1, h2, h3, h4⟩
  · have hr := inv_res hs
    refine ⟨⟨hr.drawn, ?_⟩, hr.differ, hr.conn, route poly, [], by rw [List.append_nil], hs.count, Or.inl rfl, hs.served⟩
    cases poly with
    | nil => left; rw [hr.out]; simp [close]
    | cons x poly =>
      obtain ⟨p, es⟩ := x
      cases hf : (walk cs true ((p, es) :: poly) (begin t n)).first with
      | none => left; rw [hr.out]; simp [close, hf]
      | some f =>
        simp only [close, hf]
        split_ifs with hc
        · right
          obtain ⟨a, b, hcl, hne⟩ := inv_closed hs hf hc.1 hc.2.1 p es poly rfl
          exact ⟨a, b, _, _, hcl, hne, by rw [hr.out]⟩
        · left; rw [hr.out, List.append_nil]
  · refine ⟨⟨hr.drawn, Or.inl ?_⟩, hr.differ, hr.conn, done, rest, h1, h2, Or.inr h3, h4⟩
    rw [hr.out]
    cases poly with
    | nil => simp [close]
    | cons x poly =>
      obtain ⟨p, es⟩ := x
      cases hf : (walk cs true ((p, es) :: poly) (begin t n)).first with
      | none => simp [close, hf]
      | some f => simp [close, hf, hd]

theorem all_nothing (cs : List Chain) (G : Prop) (polys : List (List (Pt × List End))) : All (place cs) G polys (polys.map fun _ => []) [] := by
  induction polys with
  | nil => exact .nil
  | cons poly polys ih => exact All.cons poly polys [] _ [] [] ⟨drawn_nothing _, Or.inl rfl⟩ ih

theorem flatten_nothing {α β : Type} (l : List α) : (l.map fun _ => ([] : List β)).flatten = [] := by
  induction l with
  | nil => rfl
  | cons x l ih => simp

theorem ends_of_total {polys : List (List (Pt × List End))} (h : total polys = 0) : ∀ poly ∈ polys, ends (route poly) = [] := by
  induction polys with
  | nil => intro p hp; cases hp
  | cons x polys ih =>
    simp only [total] at h
    intro p hp
    rcases List.mem_cons.1 hp with rfl | hp
    · exact List.eq_nil_of_length_eq_zero (by omega)
    · exact ih (by omega) p hp

theorem outlines_ok (cs : List Chain) (G : Prop) (polys : List (List (Pt × List End))) : ∀ (hist : List Conn) (t : Nat → Bool → Option Nat) (n : Int),
    (G → ∀ (i : Nat) (b : Bool) (k : Nat), t i b = some k → Joined hist i k) → (G → OwnRows cs ∧ ∀ poly ∈ polys, ∀ x ∈ poly, ∀ e ∈ x.2, e.chain < cs.length) →
    ∃ cons, All (place cs) G polys cons (outlines cs t n polys) ∧ (G → ∀ x ∈ cons.flatten, x.a.chain ≠ x.b.chain)
      ∧ (G → (total polys : Int) ≤ n → ∀ poly ∈ polys, (ends (route poly)).IsChain (Served (hist ++ cons.flatten))) := by
  induction polys with
  | nil => intro hist t n _ _; exact ⟨[], .nil, fun _ x hx => (by simp at hx), fun _ _ p hp => (by simp at hp)⟩
  | cons poly polys ih =>
    intro hist t n ht hg
    obtain ⟨con, hc, hd, hj, done, rest, h1, h2, h3, h4⟩ := outline_ok cs G hist t n ht poly fun hG => ⟨(hg hG).1, (hg hG).2 poly (by simp)⟩
    have hlen : (ends (route poly)).length = (ends done).length + (ends rest).length := by rw [h1, ends_append, List.length_append]
    rw [outlines]
    split_ifs with hrem
    · refine ⟨con :: polys.map fun _ => [], All.cons _ _ _ _ _ _ hc (all_nothing cs G polys), ?_, ?_⟩
      · intro hG x hx
        rw [List.flatten_cons, flatten_nothing, List.append_nil] at hx
        exact hd hG x hx
      · intro hG hn p hp
        rw [List.flatten_cons, flatten_nothing, List.append_nil]
        simp only [total] at hn
        push_cast at hn
        rcases List.mem_cons.1 hp with rfl | hp
        · have hz : ends rest = [] := List.eq_nil_of_length_eq_zero (by omega)
          rw [h1, ends_append, hz, List.append_nil]
          exact h4 hG
        · rw [ends_of_total (by omega) p hp]
          exact List.isChain_nil
    · have hrest : rest = [] := by
        rcases h3 with h | h
        · exact h
        · omega
      obtain ⟨cons, i1, i2, i3⟩ := ih (hist ++ con) _ _ hj fun hG => ⟨(hg hG).1, fun p hp => (hg hG).2 p (by simp [hp])⟩
      refine ⟨con :: cons, All.cons _ _ _ _ _ _ hc i1, ?_, ?_⟩
      · intro hG x hx
        rw [List.flatten_cons] at hx
        rcases List.mem_append.1 hx with hx | hx
        · exact hd hG x hx
        · exact i2 hG x hx
      · intro hG hn p hp
        simp only [total] at hn
        push_cast at hn
        rw [List.flatten_cons, ← List.append_assoc]
        rcases List.mem_cons.1 hp with rfl | hp
        · rw [h1, hrest, List.append_nil]
          exact (h4 hG).imp fun a b h => served_mono (fun x hx => List.mem_append_left _ hx) h
        · refine i3 hG ?_ p hp
          rw [hrest] at hlen
          have : (ends ([] : List Stop)).length = 0 := rfl
          omega

theorem place_position (cs : List Chain) : place cs = position cs := by
  funext e
  unfold place position
  cases cs[e.chain]? <;> rfl

end Verif.Gyroid
