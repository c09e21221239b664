import Verif.Load.TextLemmas
import Mathlib.Data.List.Forall2

namespace Verif.Load

open Verif.Slicer (P3 Mesh buildMesh)

/-! ## Lines -/

theorem getLine_line (t r : List UInt8) (nl : UInt8) (hnl : nl = 10 ∨ nl = 13) (h10 : 10 ∉ t) (h13 : 13 ∉ t) (n : Nat)
    (hn : t.length < n) : getLine n (t ++ nl :: r) = some (t, r) := by
  induction t generalizing n with
  | nil =>
    obtain ⟨k, rfl⟩ : ∃ k, n = k + 1 := ⟨n - 1, by simp at hn; omega⟩
    rw [List.nil_append]
    unfold getLine
    rw [if_pos hnl]
  | cons c t ih =>
    rw [List.length_cons] at hn
    obtain ⟨k, rfl⟩ : ∃ k, n = k + 1 := ⟨n - 1, by omega⟩
    rw [List.mem_cons, not_or] at h10 h13
    rw [List.cons_append]
    unfold getLine
    rw [if_neg (by rintro (h | h); exact h10.1 h.symm; exact h13.1 h.symm), ih h10.2 h13.2 k (by omega)]
    rfl

theorem getLine_end (t : List UInt8) (h10 : 10 ∉ t) (h13 : 13 ∉ t) (n : Nat) : getLine n t = none := by
  induction t generalizing n with
  | nil => cases n <;> rfl
  | cons c t ih =>
    rw [List.mem_cons, not_or] at h10 h13
    cases n with
    | zero => rfl
    | succ n =>
      unfold getLine
      rw [if_neg (by rintro (h | h); exact h10.1 h.symm; exact h13.1 h.symm), ih h10.2 h13.2]
      rfl

theorem stlLines_text (ls : List (StlLine × UInt8)) (rest : List UInt8) (hl : ∀ l ∈ ls, l.1.Ok ∧ (l.2 = 10 ∨ l.2 = 13))
    (h10 : 10 ∉ rest) (h13 : 13 ∉ rest) (n : Nat) (hn : ls.length ≤ n) :
    stlLines n (stlText ls rest) = ls.map fun l => l.1.text := by
  induction ls generalizing n with
  | nil =>
    cases n with
    | zero => rfl
    | succ n =>
      unfold stlLines stlText
      rw [List.flatMap_nil, List.nil_append, getLine_end rest h10 h13]
      rfl
  | cons l ls ih =>
    rw [List.length_cons] at hn
    obtain ⟨k, rfl⟩ : ∃ k, n = k + 1 := ⟨n - 1, by omega⟩
    obtain ⟨⟨hlen, h1, h2, _⟩, hnl⟩ := hl l List.mem_cons_self
    have e : stlText (l :: ls) rest = l.1.text ++ l.2 :: stlText ls rest := by
      unfold stlText
      rw [List.flatMap_cons]
      simp only [List.append_assoc, List.cons_append, List.nil_append]
    unfold stlLines
    rw [e, getLine_line _ _ _ hnl h1 h2 1024 hlen]
    dsimp only
    rw [ih (fun l hl' => hl l (List.mem_cons_of_mem _ hl')) k (by omega), List.map_cons]

theorem stlText_length (ls : List (StlLine × UInt8)) (rest : List UInt8) : ls.length ≤ (stlText ls rest).length := by
  induction ls with
  | nil => exact Nat.zero_le _
  | cons l ls ih =>
    unfold stlText at ih ⊢
    rw [List.flatMap_cons, List.append_assoc, List.length_append, List.length_append, List.length_cons]
    simp only [List.length_cons, List.length_nil]
    omega

/-! ## A vertex in a line -/

theorem number_range (n : Number) : ∀ b ∈ n.text, 43 ≤ b.toNat ∧ b.toNat ≤ 101 := by
  have hd : ∀ ds : List (Fin 10), ∀ b ∈ ds.map digit, 43 ≤ b.toNat ∧ b.toNat ≤ 101 := by
    intro ds b hb
    obtain ⟨d, _, rfl⟩ := List.mem_map.mp hb
    rw [digit_toNat]
    have := d.isLt
    omega
  have hs : ∀ s : Sign, ∀ b ∈ s.text, 43 ≤ b.toNat ∧ b.toNat ≤ 101 := by
    intro s b hb
    cases s with
    | none => cases hb
    | plus =>
      unfold Sign.text at hb
      rw [ascii_one.1, List.mem_singleton] at hb
      subst hb; decide
    | minus =>
      unfold Sign.text at hb
      rw [ascii_one.2.1, List.mem_singleton] at hb
      subst hb; decide
  intro b hb
  unfold Number.text at hb
  rw [List.mem_append, List.mem_append, List.mem_append] at hb
  rcases hb with ((hb | hb) | hb) | hb
  · exact hs _ b hb
  · exact hd _ b hb
  · cases hf : n.fraction with
    | none => rw [hf] at hb; cases hb
    | some f =>
      rw [hf, fractionText, ascii_one.2.2.1, List.mem_append, List.mem_singleton] at hb
      rcases hb with hb | hb
      · subst hb; decide
      · exact hd _ b hb
  · cases he : n.exponent with
    | none => rw [he] at hb; cases hb
    | some e =>
      rw [he, exponentText, Exponent.text, List.mem_append, List.mem_append] at hb
      rcases hb with (hb | hb) | hb
      · cases hc : e.capital with
        | true => rw [hc, if_pos rfl, ascii_one.2.2.2.2.1, List.mem_singleton] at hb; subst hb; decide
        | false => rw [hc, if_neg (by decide), ascii_one.2.2.2.1, List.mem_singleton] at hb; subst hb; decide
      · exact hs _ b hb
      · exact hd _ b hb

theorem ascii_vertex : ascii "vertex" = [118, 101, 114, 116, 101, 120] := by decide +kernel

theorem takeWhile_keep (p : UInt8 → Bool) (a r : List UInt8) (ha : ∀ b ∈ a, p b = true) :
    (a ++ r).takeWhile p = a ++ r.takeWhile p := by
  induction a with
  | nil => rfl
  | cons b t ih =>
    rw [List.cons_append, List.takeWhile_cons, ha b List.mem_cons_self, if_pos rfl,
      ih fun b hb => ha b (List.mem_cons_of_mem _ hb), List.cons_append]

theorem dropText_append (t r : List UInt8) : dropText t (t ++ r) = some r := by
  induction t with
  | nil => rfl
  | cons c t ih =>
    rw [List.cons_append]
    unfold dropText
    rw [if_pos rfl, ih]

theorem dropText_some (t s r : List UInt8) (h : dropText t s = some r) : s = t ++ r := by
  induction t generalizing s with
  | nil => unfold dropText at h; cases h; rfl
  | cons c t ih =>
    cases s with
    | nil => cases h
    | cons d s =>
      unfold dropText at h
      by_cases hc : c = d
      · rw [if_pos hc] at h
        rw [ih s h, hc, List.cons_append]
      · rw [if_neg hc] at h; cases h

theorem gap_space {g : List UInt8} (h : Gap g) : ∀ b ∈ g, isSpace b = true := fun b hb => (isSpace_iff b).mpr (h.1 b hb).1

theorem space_after {g : List UInt8} (h : Gap g) (r : List UInt8) : ∀ b t, g ++ r = b :: t → isSpace b = true := by
  intro b t e
  obtain ⟨c, cs, rfl⟩ := List.exists_cons_of_ne_nil h.2
  rw [List.cons_append, List.cons.injEq] at e
  rw [← e.1]
  exact (isSpace_iff c).mpr (h.1 c List.mem_cons_self).1

theorem space_nonzero {b : UInt8} (h : isSpace b = true) : decide (b ≠ 0) = true := by
  rw [isSpace_iff] at h
  rw [decide_eq_true_iff]
  rintro rfl
  simp at h

theorem number_nonzero (n : Number) : ∀ b ∈ n.text, decide (b ≠ 0) = true := by
  intro b hb
  have := number_range n b hb
  rw [decide_eq_true_iff]
  rintro rfl
  simp at this

theorem scanVertex_vertex (lead g₁ g₂ g₃ rest : List UInt8) (c : Coords) (h0 : Blank lead) (h1 : Gap g₁) (h2 : Gap g₂)
    (h3 : Gap g₃) (h4 : ∀ b r, rest = b :: r → White b) :
    scanVertex (StlLine.vertex lead g₁ g₂ g₃ c rest).text = some (c.x.value, c.y.value, c.z.value) := by
  have hcut : (StlLine.vertex lead g₁ g₂ g₃ c rest).text.takeWhile (· ≠ 0) =
      lead ++ (ascii "vertex" ++ (g₁ ++ (c.x.text ++ (g₂ ++ (c.y.text ++ (g₃ ++ (c.z.text ++ rest.takeWhile (· ≠ 0)))))))) := by
    unfold StlLine.text
    rw [takeWhile_keep]
    · simp only [List.append_assoc]
    · simp only [List.mem_append]
      rintro b (((((((hb | hb) | hb) | hb) | hb) | hb) | hb) | hb)
      · exact space_nonzero ((isSpace_iff b).mpr (h0 b hb).1)
      · rw [ascii_vertex] at hb
        simp only [List.mem_cons, List.not_mem_nil, or_false] at hb
        rcases hb with rfl | rfl | rfl | rfl | rfl | rfl <;> decide
      · exact space_nonzero ((isSpace_iff b).mpr (h1.1 b hb).1)
      · exact number_nonzero _ b hb
      · exact space_nonzero ((isSpace_iff b).mpr (h2.1 b hb).1)
      · exact number_nonzero _ b hb
      · exact space_nonzero ((isSpace_iff b).mpr (h3.1 b hb).1)
      · exact number_nonzero _ b hb
  have hrest : ∀ b r, rest.takeWhile (· ≠ 0) = b :: r → isSpace b = true := by
    intro b r e
    cases rest with
    | nil => cases e
    | cons d ds =>
      rw [List.takeWhile_cons] at e
      split at e
      · rw [List.cons.injEq] at e
        rw [← e.1]
        exact (isSpace_iff d).mpr (h4 d ds rfl)
      · cases e
  unfold scanVertex
  rw [hcut, ascii_vertex, show skip (lead ++ ([118, 101, 114, 116, 101, 120] ++ (g₁ ++ (c.x.text ++ (g₂ ++ (c.y.text ++
      (g₃ ++ (c.z.text ++ rest.takeWhile (· ≠ 0))))))))) = [118, 101, 114, 116, 101, 120] ++ (g₁ ++ (c.x.text ++ (g₂ ++ (c.y.text ++
      (g₃ ++ (c.z.text ++ rest.takeWhile (· ≠ 0))))))) from skip_space lead 118 _ (fun b hb => (isSpace_iff b).mpr (h0 b hb).1) (by decide),
    dropText_append]
  simp only [Option.bind_eq_bind, Option.bind_some]
  rw [skip_number g₁ (gap_space h1), scanNumber_text _ _ (space_after h2 _)]
  simp only [Option.bind_some]
  rw [skip_number g₂ (gap_space h2), scanNumber_text _ _ (space_after h3 _)]
  simp only [Option.bind_some]
  rw [skip_number g₃ (gap_space h3), scanNumber_text _ _ hrest]
  rfl

theorem scanVertex_some (line : List UInt8) (v : Rat × Rat × Rat) (h : scanVertex line = some v) :
    ∃ lead r, (∀ b ∈ lead, isSpace b = true) ∧ line = lead ++ ascii "vertex" ++ r := by
  unfold scanVertex at h
  cases hd : dropText (ascii "vertex") (skip (line.takeWhile (· ≠ 0))) with
  | none => rw [hd] at h; cases h
  | some r =>
    have e := dropText_some _ _ _ hd
    refine ⟨(line.takeWhile (· ≠ 0)).takeWhile isSpace, r ++ line.dropWhile (· ≠ 0), fun b hb => List.all_eq_true.mp List.all_takeWhile b hb, ?_⟩
    rw [← List.append_assoc, List.append_assoc _ (ascii "vertex") r, ← e]
    unfold skip
    rw [List.takeWhile_append_dropWhile, List.takeWhile_append_dropWhile]

theorem scanVertex_other (bs : List UInt8) (h10 : 10 ∉ bs) (h13 : 13 ∉ bs)
    (h : ¬ ∃ lead r, Blank lead ∧ bs = lead ++ ascii "vertex" ++ r) : scanVertex bs = none := by
  cases hv : scanVertex bs with
  | none => rfl
  | some v =>
    obtain ⟨lead, r, h1, h2⟩ := scanVertex_some bs v hv
    refine absurd ⟨lead, r, fun b hb => ⟨(isSpace_iff b).mp (h1 b hb), ?_, ?_⟩, h2⟩ h
    · rintro rfl
      exact h10 (by rw [h2]; simp [hb])
    · rintro rfl
      exact h13 (by rw [h2]; simp [hb])

/-- The values of a vertex. -/
def Coords.values (c : Coords) : Rat × Rat × Rat := (c.x.value, c.y.value, c.z.value)

theorem vertices_found (ls : List (StlLine × UInt8)) (hl : ∀ l ∈ ls, l.1.Ok) :
    (ls.map fun l => l.1.text).filterMap scanVertex = (stlVertices ls).map Coords.values := by
  induction ls with
  | nil => rfl
  | cons l ls ih =>
    have ih' := ih fun l hl' => hl l (List.mem_cons_of_mem _ hl')
    obtain ⟨hlen, h10, h13, hok⟩ := hl l List.mem_cons_self
    obtain ⟨l, nl⟩ := l
    unfold stlVertices at ih' ⊢
    rw [List.map_cons, List.filterMap_cons, List.filterMap_cons, ih']
    cases l with
    | vertex lead g₁ g₂ g₃ c rest =>
      obtain ⟨a, b, d, e, f⟩ := hok
      dsimp only
      rw [scanVertex_vertex lead g₁ g₂ g₃ rest c a b d e f]
      rfl
    | other bs =>
      dsimp only at hok ⊢
      rw [show scanVertex (StlLine.other bs).text = none from scanVertex_other bs h10 h13 hok]

/-! ## Placing vertices -/

/-- A vertex of a text is at a point. -/
def Placed (rnd : Rat → Option Rat) (m : Matrix) (c : Coords) (p : P3) : Prop := ∃ v, c.Pos rnd v ∧ At (m.image v) p

theorem place_one (rnd : Rat → Option Rat) (m : Matrix) (c : Coords) (h : Usable rnd m c) :
    ∃ p, m.apply (rnd c.x.value) (rnd c.y.value) (rnd c.z.value) = .ok p ∧ Placed rnd m c p := by
  obtain ⟨v, ⟨h1, h2, h3⟩, hf⟩ := h
  obtain ⟨p, e, hp⟩ := apply_at m v hf
  exact ⟨p, by rw [h1, h2, h3, e], v, ⟨h1, h2, h3⟩, hp⟩

theorem place_all (rnd : Rat → Option Rat) (m : Matrix) (cs : List Coords) (h : ∀ c ∈ cs, Usable rnd m c) :
    ∃ ps, ((cs.map Coords.values).mapM fun v => m.apply (rnd v.1) (rnd v.2.1) (rnd v.2.2)) = .ok ps ∧
      List.Forall₂ (Placed rnd m) cs ps := by
  induction cs with
  | nil => exact ⟨[], rfl, .nil⟩
  | cons c cs ih =>
    obtain ⟨ps, e, hps⟩ := ih fun c hc => h c (List.mem_cons_of_mem _ hc)
    obtain ⟨p, ep, hp⟩ := place_one rnd m c (h c List.mem_cons_self)
    refine ⟨p :: ps, ?_, .cons hp hps⟩
    rw [List.map_cons, List.mapM_cons, e]
    show (m.apply (rnd c.x.value) (rnd c.y.value) (rnd c.z.value) >>= _) = _
    rw [ep]
    rfl

theorem placed_triples (rnd : Rat → Option Rat) (m : Matrix) (cs : List Coords) (ps : List P3)
    (h : List.Forall₂ (Placed rnd m) cs ps) : List.Forall₂ (TriOf rnd m) (inThrees cs) (triples ps) := by
  match cs, ps, h with
  | [], [], .nil => exact .nil
  | [a], [_], .cons _ .nil => exact .nil
  | [a, b], [_, _], .cons _ (.cons _ .nil) => exact .nil
  | a :: b :: c :: cs, _ :: _ :: _ :: ps, .cons ha (.cons hb (.cons hc hr)) =>
    obtain ⟨u, u1, u2⟩ := ha
    obtain ⟨v, v1, v2⟩ := hb
    obtain ⟨w, w1, w2⟩ := hc
    exact .cons ⟨u, v, w, u1, v1, w1, u2, v2, w2⟩ (placed_triples rnd m cs ps hr)

theorem text_triangles (rnd : Rat → Option Rat) (m : Matrix) (ls : List (StlLine × UInt8)) (rest : List UInt8)
    (hl : ∀ l ∈ ls, l.1.Ok ∧ (l.2 = 10 ∨ l.2 = 13)) (h10 : 10 ∉ rest) (h13 : 13 ∉ rest)
    (hu : ∀ c ∈ stlVertices ls, Usable rnd m c) :
    ∃ ts, text rnd m (stlText ls rest) = .ok ts ∧ List.Forall₂ (TriOf rnd m) (inThrees (stlVertices ls)) ts := by
  obtain ⟨ps, e, hps⟩ := place_all rnd m (stlVertices ls) hu
  refine ⟨triples ps, ?_, placed_triples rnd m _ ps hps⟩
  unfold text
  rw [stlLines_text ls rest hl h10 h13 _ (stlText_length ls rest), vertices_found ls fun l h => (hl l h).1, e]
  rfl

/-! ## Files without vertices -/

theorem getLine_infix (n : Nat) (file l r : List UInt8) (h : getLine n file = some (l, r)) :
    ∃ c, file = l ++ c :: r := by
  induction file generalizing n l with
  | nil => cases n <;> cases h
  | cons b t ih =>
    cases n with
    | zero => cases h
    | succ n =>
      unfold getLine at h
      by_cases hb : b = 10 ∨ b = 13
      · rw [if_pos hb] at h
        cases h
        exact ⟨b, rfl⟩
      · rw [if_neg hb] at h
        cases hg : getLine n t with
        | none => rw [hg] at h; cases h
        | some x =>
          obtain ⟨l', r'⟩ := x
          rw [hg] at h
          cases h
          obtain ⟨c, e⟩ := ih n l' hg
          exact ⟨c, by rw [e, List.cons_append]⟩

theorem stlLines_infix (n : Nat) (file : List UInt8) : ∀ l ∈ stlLines n file, l <:+: file := by
  induction n generalizing file with
  | zero => intro l hl; cases hl
  | succ n ih =>
    intro l hl
    unfold stlLines at hl
    cases hg : getLine 1024 file with
    | none => rw [hg] at hl; cases hl
    | some x =>
      obtain ⟨l', r⟩ := x
      rw [hg] at hl
      obtain ⟨c, e⟩ := getLine_infix _ _ _ _ hg
      rcases List.mem_cons.mp hl with rfl | hl
      · exact ⟨[], c :: r, by rw [e, List.nil_append]⟩
      · obtain ⟨a, b, hab⟩ := ih r l hl
        exact ⟨l' ++ c :: a, b, by rw [e, ← hab]; simp⟩

theorem text_none (rnd : Rat → Option Rat) (m : Matrix) (file : List UInt8) (h : ¬ ascii "vertex" <:+: file) :
    text rnd m file = .ok [] := by
  have : (stlLines file.length file).filterMap scanVertex = [] := by
    rw [List.filterMap_eq_nil_iff]
    intro l hl
    cases hv : scanVertex l with
    | none => rfl
    | some v =>
      obtain ⟨lead, r, _, e⟩ := scanVertex_some l v hv
      exact absurd (List.IsInfix.trans ⟨lead, r, e.symm⟩ (stlLines_infix _ _ l hl)) h
  unfold text
  rw [this]
  rfl

end Verif.Load
