import Verif.Load.StlLemmas

namespace Verif.Load

open Verif.Slicer (P3 Mesh buildMesh)

/-- Not white space. -/
abbrev notSpace (c : UInt8) : Bool := !isSpace c

theorem number_notSpace (n : Number) : ∀ b ∈ n.text, notSpace b = true := by
  intro b hb
  have := number_range n b hb
  rw [notSpace, Bool.not_eq_true']
  cases h : isSpace b with
  | false => rfl
  | true => rw [isSpace_iff] at h; omega

theorem ends_gap {g : List UInt8} (h : Gap g) (r : List UInt8) : Ends notSpace (g ++ r) := by
  intro b t e
  rw [notSpace, space_after h r b t e]
  rfl

theorem word1_number (n : Number) (r : List UInt8) (h : Ends notSpace r) : word1 (n.text ++ r) = (n.text, r) := by
  obtain ⟨a, b⟩ := take_drop notSpace n.text r (number_notSpace n) h
  unfold word1
  rw [a, b]

theorem fullNumber_text (n : Number) : fullNumber n.text = some n.value := by
  have h := scanNumber_text n [] (fun _ _ h => by cases h)
  rw [List.append_nil] at h
  unfold fullNumber
  rw [h]

theorem vertexMatch_text (g₂ g₃ : List UInt8) (c : Coords) (h2 : Gap g₂) (h3 : Gap g₃) :
    vertexMatch (c.x.text ++ (g₂ ++ (c.y.text ++ (g₃ ++ c.z.text)))) = some (c.x.value, c.y.value, c.z.value) := by
  have e3 : word1 c.z.text = (c.z.text, []) := by
    have := word1_number c.z [] (ends_nil _)
    rwa [List.append_nil] at this
  have k3 : skip (g₃ ++ c.z.text) = c.z.text := by
    have := skip_number g₃ (gap_space h3) c.z []
    rwa [List.append_nil] at this
  unfold vertexMatch
  rw [word1_number c.x _ (ends_gap h2 _)]
  dsimp only
  rw [skip_number g₂ (gap_space h2), word1_number c.y _ (ends_gap h3 _)]
  dsimp only
  rw [k3, e3]
  dsimp only
  rw [fullNumber_text, fullNumber_text, fullNumber_text]
  rfl

theorem mainMatch_text (w g r : List UInt8) (hw : w = ascii "v" ∨ w = ascii "vt" ∨ w = ascii "f") (hg : Gap g)
    (hr : ∃ b t, r = b :: t ∧ isSpace b = false) (h13 : 13 ∉ r) : mainMatch (w ++ (g ++ r)) = some (w, r) := by
  have hws : ∀ b ∈ w, notSpace b = true := by
    rcases hw with rfl | rfl | rfl
    · rw [ascii_one.2.2.2.2.2.2.2.1]; decide
    · rw [ascii_one.2.2.2.2.2.2.2.2.2]; decide
    · rw [ascii_one.2.2.2.2.2.2.2.2.1]; decide
  obtain ⟨t1, t2⟩ := take_drop notSpace w (g ++ r) hws (ends_gap hg r)
  obtain ⟨b, t, rfl, hb⟩ := hr
  unfold mainMatch
  dsimp only
  rw [t1, t2, skip_space g b t (gap_space hg) hb, if_neg, if_pos hw]
  rintro (h | h)
  · exact hg.2 (List.append_eq_nil_iff.mp h).1
  · exact h13 h

theorem mainMatch_other (bs : List UInt8) (h : ∀ w ∈ ["v", "vt", "f"], ¬ ∃ b r, bs = ascii w ++ b :: r ∧ White b) :
    mainMatch bs = none := by
  unfold mainMatch
  dsimp only
  by_cases h1 : (bs.dropWhile notSpace) = [] ∨ 13 ∈ skip (bs.dropWhile notSpace)
  · rw [if_pos h1]
  · rw [if_neg h1, if_neg]
    rw [not_or] at h1
    obtain ⟨b, r, e⟩ := List.exists_cons_of_ne_nil h1.1
    have hb : White b := by
      apply (isSpace_iff b).mp
      have := List.head?_dropWhile_not notSpace bs
      rw [e] at this
      simpa [notSpace] using this
    intro hw
    have hbs : bs = bs.takeWhile notSpace ++ b :: r := by rw [← e, List.takeWhile_append_dropWhile]
    rcases hw with hw | hw | hw
    · exact h "v" (by simp) ⟨b, r, by rw [← hw]; exact hbs, hb⟩
    · exact h "vt" (by simp) ⟨b, r, by rw [← hw]; exact hbs, hb⟩
    · exact h "f" (by simp) ⟨b, r, by rw [← hw]; exact hbs, hb⟩

/-! ## Faces -/

/-- The digits of the texture coordinates. -/
def Suffix.digits : Suffix → List (Fin 10)
  | .texture t => t
  | .both t _ => t
  | _ => []

/-- A text that is over or goes on with white space. -/
def Over (r : List UInt8) : Prop := ∀ b t, r = b :: t → isSpace b = true

theorem over_digit {r : List UInt8} (h : Over r) : Ends isDigit r := by
  intro b t e
  have hb := (isSpace_iff b).mp (h b t e)
  cases hd : isDigit b with
  | false => rfl
  | true => rw [isDigit_iff] at hd; omega

theorem slash_over {r : List UInt8} (h : Over r) : slash r = ([], r) := by
  cases r with
  | nil => rfl
  | cons b t =>
    unfold slash
    dsimp only
    rw [if_neg]
    rintro rfl
    exact absurd (h 47 t rfl) (by decide)

theorem slash_digits (ds : List (Fin 10)) {r : List UInt8} (h : Ends isDigit r) :
    slash (47 :: (ds.map digit ++ r)) = (ds.map digit, r) := by
  unfold slash
  dsimp only
  rw [if_pos rfl, (digits_take ds r h).1, (digits_take ds r h).2]

theorem suffix_slash (s : Suffix) {r : List UInt8} (h : Over r) :
    ∃ r', slash (s.text ++ r) = (s.digits.map digit, r') ∧ (slash r').2 = r := by
  have hd := over_digit h
  have h47 : ∀ t : List UInt8, Ends isDigit (47 :: t) := fun t => ends_cons _ _ _ (by decide)
  cases s with
  | none => exact ⟨r, by rw [Suffix.text, List.nil_append, slash_over h]; rfl, by rw [slash_over h]⟩
  | texture t =>
    refine ⟨r, ?_, by rw [slash_over h]⟩
    rw [Suffix.text, ascii_one.2.2.2.2.2.1, List.append_assoc]
    exact slash_digits t hd
  | normal n =>
    refine ⟨47 :: (n.map digit ++ r), ?_, by rw [slash_digits n hd]⟩
    rw [Suffix.text, ascii_one.2.2.2.2.2.2.1, List.append_assoc]
    exact slash_digits [] (h47 _)
  | both t n =>
    refine ⟨47 :: (n.map digit ++ r), ?_, by rw [slash_digits n hd]⟩
    rw [Suffix.text, ascii_one.2.2.2.2.2.1]
    have : [47] ++ t.map digit ++ [47] ++ n.map digit ++ r = 47 :: (t.map digit ++ (47 :: (n.map digit ++ r))) := by simp
    rw [this]
    exact slash_digits t (h47 _)

theorem suffix_ends (s : Suffix) {r : List UInt8} (h : Over r) : Ends isDigit (s.text ++ r) := by
  cases s with
  | none => rw [Suffix.text, List.nil_append]; exact over_digit h
  | texture t => rw [Suffix.text, ascii_one.2.2.2.2.2.1]; exact ends_cons _ _ _ (by decide)
  | normal n => rw [Suffix.text, ascii_one.2.2.2.2.2.2.1]; exact ends_cons _ _ _ (by decide)
  | both t n => rw [Suffix.text, ascii_one.2.2.2.2.2.1]; exact ends_cons _ _ _ (by decide)

theorem dropWhile_keep (p : UInt8 → Bool) (a r : List UInt8) (ha : ∀ b ∈ a, p b = true) :
    (a ++ r).dropWhile p = r.dropWhile p := by
  induction a with
  | nil => rfl
  | cons b t ih =>
    rw [List.cons_append, List.dropWhile_cons, ha b List.mem_cons_self, if_pos rfl]
    exact ih fun b hb => ha b (List.mem_cons_of_mem _ hb)

theorem space_notDigit {b : UInt8} (h : isSpace b = true) : (!isDigit b) = true := by
  rw [isSpace_iff] at h
  cases hd : isDigit b with
  | false => rfl
  | true => rw [isDigit_iff] at hd; omega

theorem faceMatches_corner (n : Nat) (pre : List UInt8) (c : FaceCorner) (r : List UInt8) (hp : Blank pre) (hr : Over r) :
    faceMatches (n + 1) (pre ++ (c.text ++ r)) = (c.vertex.map digit, c.suffix.digits.map digit) :: faceMatches n r := by
  obtain ⟨d, ds, hd⟩ := List.exists_cons_of_ne_nil c.hvertex
  have hdrop : (pre ++ (c.text ++ r)).dropWhile (fun c => !isDigit c) = c.vertex.map digit ++ (c.suffix.text ++ r) := by
    rw [dropWhile_keep _ _ _ fun b hb => space_notDigit ((isSpace_iff b).mpr (hp b hb).1)]
    unfold FaceCorner.text
    rw [hd, List.map_cons, List.cons_append, List.cons_append, List.dropWhile_cons, digit_isDigit, if_neg (by decide)]
    simp only [List.append_assoc, List.cons_append]
  obtain ⟨r', e1, e2⟩ := suffix_slash c.suffix hr
  obtain ⟨t1, t2⟩ := digits_take c.vertex _ (suffix_ends c.suffix hr)
  conv_lhs => unfold faceMatches
  dsimp only
  rw [hdrop, if_neg, t1, t2, e1]
  · dsimp only
    rw [e2]
  · rw [hd]
    intro h
    cases h

theorem over_blank {r : List UInt8} (h : Blank r) : Over r := by
  intro b t e
  subst e
  exact (isSpace_iff b).mpr (h b List.mem_cons_self).1

theorem over_others (os : List (List UInt8 × FaceCorner)) (rest : List UInt8) (ho : ∀ o ∈ os, Gap o.1) (hr : Blank rest) :
    Over ((os.flatMap fun o => o.1 ++ o.2.text) ++ rest) := by
  cases os with
  | nil => exact over_blank hr
  | cons o os =>
    rw [List.flatMap_cons, List.append_assoc, List.append_assoc]
    exact space_after (ho o List.mem_cons_self) _

theorem faceMatches_others (os : List (List UInt8 × FaceCorner)) (rest : List UInt8) (ho : ∀ o ∈ os, Gap o.1)
    (hr : Blank rest) (n : Nat) (hn : os.length ≤ n) :
    faceMatches n ((os.flatMap fun o => o.1 ++ o.2.text) ++ rest) =
      os.map fun o => (o.2.vertex.map digit, o.2.suffix.digits.map digit) := by
  induction os generalizing n with
  | nil =>
    cases n with
    | zero => rfl
    | succ n =>
      unfold faceMatches
      have := dropWhile_keep (fun c => !isDigit c) rest [] fun b hb => space_notDigit ((isSpace_iff b).mpr (hr b hb).1)
      rw [List.append_nil] at this
      rw [List.flatMap_nil, List.nil_append, this]
      rfl
  | cons o os ih =>
    rw [List.length_cons] at hn
    obtain ⟨k, rfl⟩ : ∃ k, n = k + 1 := ⟨n - 1, by omega⟩
    rw [List.flatMap_cons, List.append_assoc, List.append_assoc,
      faceMatches_corner k o.1 o.2 _ (ho o List.mem_cons_self).1
        (over_others os rest (fun o h => ho o (List.mem_cons_of_mem _ h)) hr),
      ih (fun o h => ho o (List.mem_cons_of_mem _ h)) k (by omega), List.map_cons]

/-- The payload of a face. -/
def facePayload (first : FaceCorner) (os : List (List UInt8 × FaceCorner)) (rest : List UInt8) : List UInt8 :=
  first.text ++ ((os.flatMap fun o => o.1 ++ o.2.text) ++ rest)

theorem corner_length (c : FaceCorner) : 1 ≤ c.text.length := by
  unfold FaceCorner.text
  rw [List.length_append, List.length_map]
  have := List.length_pos_of_ne_nil c.hvertex
  omega

theorem others_length (os : List (List UInt8 × FaceCorner)) : os.length ≤ (os.flatMap fun o => o.1 ++ o.2.text).length := by
  induction os with
  | nil => exact Nat.zero_le _
  | cons o os ih =>
    rw [List.flatMap_cons, List.length_append, List.length_append, List.length_cons]
    have := corner_length o.2
    omega

theorem suffix_index (s : Suffix) : natural s.digits = s.index := by cases s <;> rfl

theorem faceIndices_text (first : FaceCorner) (os : List (List UInt8 × FaceCorner)) (rest : List UInt8)
    (ho : ∀ o ∈ os, Gap o.1) (hr : Blank rest)
    (hc : ∀ c ∈ first :: os.map Prod.snd, 1 ≤ natural c.vertex ∧ natural c.vertex < 2 ^ 64 ∧ c.suffix.index < 2 ^ 64) :
    faceIndices (facePayload first os rest) = some ((first :: os.map Prod.snd).map fun c => natural c.vertex - 1) := by
  have hlen : os.length + 1 ≤ (facePayload first os rest).length := by
    unfold facePayload
    rw [List.length_append, List.length_append]
    have := corner_length first
    have := others_length os
    omega
  obtain ⟨k, hk⟩ : ∃ k, (facePayload first os rest).length = k + 1 := ⟨(facePayload first os rest).length - 1, by omega⟩
  have hm : faceMatches (k + 1) (facePayload first os rest) =
      (first :: os.map Prod.snd).map fun c => (c.vertex.map digit, c.suffix.digits.map digit) := by
    unfold facePayload
    have := faceMatches_corner k [] first _ (fun b hb => by cases hb) (over_others os rest ho hr)
    rw [List.nil_append] at this
    rw [this, faceMatches_others os rest ho hr k (by omega), List.map_cons, List.map_map]
    rfl
  unfold faceIndices
  rw [hk, hm]
  generalize first :: os.map Prod.snd = cs at hc
  clear hm hk hlen
  induction cs with
  | nil => rfl
  | cons c cs ih =>
    have ih' := ih fun c h => hc c (List.mem_cons_of_mem _ h)
    obtain ⟨h1, h2, h3⟩ := hc c List.mem_cons_self
    rw [List.map_cons, List.mapM_cons, ih', List.map_cons]
    have e1 : vertexIndex (c.vertex.map digit) = some (natural c.vertex - 1) := by
      unfold vertexIndex
      rw [decimal_digits, if_pos h2, if_neg (by omega)]
    have e2 : vertexIndex (c.suffix.digits.map digit) = some (if c.suffix.index = 0 then 2 ^ 64 - 1 else c.suffix.index - 1) := by
      unfold vertexIndex
      rw [decimal_digits, suffix_index, if_pos h3]
    dsimp only
    rw [e1, e2]
    simp only [Option.bind_eq_bind, Option.bind_some, Option.pure_def, ite_self]

theorem fanOf_related {α β : Type} (R : α → β → Prop) (as : List α) (bs : List β) (h : List.Forall₂ R as bs) :
    List.Forall₂ (fun a b => R a.1 b.1 ∧ R a.2.1 b.2.1 ∧ R a.2.2 b.2.2) (fanOf as) (fanOf bs) := by
  have key : ∀ (a : α) (b : β), R a b → ∀ (as : List α) (bs : List β), List.Forall₂ R as bs →
      List.Forall₂ (fun a b => R a.1 b.1 ∧ R a.2.1 b.2.1 ∧ R a.2.2 b.2.2)
        ((as.zip as.tail).map fun (x, y) => (a, x, y)) ((bs.zip bs.tail).map fun (x, y) => (b, x, y)) := by
    intro a b hab as bs hs
    induction hs with
    | nil => exact .nil
    | cons h1 ht ih =>
      cases ht with
      | nil => exact .nil
      | cons h2 ht' => exact .cons ⟨hab, h1, h2⟩ ih
  cases h with
  | nil => exact .nil
  | cons hab hs => exact key _ _ hab _ _ hs

theorem fan_points (ps : List P3) (is : List Nat) (h : ∀ i ∈ is, i < ps.length) :
    fan ps is = fanOf (is.filterMap fun i => ps[i]?) := by
  have hlook : ∀ i ∈ is, ∃ p, ps[i]? = some p := fun i hi => ⟨ps[i]'(h i hi), List.getElem?_eq_getElem (h i hi)⟩
  cases is with
  | nil => rfl
  | cons a is =>
    obtain ⟨p, hp⟩ := hlook a List.mem_cons_self
    unfold fan
    rw [List.filterMap_cons, hp]
    dsimp only [fanOf]
    have hl : ∀ i ∈ is, ∃ p, ps[i]? = some p := fun i hi => hlook i (List.mem_cons_of_mem _ hi)
    clear hlook h
    induction is with
    | nil => rfl
    | cons b is ih =>
      obtain ⟨q, hq⟩ := hl b List.mem_cons_self
      cases is with
      | nil => rw [List.filterMap_cons, hq]; rfl
      | cons c is =>
        obtain ⟨r, hr⟩ := hl c (by simp)
        have ih' := ih fun i hi => hl i (List.mem_cons_of_mem _ hi)
        rw [List.filterMap_cons, hr] at ih'
        dsimp only [List.tail_cons] at ih'
        rw [List.tail_cons, List.zip_cons_cons, List.filterMap_cons]
        dsimp only
        rw [hp, hq, hr]
        simp only [Option.bind_eq_bind, Option.bind_some, Option.pure_def]
        rw [List.filterMap_cons, hq]
        dsimp only
        rw [List.filterMap_cons, hr]
        dsimp only
        rw [List.tail_cons, List.zip_cons_cons, List.map_cons]
        rw [hp] at ih'
        simp only [Option.bind_eq_bind, Option.bind_some, Option.pure_def, List.tail_cons] at ih'
        rw [ih']

theorem related_lookup {α β : Type} (R : α → β → Prop) (as : List α) (bs : List β) (h : List.Forall₂ R as bs) (is : List Nat)
    (hi : ∀ i ∈ is, i < as.length) :
    List.Forall₂ R (is.filterMap fun i => as[i]?) (is.filterMap fun i => bs[i]?) := by
  have hlen := h.length_eq
  induction is with
  | nil => exact .nil
  | cons i is ih =>
    have h1 := hi i List.mem_cons_self
    rw [List.filterMap_cons, List.filterMap_cons, List.getElem?_eq_getElem h1, List.getElem?_eq_getElem (hlen ▸ h1)]
    exact .cons (h.get h1 (hlen ▸ h1)) (ih fun i h => hi i (List.mem_cons_of_mem _ h))

theorem fan_related (rnd : Rat → Option Rat) (m : Matrix) (vs : List Coords) (ps : List P3)
    (h : List.Forall₂ (Placed rnd m) vs ps) (is : List Nat) (hi : ∀ i ∈ is, i < vs.length) :
    List.Forall₂ (TriOf rnd m) (fanOf (is.filterMap fun i => vs[i]?)) (fan ps is) := by
  rw [fan_points ps is fun i h' => h.length_eq ▸ hi i h']
  refine (fanOf_related _ _ _ (related_lookup _ vs ps h is hi)).imp ?_
  rintro a b ⟨⟨u, u1, u2⟩, ⟨v, v1, v2⟩, ⟨w, w1, w2⟩⟩
  exact ⟨u, v, w, u1, v1, w1, u2, v2, w2⟩

/-! ## The file -/

theorem objLines_line (t r : List UInt8) (h : 10 ∉ t) (n : Nat) : objLines (n + 1) (t ++ 10 :: r) = t :: objLines n r := by
  obtain ⟨t1, t2⟩ := take_drop (fun c => decide (c ≠ 10)) t (10 :: r)
    (fun b hb => by rw [decide_eq_true_iff]; rintro rfl; exact h hb) (ends_cons _ _ _ (by decide))
  cases hc : t ++ 10 :: r with
  | nil => simp at hc
  | cons c cs =>
    conv_lhs => unfold objLines
    rw [← hc, t1, t2]
    rfl

theorem blank_not10 {g : List UInt8} (h : Blank g) : 10 ∉ g := fun hb => (h 10 hb).2.1 rfl

theorem blank_not13 {g : List UInt8} (h : Blank g) : 13 ∉ g := fun hb => (h 13 hb).2.2 rfl

theorem number_not (n : Number) : 10 ∉ n.text ∧ 13 ∉ n.text := by
  constructor
  · intro h; have := number_range n 10 h; simp at this
  · intro h; have := number_range n 13 h; simp at this

theorem digits_not (ds : List (Fin 10)) : 10 ∉ ds.map digit ∧ 13 ∉ ds.map digit := by
  constructor
  · intro h; have := digits_all ds 10 h; exact absurd this (by decide)
  · intro h; have := digits_all ds 13 h; exact absurd this (by decide)

theorem corner_not (c : FaceCorner) : 10 ∉ c.text ∧ 13 ∉ c.text := by
  have h := fun ds => digits_not ds
  have hs : 10 ∉ c.suffix.text ∧ 13 ∉ c.suffix.text := by
    cases c.suffix with
    | none => constructor <;> simp [Suffix.text]
    | texture t =>
      rw [Suffix.text, ascii_one.2.2.2.2.2.1]
      constructor
      · rw [List.mem_append]; rintro (h' | h'); exact absurd h' (by decide); exact (h t).1 h'
      · rw [List.mem_append]; rintro (h' | h'); exact absurd h' (by decide); exact (h t).2 h'
    | normal t =>
      rw [Suffix.text, ascii_one.2.2.2.2.2.2.1]
      constructor
      · rw [List.mem_append]; rintro (h' | h'); exact absurd h' (by decide); exact (h t).1 h'
      · rw [List.mem_append]; rintro (h' | h'); exact absurd h' (by decide); exact (h t).2 h'
    | both t n =>
      rw [Suffix.text, ascii_one.2.2.2.2.2.1]
      constructor
      · rw [List.mem_append, List.mem_append, List.mem_append]
        rintro (((h' | h') | h') | h')
        · exact absurd h' (by decide)
        · exact (h t).1 h'
        · exact absurd h' (by decide)
        · exact (h n).1 h'
      · rw [List.mem_append, List.mem_append, List.mem_append]
        rintro (((h' | h') | h') | h')
        · exact absurd h' (by decide)
        · exact (h t).2 h'
        · exact absurd h' (by decide)
        · exact (h n).2 h'
  unfold FaceCorner.text
  constructor
  · rw [List.mem_append]; rintro (h' | h'); exact (h _).1 h'; exact hs.1 h'
  · rw [List.mem_append]; rintro (h' | h'); exact (h _).2 h'; exact hs.2 h'

theorem payload_not (first : FaceCorner) (os : List (List UInt8 × FaceCorner)) (rest : List UInt8)
    (ho : ∀ o ∈ os, Gap o.1) (hr : Blank rest) : 10 ∉ facePayload first os rest ∧ 13 ∉ facePayload first os rest := by
  unfold facePayload
  constructor
  · rw [List.mem_append, List.mem_append, List.mem_flatMap]
    rintro (h | ⟨o, ho', h⟩ | h)
    · exact (corner_not first).1 h
    · rw [List.mem_append] at h
      rcases h with h | h
      · exact blank_not10 (ho o ho').1 h
      · exact (corner_not o.2).1 h
    · exact blank_not10 hr h
  · rw [List.mem_append, List.mem_append, List.mem_flatMap]
    rintro (h | ⟨o, ho', h⟩ | h)
    · exact (corner_not first).2 h
    · rw [List.mem_append] at h
      rcases h with h | h
      · exact blank_not13 (ho o ho').1 h
      · exact (corner_not o.2).2 h
    · exact blank_not13 hr h

theorem face_text (g : List UInt8) (first : FaceCorner) (os : List (List UInt8 × FaceCorner)) (rest : List UInt8) :
    (ObjItem.face g first os rest).text = ascii "f" ++ (g ++ facePayload first os rest) := by
  unfold ObjItem.text facePayload
  simp only [List.append_assoc]

/-- The payload of a vertex. -/
def vertexPayload (g₂ g₃ : List UInt8) (c : Coords) : List UInt8 :=
  c.x.text ++ (g₂ ++ (c.y.text ++ (g₃ ++ c.z.text)))

theorem vertex_text (g₁ g₂ g₃ : List UInt8) (c : Coords) :
    (ObjItem.vertex g₁ g₂ g₃ c).text = ascii "v" ++ (g₁ ++ vertexPayload g₂ g₃ c) := by
  unfold ObjItem.text vertexPayload
  simp only [List.append_assoc]

theorem vertexPayload_not (g₂ g₃ : List UInt8) (c : Coords) (h2 : Gap g₂) (h3 : Gap g₃) :
    10 ∉ vertexPayload g₂ g₃ c ∧ 13 ∉ vertexPayload g₂ g₃ c := by
  unfold vertexPayload
  simp only [List.mem_append, not_or]
  exact ⟨⟨(number_not _).1, blank_not10 h2.1, (number_not _).1, blank_not10 h3.1, (number_not _).1⟩,
    (number_not _).2, blank_not13 h2.1, (number_not _).2, blank_not13 h3.1, (number_not _).2⟩

theorem item_not10 (i : ObjItem) (h : i.Ok) : 10 ∉ i.text := by
  cases i with
  | vertex g₁ g₂ g₃ c =>
    obtain ⟨h1, h2, h3⟩ := h
    rw [vertex_text, ascii_one.2.2.2.2.2.2.2.1, List.mem_append, List.mem_append]
    rintro (h | h | h)
    · exact absurd h (by decide)
    · exact blank_not10 h1.1 h
    · exact (vertexPayload_not g₂ g₃ c h2 h3).1 h
  | face g first os rest =>
    obtain ⟨h1, h2, h3, _⟩ := h
    rw [face_text, ascii_one.2.2.2.2.2.2.2.2.1, List.mem_append, List.mem_append]
    rintro (h | h | h)
    · exact absurd h (by decide)
    · exact blank_not10 h1.1 h
    · exact (payload_not first os rest h2 h3).1 h
  | other bs => exact h.1

theorem objLines_text (is : List ObjItem) (h : ∀ i ∈ is, i.Ok) (n : Nat) (hn : is.length ≤ n) :
    objLines n (objText is) = is.map ObjItem.text := by
  induction is generalizing n with
  | nil => cases n <;> rfl
  | cons i is ih =>
    rw [List.length_cons] at hn
    obtain ⟨k, rfl⟩ : ∃ k, n = k + 1 := ⟨n - 1, by omega⟩
    have e : objText (i :: is) = i.text ++ 10 :: objText is := by
      unfold objText
      rw [List.flatMap_cons]
      simp only [List.append_assoc, List.cons_append, List.nil_append]
    rw [e, objLines_line _ _ (item_not10 i (h i List.mem_cons_self)), ih (fun i hi => h i (List.mem_cons_of_mem _ hi)) k (by omega),
      List.map_cons]

theorem objText_length (is : List ObjItem) : is.length ≤ (objText is).length := by
  induction is with
  | nil => exact Nat.zero_le _
  | cons i is ih =>
    unfold objText at ih ⊢
    rw [List.flatMap_cons, List.length_append, List.length_append, List.length_cons]
    simp only [List.length_cons, List.length_nil]
    omega

theorem objLine_vertex (rnd : Rat → Option Rat) (m : Matrix) (s : ObjState) (g₁ g₂ g₃ : List UInt8) (c : Coords)
    (h : (ObjItem.vertex g₁ g₂ g₃ c).Ok) (hu : Usable rnd m c) :
    ∃ p, objLine rnd m s (ObjItem.vertex g₁ g₂ g₃ c).text = .ok (some ⟨s.vs ++ [p], s.ts⟩) ∧ Placed rnd m c p := by
  obtain ⟨h1, h2, h3⟩ := h
  obtain ⟨p, ep, hp⟩ := place_one rnd m c hu
  refine ⟨p, ?_, hp⟩
  obtain ⟨v, ⟨v1, v2, v3⟩, _⟩ := hu
  unfold objLine
  rw [vertex_text, mainMatch_text (ascii "v") g₁ (vertexPayload g₂ g₃ c) (Or.inl rfl) h1 (number_head c.x _) (vertexPayload_not g₂ g₃ c h2 h3).2]
  dsimp only
  rw [if_neg (by rw [ascii_one.2.2.2.2.2.2.2.1, ascii_one.2.2.2.2.2.2.2.2.1]; decide)]
  unfold vertexPayload
  rw [vertexMatch_text g₂ g₃ c h2 h3]
  dsimp only
  rw [if_pos rfl, v1, v2, v3]
  rw [v1, v2, v3] at ep
  dsimp only
  rw [ep]
  rfl

theorem corner_head (c : FaceCorner) (r : List UInt8) : ∃ b t, c.text ++ r = b :: t ∧ isSpace b = false := by
  obtain ⟨d, ds, hd⟩ := List.exists_cons_of_ne_nil c.hvertex
  unfold FaceCorner.text
  rw [hd]
  refine ⟨digit d, _, rfl, ?_⟩
  cases h : isSpace (digit d) with
  | false => rfl
  | true =>
    rw [isSpace_iff, digit_toNat] at h
    have := d.isLt
    omega

theorem objLine_face (rnd : Rat → Option Rat) (m : Matrix) (s : ObjState) (g : List UInt8) (first : FaceCorner)
    (os : List (List UInt8 × FaceCorner)) (rest : List UInt8) (h : (ObjItem.face g first os rest).Ok)
    (hc : ∀ c ∈ first :: os.map Prod.snd, 1 ≤ natural c.vertex) :
    objLine rnd m s (ObjItem.face g first os rest).text =
      .ok (some ⟨s.vs, s.ts ++ fan s.vs ((first :: os.map Prod.snd).map fun c => natural c.vertex - 1)⟩) := by
  obtain ⟨h1, h2, h3, h4⟩ := h
  unfold objLine
  rw [face_text, mainMatch_text (ascii "f") g (facePayload first os rest) (Or.inr (Or.inr rfl)) h1 (corner_head first _) (payload_not first os rest h2 h3).2]
  dsimp only
  rw [if_pos rfl, faceIndices_text first os rest h2 h3 fun c hc' => ⟨hc c hc', h4 c hc'⟩]

theorem objLoop_items (rnd : Rat → Option Rat) (m : Matrix) (is : List ObjItem) (hok : ∀ i ∈ is, i.Ok)
    (hu : ∀ c ∈ objVertices is, Usable rnd m c) (vs : List Coords) (hr : InRange vs.length is) (s : ObjState)
    (hp : List.Forall₂ (Placed rnd m) vs s.vs) :
    ∃ s' ts, objLoop rnd m (is.map ObjItem.text) s = .ok (some s') ∧ s'.ts = s.ts ++ ts ∧
      List.Forall₂ (TriOf rnd m) (objTriangles vs is) ts := by
  induction is generalizing vs s with
  | nil => exact ⟨s, [], rfl, (List.append_nil _).symm, .nil⟩
  | cons i is ih =>
    have hok' : ∀ i ∈ is, i.Ok := fun i hi => hok i (List.mem_cons_of_mem _ hi)
    have hoki := hok i List.mem_cons_self
    rw [List.map_cons]
    cases i with
    | vertex g₁ g₂ g₃ c =>
      obtain ⟨p, e, hpl⟩ := objLine_vertex rnd m s g₁ g₂ g₃ c hoki (hu c (by simp [objVertices]))
      obtain ⟨s', ts, e', h1, h2⟩ := ih hok' (fun c hc => hu c (by unfold objVertices at hc ⊢; rw [List.filterMap_cons]; exact List.mem_cons_of_mem _ hc))
        (vs ++ [c]) (by rw [List.length_append]; exact hr) ⟨s.vs ++ [p], s.ts⟩ (List.rel_append hp (.cons hpl .nil))
      refine ⟨s', ts, ?_, h1, h2⟩
      unfold objLoop
      rw [e]
      exact e'
    | face g first os rest =>
      obtain ⟨hr1, hr2⟩ := hr
      obtain ⟨s', ts, e', h1, h2⟩ := ih hok' (fun c hc => hu c hc) vs hr2
        ⟨s.vs, s.ts ++ fan s.vs ((first :: os.map Prod.snd).map fun c => natural c.vertex - 1)⟩ hp
      refine ⟨s', fan s.vs ((first :: os.map Prod.snd).map fun c => natural c.vertex - 1) ++ ts, ?_, ?_, ?_⟩
      · unfold objLoop
        rw [objLine_face rnd m s g first os rest hoki fun c hc => (hr1 c hc).1]
        exact e'
      · rw [h1, List.append_assoc]
      · have hf := fan_related rnd m vs s.vs hp ((first :: os.map Prod.snd).map fun c => natural c.vertex - 1) (by
          intro j hj
          obtain ⟨c, hc, rfl⟩ := List.mem_map.mp hj
          have := hr1 c hc
          omega)
        rw [List.filterMap_map] at hf
        exact List.rel_append hf h2
    | other bs =>
      obtain ⟨s', ts, e', h1, h2⟩ := ih hok' (fun c hc => hu c hc) vs hr s hp
      refine ⟨s', ts, ?_, h1, h2⟩
      unfold objLoop
      rw [show objLine rnd m s (ObjItem.other bs).text = .ok (some s) by
        unfold objLine
        rw [show (ObjItem.other bs).text = bs from rfl, mainMatch_other bs hoki.2]]
      exact e'

end Verif.Load
