import Verif.Template.Spec

/-! # Lemmas on reading a template -/

namespace Verif.Template

theorem isSpace_iff (c : Char) : isSpace c = true ↔ Blank c := by
  simp [isSpace, Blank, or_assoc]

theorem isSpace_false (c : Char) : isSpace c = false ↔ ¬ Blank c := by
  rw [← isSpace_iff]; simp

theorem extChar_iff (c : Char) :
    extChar c = true ↔ c ≠ '{' ∧ c ≠ '}' ∧ c ≠ ',' ∧ c ≠ '\'' ∧ c ≠ '"' := by
  simp [extChar, and_assoc]

theorem dropWhile_head (e tail : List Char) (hne : e ≠ []) (hl : ∀ c, e.getLast? = some c → isSpace c = false) :
    ∃ a h b, (e ++ tail).dropWhile isSpace = h :: (b ++ tail) ∧ e = a ++ h :: b := by
  induction e with
  | nil => exact absurd rfl hne
  | cons c e ih =>
    by_cases hc : isSpace c = true
    · have hne' : e ≠ [] := by
        intro h; subst h
        have := hl c rfl
        rw [hc] at this; cases this
      obtain ⟨a, h, b, h1, h2⟩ := ih hne' (by
        intro d hd
        apply hl d
        cases e with
        | nil => exact absurd rfl hne'
        | cons a l => rw [List.getLast?_cons_cons]; exact hd)
      exact ⟨c :: a, h, b, by simp [hc, h1], by simp [h2]⟩
    · exact ⟨[], c, e, by simp [hc], by simp⟩

/-- A character that is neither a blank nor of the group is in the way of the group. -/
theorem tailMatch_blocked (t u : List Char) (ht : t.dropWhile isSpace = ',' :: u) (d : Char) (hd : d ∈ u)
    (hs : isSpace d = false) (he : extChar d = false) : tailMatch t = none := by
  have hm : d ∈ u.dropWhile isSpace := by
    clear ht
    induction u with
    | nil => cases hd
    | cons c u ih =>
      by_cases hc : isSpace c = true
      · rw [List.dropWhile_cons_of_pos hc]
        rcases List.mem_cons.1 hd with rfl | h
        · rw [hs] at hc; cases hc
        · exact ih h
      · rw [List.dropWhile_cons_of_neg hc]; exact hd
  unfold tailMatch
  rw [ht]
  simp only
  split
  · rename_i heq; rw [heq] at hm; cases hm
  · rename_i heq
    rw [if_neg]
    intro hall
    have := List.all_eq_true.1 hall d hm
    rw [he] at this; cases this

/-- The tail a written marker has after its expression. -/
def tailText : Option (List Char) → List Char
  | some x => ',' :: x
  | none => []

theorem tailMatch_ext (x : List Char) (hne : x ≠ []) (he : ∀ c ∈ x, extChar c = true)
    (hh : ∀ c, x.head? = some c → isSpace c = false) : tailMatch (',' :: x) = some (some x) := by
  unfold tailMatch
  have h1 : (',' :: x).dropWhile isSpace = ',' :: x := by
    rw [List.dropWhile_cons_of_neg (by decide)]
  rw [h1]
  cases x with
  | nil => exact absurd rfl hne
  | cons c x =>
    have hc := hh c rfl
    have h2 : (c :: x).dropWhile isSpace = c :: x := by
      rw [List.dropWhile_cons_of_neg (by simp [hc])]
    simp only [h2]
    rw [if_pos]
    exact List.all_eq_true.2 he

theorem lazyExpr_eval (e : List Char) (x : Option (List Char))
    (hc : x = none → ∀ a b, e = a ++ ',' :: b → '\'' ∈ b ∨ '"' ∈ b)
    (hl : ∀ c, e.getLast? = some c → isSpace c = false)
    (hx : ∀ y, x = some y → y ≠ [] ∧ (∀ c ∈ y, extChar c = true) ∧ ∀ c, y.head? = some c → isSpace c = false) :
    lazyExpr (e ++ tailText x) = (e, x) := by
  induction e with
  | nil =>
    cases x with
    | none => rfl
    | some y =>
      obtain ⟨h1, h2, h3⟩ := hx y rfl
      simp only [List.nil_append, tailText, lazyExpr, tailMatch_ext y h1 h2 h3]
  | cons c e ih =>
    have ih := ih (fun hn a b hab => hc hn (c :: a) b (by rw [hab]; rfl)) (by
      intro d hd
      apply hl d
      cases e with
      | nil => cases hd
      | cons a l => rw [List.getLast?_cons_cons]; exact hd)
    obtain ⟨a, h, b, h1, h2⟩ := dropWhile_head (c :: e) (tailText x) (by simp) hl
    have ht : tailMatch (c :: (e ++ tailText x)) = none := by
      rw [List.cons_append] at h1
      by_cases hh : h = ','
      · subst hh
        cases x with
        | some y =>
          exact tailMatch_blocked _ _ h1 ',' (by simp [tailText]) (by decide) (by decide)
        | none =>
          rcases hc rfl a b h2 with hq | hq
          · exact tailMatch_blocked _ _ h1 '\'' (by simp [hq]) (by decide) (by decide)
          · exact tailMatch_blocked _ _ h1 '"' (by simp [hq]) (by decide) (by decide)
      · unfold tailMatch
        rw [h1]
        split
        · rename_i heq; cases heq
        · rename_i heq; simp only [List.cons.injEq] at heq; exact absurd heq.1 hh
        · rfl
    simp only [List.cons_append, lazyExpr, ht, ih]

theorem closes_eval (content r : List Char) (h : ∀ c ∈ content, c ≠ '{' ∧ c ≠ '}') :
    closes (content ++ '}' :: r) = some (content, r) := by
  induction content with
  | nil => rfl
  | cons c cs ih =>
    have hc := h c (by simp)
    have ih := ih fun d hd => h d (by simp [hd])
    rw [List.cons_append, closes, ih]
    · rfl
    · exact hc.2
    · exact hc.1

theorem search_skip (s t : List Char) (h : ∀ c ∈ s, c ≠ '{' ∧ c ≠ '}') :
    search (s ++ t) = (search t).map fun (p, m, r) => (s ++ p, m, r) := by
  induction s with
  | nil => cases h : search t <;> simp [h]
  | cons c s ih =>
    have ih := ih fun d hd => h d (by simp [hd])
    have hc := (h c (by simp)).1
    simp only [List.cons_append, search, hc, if_false, ih]
    cases search t <;> simp

theorem search_none (s : List Char) (h : ∀ c ∈ s, c ≠ '{' ∧ c ≠ '}') : search s = none := by
  have := search_skip s [] h
  simpa [search] using this

theorem keyword_none (e : List Char) (t : List Char) (ht : t = [] ∨ ∃ u, t = ',' :: u) (h : (keyword e).1 = none) :
    keyword (e ++ t) = (none, e ++ t) := by
  have key : ∀ l : List Char, (keyword l).1 = none → keyword l = (none, l) := by
    intro l hl
    unfold keyword at hl ⊢
    split <;> simp_all
  apply key
  rcases ht with rfl | ⟨u, rfl⟩
  · simpa using h
  · unfold keyword
    split
    · rename_i r heq
      rcases e with _ | ⟨a, _ | ⟨b, e⟩⟩ <;> simp at heq
      obtain ⟨rfl, rfl, _⟩ := heq
      simp [keyword] at h
    · rename_i r heq
      rcases e with _ | ⟨a, _ | ⟨b, _ | ⟨c, _ | ⟨d, e⟩⟩⟩⟩ <;> simp at heq
      obtain ⟨rfl, rfl, rfl, rfl, _⟩ := heq
      simp [keyword] at h
    · rename_i r heq
      rcases e with _ | ⟨a, _ | ⟨b, _ | ⟨c, _ | ⟨d, e⟩⟩⟩⟩ <;> simp at heq
      obtain ⟨rfl, rfl, rfl, rfl, _⟩ := heq
      simp [keyword] at h
    · rename_i r heq
      rcases e with _ | ⟨a, _ | ⟨b, _ | ⟨c, _ | ⟨d, _ | ⟨f, e⟩⟩⟩⟩⟩ <;> simp at heq
      obtain ⟨rfl, rfl, rfl, rfl, rfl, _⟩ := heq
      simp [keyword] at h
    · rfl

theorem keyword_of_plain (e : List Char) (h : ¬ ['i', 'f'] <+: e ∧ ¬ ['e', 'l', 's', 'e'] <+: e ∧
    ¬ ['e', 'l', 'i', 'f'] <+: e ∧ ¬ ['e', 'n', 'd', 'i', 'f'] <+: e) : (keyword e).1 = none := by
  unfold keyword
  split
  · exact absurd ⟨_, rfl⟩ h.1
  · exact absurd ⟨_, rfl⟩ h.2.1
  · exact absurd ⟨_, rfl⟩ h.2.2.1
  · exact absurd ⟨_, rfl⟩ h.2.2.2
  · rfl

theorem dropWhile_id (e : List Char) (x : Option (List Char)) (hh : ∀ c, e.head? = some c → isSpace c = false) :
    (e ++ tailText x).dropWhile isSpace = e ++ tailText x := by
  cases e with
  | nil =>
    cases x with
    | none => rfl
    | some y => simp only [tailText, List.nil_append]; rw [List.dropWhile_cons_of_neg (by decide)]
  | cons c e => rw [List.cons_append, List.dropWhile_cons_of_neg (by simp [hh c rfl])]

theorem parseContent_eval (m : Marker) (hm : m.Plain) :
    parseContent (condText m.cond ++ m.expression ++ tailText m.extruder) = (m.cond, m.expression, m.extruder) := by
  obtain ⟨h1, h2, h3, h4, h6, h5⟩ := hm
  have hlazy := lazyExpr_eval m.expression m.extruder h6 (fun c hc => (isSpace_false c).2 (h3 c hc))
    (fun y hy => ⟨(h5 y hy).1, fun c hc => (extChar_iff c).2 ((h5 y hy).2.1 c hc),
      fun c hc => (isSpace_false c).2 ((h5 y hy).2.2 c hc)⟩)
  have hid := dropWhile_id m.expression m.extruder (fun c hc => (isSpace_false c).2 (h2 c hc))
  have ht : tailText m.extruder = [] ∨ ∃ u, tailText m.extruder = ',' :: u := by
    cases m.extruder with
    | none => exact Or.inl rfl
    | some y => exact Or.inr ⟨y, rfl⟩
  unfold parseContent
  cases hc : m.cond with
  | none =>
    simp only [condText, List.nil_append, hid, keyword_none _ _ ht (keyword_of_plain _ (h4 hc)), hlazy]
  | some k =>
    cases k <;>
      simp [condText, isSpace, keyword, List.append_assoc, hid, hlazy]

theorem search_marker (m : Marker) (hm : m.Plain) (rest : List Char)
    (hr : m.eol = false → rest.head? ≠ some '\n') : search (m.text ++ rest) = some ([], m, rest) := by
  have e : m.text ++ rest = '{' :: ((condText m.cond ++ m.expression ++ tailText m.extruder) ++
      '}' :: ((if m.eol then ['\n'] else []) ++ rest)) := by
    unfold Marker.text tailText
    cases m.extruder <;> simp
  have hb : ∀ c ∈ condText m.cond ++ m.expression ++ tailText m.extruder, c ≠ '{' ∧ c ≠ '}' := by
    intro c hc
    rcases List.mem_append.1 hc with h | h
    · rcases List.mem_append.1 h with h | h
      · cases hk : m.cond with
        | none => rw [hk] at h; simp [condText] at h
        | some k =>
          rw [hk] at h
          cases k <;> simp [condText] at h <;> rcases h with rfl | rfl | rfl | rfl | rfl <;> decide
      · exact hm.1 c h
    · cases hx : m.extruder with
      | none => rw [hx] at h; simp [tailText] at h
      | some y =>
        rw [hx] at h
        rcases List.mem_cons.1 h with rfl | h
        · decide
        · have := (hm.2.2.2.2.2 y hx).2.1 c h
          exact ⟨this.1, this.2.1⟩
  rw [e, search]
  simp only [if_true, closes_eval _ _ hb, parseContent_eval m hm]
  cases he : m.eol with
  | true =>
    simp only [if_true, List.cons_append, List.nil_append]
    rw [← he]
  | false =>
    have hr := hr he
    simp only [Bool.false_eq_true, if_false, List.nil_append]
    split
    · rename_i heq; simp at hr
    · rw [← he]

end Verif.Template
