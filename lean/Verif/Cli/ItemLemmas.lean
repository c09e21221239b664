import Verif.Cli.LoadLemmas
import Verif.Settings.NumProps

/-! # Following the items of a command line -/

namespace Verif.Cli

/-! ## Numbers -/

theorem digits_value (ds : Str) (acc : Nat) (h : ∀ c ∈ ds, '0' ≤ c ∧ c ≤ '9') :
    Text.Spec.natFrom acc ds = some (Settings.digitsVal acc ds) := by
  induction ds generalizing acc with
  | nil => rfl
  | cons c ds ih =>
    have hc := h c List.mem_cons_self
    rw [Text.Spec.natFrom, Settings.digitsVal, if_pos hc, Text.Spec.digitVal, if_pos hc, Option.bind_some]
    exact ih _ fun c hc => h c (List.mem_cons_of_mem _ hc)

theorem takeWhile_all {α : Type} (p : α → Bool) (l : List α) : ∀ a ∈ l.takeWhile p, p a = true := by
  induction l with
  | nil => simp
  | cons x l ih =>
    intro a ha
    rw [List.takeWhile_cons] at ha
    split at ha
    · rcases List.mem_cons.mp ha with rfl | ha
      · assumption
      · exact ih a ha
    · simp at ha

theorem takeWhile_eq {α : Type} (p : α → Bool) (l : List α) (h : ∀ a ∈ l, p a = true) : l.takeWhile p = l := by
  induction l with
  | nil => rfl
  | cons x l ih => rw [List.takeWhile_cons, h x List.mem_cons_self, if_pos rfl, ih fun a ha => h a (List.mem_cons_of_mem _ ha)]

theorem digit_facts {c : Char} (h : '0' ≤ c ∧ c ≤ '9') : Settings.isSpace c = false ∧ c ≠ '-' ∧ c ≠ '+' ∧ isDigit c = true := by
  refine ⟨?_, ?_, ?_, by simp [isDigit, h]⟩
  · by_contra hs
    simp only [Settings.isSpace, Bool.not_eq_false, Bool.or_eq_true, decide_eq_true_eq] at hs
    rcases hs with ((((rfl | rfl) | rfl) | rfl) | rfl) | rfl <;> revert h <;> decide
  · rintro rfl; revert h; decide
  · rintro rfl; revert h; decide

/-- Reading a number at the beginning of a text. -/
theorem stoul_leading {t : Str} (h : ∃ c r, t = c :: r ∧ '0' ≤ c ∧ c ≤ '9') (hb : leadingNumber t < 2 ^ 64) : stoul t = .ok (leadingNumber t) := by
  obtain ⟨c, r, rfl, hc⟩ := h
  obtain ⟨h1, h2, h3, h4⟩ := digit_facts hc
  have hs : signDigits (c :: r) = (false, (c :: r).takeWhile isDigit) := by
    unfold signDigits
    rw [List.dropWhile_cons, h1]
    simp only [Bool.false_eq_true, if_false]
    split
    · rename_i heq; exact absurd (List.cons.inj heq).1 h2
    · rename_i heq; exact absurd (List.cons.inj heq).1 h3
    · rfl
  have hv : leadingNumber (c :: r) = Settings.digitsVal 0 ((c :: r).takeWhile isDigit) := by
    unfold leadingNumber
    have : (c :: r).takeWhile (fun c => decide ('0' ≤ c ∧ c ≤ '9')) = (c :: r).takeWhile isDigit := by
      congr 1
      funext c
      simp [isDigit]
    rw [this, digits_value _ _ fun c hc => ?_]
    · rfl
    · have := takeWhile_all _ _ c hc
      simpa [isDigit] using this
  unfold stoul
  rw [hs]
  dsimp only
  rw [hv] at hb
  rw [if_neg (by rw [List.takeWhile_cons, h4]; simp), if_neg (by omega), hv]
  simp

theorem digits_digit (n : Nat) : ∀ c ∈ Text.digits n, '0' ≤ c ∧ c ≤ '9' := by
  intro c hc
  obtain ⟨d, rfl⟩ := Text.isDigit_digits n c hc
  clear hc
  revert d
  decide

theorem stoul_digits (n : Nat) (h : n < 2 ^ 64) : stoul (Text.digits n) = .ok n := by
  have hl : leadingNumber (Text.digits n) = n := by
    unfold leadingNumber
    rw [takeWhile_eq _ _ (fun c hc => by simpa using digits_digit n c hc), Text.natFrom_digits]
    simp
  have := stoul_leading (t := Text.digits n) (by
    cases hd : Text.digits n with
    | nil => exact absurd hd (Text.digits_ne_nil _)
    | cons c r => exact ⟨c, r, rfl, digits_digit n c (by rw [hd]; simp)⟩) (by rw [hl]; exact h)
  rw [hl] at this
  exact this

theorem splitPaths_single (p : Str) (h : ':' ∉ p) : splitPaths p = [p] := by
  induction p with
  | nil => rfl
  | cons c p ih =>
    rw [List.mem_cons, not_or] at h
    rw [splitPaths, if_neg (Ne.symm h.1), ih h.2]

theorem splitPaths_append (p rest : Str) (h : ':' ∉ p) : splitPaths (p ++ ':' :: rest) = p :: splitPaths rest := by
  induction p with
  | nil => simp [splitPaths]
  | cons c p ih =>
    rw [List.mem_cons, not_or] at h
    rw [List.cons_append, splitPaths, if_neg (Ne.symm h.1), ih h.2]

theorem splitPaths_intercalate (paths : List Str) (h0 : paths ≠ []) (h : ∀ p ∈ paths, ':' ∉ p) :
    splitPaths (List.intercalate ":".toList paths) = paths := by
  induction paths with
  | nil => exact absurd rfl h0
  | cons p paths ih =>
    cases paths with
    | nil =>
      simp only [List.intercalate, List.intersperse_singleton, List.flatten_cons, List.flatten_nil, List.append_nil]
      exact splitPaths_single p (h p (by simp))
    | cons q paths =>
      have hi := ih (by simp) fun p hp => h p (List.mem_cons_of_mem _ hp)
      have : List.intercalate ":".toList (p :: q :: paths) = p ++ ':' :: List.intercalate ":".toList (q :: paths) := by
        simp [List.intercalate, List.intersperse]
      rw [this, splitPaths_append p _ (h p (by simp)), hi]

/-! ## Lists of items -/

theorem collect_snoc {α : Type} (f : List Item → Item → List α) (p l : List Item) (i : Item) :
    collect f p (l ++ [i]) = collect f p l ++ f (p ++ l) i := by
  induction l generalizing p with
  | nil => simp [collect]
  | cons x l ih => simp only [List.cons_append, collect, ih, List.append_assoc]; simp

theorem assignments_snoc (defs : Str → List Effect) (pre : List Item) (i : Item) :
    assignments defs (pre ++ [i]) = assignments defs pre ++ given defs pre i := collect_snoc _ [] pre i

theorem models_snoc (defs : Str → List Effect) (pre : List Item) (i : Item) :
    models defs (pre ++ [i]) = models defs pre ++ modelOf defs pre i := collect_snoc _ [] pre i

theorem extruderCount_snoc (defs : Str → List Effect) (pre : List Item) (i : Item) :
    extruderCount defs (pre ++ [i]) = (needed defs pre i).foldl max (extruderCount defs pre) := by
  unfold extruderCount
  rw [collect_snoc, List.foldl_append]
  rfl

theorem groupAfter_snoc (pre : List Item) (i : Item) : groupAfter (pre ++ [i]) = groupAfter pre + if i.isNext then 1 else 0 := by
  simp [groupAfter, List.countP_append, List.countP_singleton]

theorem modelsAfter_snoc (pre : List Item) (i : Item) :
    modelsAfter (pre ++ [i]) = if i.isNext then 0 else modelsAfter pre + if i.isModel then 1 else 0 := by
  unfold modelsAfter
  rw [List.reverse_append, List.reverse_singleton, List.singleton_append, List.takeWhile_cons]
  cases i.isNext <;> simp [List.countP_cons]

theorem owner_snoc (pre : List Item) (i : Item) : owner (pre ++ [i]) = match i with
    | .extruder n => .extruder n
    | .model _ => .model (groupAfter pre) (modelsAfter pre)
    | .group => .group (groupAfter pre)
    | .next => .group (groupAfter pre + 1)
    | _ => owner pre := by
  unfold owner
  rw [List.reverse_append, List.reverse_singleton, List.singleton_append, List.find?_cons, groupAfter_snoc, modelsAfter_snoc]
  cases i <;> simp [Item.selects, Item.isNext, Item.isModel]

theorem extruderAfter_snoc (pre : List Item) (i : Item) : extruderAfter (pre ++ [i]) = (i.extruder?).getD (extruderAfter pre) := by
  unfold extruderAfter
  rw [List.reverse_append, List.reverse_singleton, List.singleton_append, List.findSome?_cons]
  cases i <;> rfl

theorem outputAfter_snoc (pre : List Item) (i : Item) : outputAfter (pre ++ [i]) = match i with
    | .output f => some f
    | _ => outputAfter pre := by
  unfold outputAfter
  rw [List.reverse_append, List.reverse_singleton, List.singleton_append, List.findSome?_cons]
  cases i <;> rfl

theorem extruderCount_mono (defs : Str → List Effect) (pre : List Item) (i : Item) : extruderCount defs pre ≤ extruderCount defs (pre ++ [i]) := by
  rw [extruderCount_snoc]
  exact foldl_max_ge _ _

theorem extruderCount_pos (defs : Str → List Effect) (pre : List Item) : 0 < extruderCount defs pre := by
  unfold extruderCount
  exact lt_of_lt_of_le Nat.zero_lt_one (foldl_max_ge _ _)

/-! ## The state after some items -/

/-- The model of a mesh in a group. -/
def meshSpec (g : Nat) (x : Str × Str × Ref) : ModelSpec := ⟨g, x.1, x.2.2.i, some x.2.1⟩

/-- The state behind the items `pre`, with capacity `C` for extruders and `G` groups. -/
structure Inv (defs : Str → List Effect) (C G : Nat) (pre : List Item) (dirs : List Str) (s : State) : Prop where
  good : Good s.store.scene (assignments defs pre)
  gen : s.store.scene.gen = 0
  cap : s.store.scene.cap = C
  limit : ∀ k, s.store.scene.limit k = none
  len : s.store.scene.extruders.length = extruderCount defs pre
  room : extruderCount defs pre ≤ C
  dirs : s.store.dirs = dirs
  flags : s.flags = noForce
  group : s.group = groupAfter pre
  groups : s.store.scene.groups.length = G
  target : s.target = s.store.scene.target (owner pre)
  exist : (s.store.scene.env (owner pre)).isSome = true
  last : s.last = ⟨0, extruderAfter pre⟩
  lastOk : extruderAfter pre < extruderCount defs pre
  ofExtruder : ∀ n, owner pre = .extruder n → extruderAfter pre = n
  shapes : ∀ g sh, (s.store.scene.groups.map Group.shape)[g]? = some sh →
    sh.1.map (meshSpec g) = (models defs pre).filter (fun m => m.group = g) ∧
    ∀ x ∈ sh.1, x.2.2.gen = 0 ∧ x.2.2.i < extruderCount defs pre
  current : ∀ sh, (s.store.scene.groups.map Group.shape)[groupAfter pre]? = some sh → sh.1.length = modelsAfter pre
  fresh : ∀ g sh, groupAfter pre < g → (s.store.scene.groups.map Group.shape)[g]? = some sh → sh.1 = []
  parent : ∀ g j, owner pre = .model g j → ∃ sh x, (s.store.scene.groups.map Group.shape)[g]? = some sh ∧ sh.1[j]? = some x ∧
    x.2.2 = ⟨0, extruderAfter pre⟩
  output : s.output = outputAfter pre

theorem quiet_facts {i : Item} (hi : i.selects = false) (defs : Str → List Effect) (pre : List Item) :
    groupAfter (pre ++ [i]) = groupAfter pre ∧ modelsAfter (pre ++ [i]) = modelsAfter pre ∧ owner (pre ++ [i]) = owner pre ∧
      extruderAfter (pre ++ [i]) = extruderAfter pre ∧ models defs (pre ++ [i]) = models defs pre := by
  rw [groupAfter_snoc, modelsAfter_snoc, owner_snoc, extruderAfter_snoc, models_snoc]
  cases i <;> simp_all [Item.selects, Item.isNext, Item.isModel, Item.extruder?, modelOf]

/-- An item after which settings apply to the same as before. -/
theorem Inv.quiet {defs : Str → List Effect} {C G : Nat} {pre : List Item} {dirs dirs' : List Str} {s : State} (h : Inv defs C G pre dirs s)
    {i : Item} (hi : i.selects = false) (store' : Store) (out : Option Str)
    (good : Good store'.scene (assignments defs (pre ++ [i]))) (frame : store'.scene.frame = s.store.scene.frame)
    (len : store'.scene.extruders.length = extruderCount defs (pre ++ [i])) (room : extruderCount defs (pre ++ [i]) ≤ C)
    (hd : store'.dirs = dirs') (ho : out = outputAfter (pre ++ [i])) :
    Inv defs C G (pre ++ [i]) dirs' { s with store := store', output := out } := by
  obtain ⟨q1, q2, q3, q4, q5⟩ := quiet_facts hi defs pre
  have hmono := extruderCount_mono defs pre i
  have hf := frame
  simp only [Scene.frame, Prod.mk.injEq] at hf
  obtain ⟨f1, f2, f3, f4⟩ := hf
  exact {
    good := good
    gen := f2.trans h.gen
    cap := f3.trans h.cap
    limit := fun k => by dsimp only; rw [f4]; exact h.limit k
    len := len
    room := room
    dirs := hd
    flags := h.flags
    group := by rw [q1]; exact h.group
    groups := by
      have := congrArg List.length f1
      simp only [List.length_map] at this
      exact this.trans h.groups
    target := by rw [q3]; exact h.target.trans (target_frame frame _).symm
    exist := by rw [q3]; exact env_isSome_mono frame (by rw [len, h.len]; exact hmono) h.exist
    last := by rw [q4]; exact h.last
    lastOk := by rw [q4]; exact lt_of_lt_of_le h.lastOk hmono
    ofExtruder := by rw [q3, q4]; exact h.ofExtruder
    shapes := fun g sh hsh => by
      dsimp only at hsh
      rw [f1] at hsh
      obtain ⟨h1, h2⟩ := h.shapes g sh hsh
      rw [q5]
      exact ⟨h1, fun x hx => ⟨(h2 x hx).1, lt_of_lt_of_le (h2 x hx).2 hmono⟩⟩
    current := by dsimp only; rw [f1, q1, q2]; exact h.current
    fresh := by dsimp only; rw [f1, q1]; exact h.fresh
    parent := by dsimp only; rw [f1, q3, q4]; exact h.parent
    output := ho }

theorem parse_value {w : World} {fuel : Nat} {a v : Str} {rest : List Str} {s : State} (h : (classify a).takesValue = true) :
    parse w fuel (a :: v :: rest) s = (valueOption w fuel (classify a) v s >>= parse w fuel rest) := by
  conv_lhs => unfold parse
  rw [if_pos h]

theorem parse_plain {w : World} {fuel : Nat} {a : Str} {rest : List Str} {s : State} (h : (classify a).takesValue = false) :
    parse w fuel (a :: rest) s = (plainOption w (classify a) s >>= parse w fuel rest) := by
  cases rest with
  | nil =>
    conv_lhs => unfold parse
    rw [h]
    simp only [Bool.false_eq_true, if_false]
    cases plainOption w (classify a) s <;> simp [parse]
  | cons v rest =>
    conv_lhs => unfold parse
    rw [h]
    simp only [Bool.false_eq_true, if_false]

/-- What a step does. -/
def Steps (w : World) (defs : Str → List Effect) (C G : Nat) (pre : List Item) (dirs' : List Str) (s : State) (i : Item) : Prop :=
  ∃ f0 s', (∀ fuel, f0 ≤ fuel → ∀ rest, parse w fuel (i.write ++ rest) s = parse w fuel rest s') ∧ Inv defs C G (pre ++ [i]) dirs' s'

theorem step_verbose {w : World} {defs : Str → List Effect} {C G : Nat} {pre : List Item} {dirs : List Str} {s : State}
    (h : Inv defs C G pre dirs s) : Steps w defs C G pre dirs s .verbose := by
  refine ⟨0, { s with store := s.store, output := s.output }, fun fuel _ rest => ?_, h.quiet rfl s.store s.output ?_ rfl ?_ ?_ h.dirs ?_⟩
  · show parse w fuel ("-v".toList :: rest) s = _
    rw [parse_plain (by decide +kernel)]
    rfl
  · rw [assignments_snoc]; simpa [given] using h.good
  · rw [extruderCount_snoc]; exact h.len
  · rw [extruderCount_snoc]; exact h.room
  · rw [outputAfter_snoc]; exact h.output

theorem step_output {w : World} {defs : Str → List Effect} {C G : Nat} {pre : List Item} {dirs : List Str} {s : State}
    (h : Inv defs C G pre dirs s) {f : Str} (hf : w.writable f = true) : Steps w defs C G pre dirs s (.output f) := by
  refine ⟨0, { s with store := s.store, output := some f }, fun fuel _ rest => ?_, h.quiet rfl s.store (some f) ?_ rfl ?_ ?_ h.dirs ?_⟩
  · show parse w fuel ("-o".toList :: f :: rest) s = _
    rw [parse_value (by decide +kernel)]
    show (outputOption w f s >>= parse w fuel rest) = _
    unfold outputOption
    rw [if_pos hf]
    rfl
  · rw [assignments_snoc]; simpa [given] using h.good
  · rw [extruderCount_snoc]; exact h.len
  · rw [extruderCount_snoc]; exact h.room
  · rw [outputAfter_snoc]

theorem step_search {w : World} {defs : Str → List Effect} {C G : Nat} {pre : List Item} {dirs : List Str} {s : State}
    (h : Inv defs C G pre dirs s) {paths : List Str} (h0 : paths ≠ []) (hp : ∀ p ∈ paths, ':' ∉ p) : Steps w defs C G pre paths s (.search paths) := by
  refine ⟨0, { s with store := { s.store with dirs := paths }, output := s.output }, fun fuel _ rest => ?_,
    h.quiet rfl { s.store with dirs := paths } s.output ?_ rfl ?_ ?_ rfl ?_⟩
  · show parse w fuel ("-d".toList :: List.intercalate ":".toList paths :: rest) s = _
    rw [parse_value (by decide +kernel)]
    show (Run.ok { s with store := { s.store with dirs := splitPaths (List.intercalate ":".toList paths) } } >>= parse w fuel rest) = _
    rw [splitPaths_intercalate paths h0 hp]
    rfl
  · rw [assignments_snoc]; simpa [given] using h.good
  · rw [extruderCount_snoc]; exact h.len
  · rw [extruderCount_snoc]; exact h.room
  · rw [outputAfter_snoc]; exact h.output

theorem split_setting (k v : Str) (hk : '=' ∉ k) : (k ++ '=' :: v).takeWhile (· ≠ '=') = k ∧ ((k ++ '=' :: v).dropWhile (· ≠ '=')).drop 1 = v := by
  induction k with
  | nil => simp
  | cons c k ih =>
    rw [List.mem_cons, not_or] at hk
    obtain ⟨h1, h2⟩ := ih hk.2
    have hc : decide (c ≠ '=') = true := by simpa using Ne.symm hk.1
    rw [List.cons_append, List.takeWhile_cons, List.dropWhile_cons, hc, if_pos rfl, if_pos rfl, h1, h2]
    exact ⟨rfl, rfl⟩

theorem step_setting {w : World} {defs : Str → List Effect} {C G : Nat} {pre : List Item} {dirs : List Str} {s : State}
    (h : Inv defs C G pre dirs s) {k v : Str} (hk : '=' ∉ k) : Steps w defs C G pre dirs s (.setting k v) := by
  obtain ⟨sc, h1, h2, h3, h4⟩ := h.good.add h.exist k v
  refine ⟨0, { s with store := { s.store with scene := sc }, output := s.output }, fun fuel _ rest => ?_,
    h.quiet rfl { s.store with scene := sc } s.output ?_ h3 ?_ ?_ h.dirs ?_⟩
  · show parse w fuel ("-s".toList :: (k ++ '=' :: v) :: rest) s = _
    rw [parse_value (by decide +kernel)]
    show (settingOption (k ++ '=' :: v) s >>= parse w fuel rest) = _
    unfold settingOption
    obtain ⟨e1, e2⟩ := split_setting k v hk
    rw [if_pos (by simp), e1, e2, h.target, h1]
    rfl
  · rw [assignments_snoc]; exact h2
  · rw [extruderCount_snoc]; exact h4.trans h.len
  · rw [extruderCount_snoc]; exact h.room
  · rw [outputAfter_snoc]; exact h.output

theorem extruder_number {s : Scene} {asgs : List Assignment} (hg : Good s asgs) {n : Nat} {e : Extruder} (h : s.extruders[n]? = some e) : e.nr = n := by
  have h1 : s.numbers[n]? = some e.nr := by rw [Scene.numbers, List.getElem?_map, h]; rfl
  rw [hg.numbers] at h1
  rw [List.getElem?_range (by
    rcases List.getElem?_eq_some_iff.mp h with ⟨hl, -⟩
    exact hl)] at h1
  exact (Option.some.inj h1).symm

theorem mem_foldl_max (l : List Nat) (a n : Nat) (h : n ∈ l) : n ≤ l.foldl max a := by
  induction l generalizing a with
  | nil => simp at h
  | cons x l ih =>
    rcases List.mem_cons.mp h with rfl | h
    · exact le_trans (le_max_right a n) (foldl_max_ge l _)
    · exact ih _ h

theorem jsonOption_ok {w : World} {fuel : Nat} {f : Str} {s : State} {s1 : Store} {sc1 sc2 : Scene}
    (hl : load w s.flags fuel s.target f s.store = .ok (true, s1))
    (h1 : machineExtruders w s.target s1.scene = .ok sc1)
    (h2 : numberExtruder s.target s.last sc1 = .ok sc2) : jsonOption w fuel f s = .ok { s with store := { s1 with scene := sc2 } } := by
  unfold jsonOption
  rw [hl, Run.bind_ok]
  dsimp only
  rw [if_pos rfl, h1, Run.bind_ok, h2]
  rfl

theorem step_definition {w : World} {defs : Str → List Effect} {C G : Nat} {pre : List Item} {dirs dirs' : List Str} {s : State}
    (h : Inv defs C G pre dirs s) {f : Str} (hok : ItemOk w defs pre dirs dirs' (.definition f))
    (hroom : extruderCount defs (pre ++ [.definition f]) ≤ C) : Steps w defs C G pre dirs' s (.definition f) := by
  obtain ⟨hl, hgen⟩ := hok
  obtain ⟨f0, hl⟩ := loads_to hl
  have hneed : ∀ n ∈ needed defs pre (.definition f), n ≤ C := by
    intro n hn
    refine le_trans (mem_foldl_max _ (extruderCount defs pre) n hn) ?_
    rw [← extruderCount_snoc]
    exact hroom
  have hp : Pre s.store (owner pre) (assignments defs pre) (defs f) dirs := by
    refine ⟨h.good, h.dirs, h.exist, by rw [h.len, h.cap]; exact h.room, fun n hn => ?_⟩
    rw [h.cap]
    exact hneed n (List.mem_append_left _ hn)
  obtain ⟨s1, hload, post⟩ := hl s.store (owner pre) (assignments defs pre) hp
  have hgen1 : s1.scene.gen = 0 := (gen_frame post.frame).trans h.gen
  have hcap1 : s1.scene.cap = C := (cap_frame post.frame).trans h.cap
  have hlen1 : s1.scene.extruders.length = ((defs f).filterMap Effect.needed).foldl max (extruderCount defs pre) := by rw [post.length, h.len]
  have hload' : ∀ fuel, f0 ≤ fuel → load w s.flags fuel s.target f s.store = .ok (true, s1) := by
    intro fuel hf
    rw [h.flags, h.target]
    exact hload fuel hf
  have hparse : ∀ fuel sc, jsonOption w fuel f s = .ok sc → ∀ rest,
      parse w fuel ((Item.definition f).write ++ rest) s = parse w fuel rest sc := by
    intro fuel sc hr rest
    show parse w fuel ("-j".toList :: f :: rest) s = _
    rw [parse_value (by decide +kernel)]
    show (jsonOption w fuel f s >>= parse w fuel rest) = _
    rw [hr]
    rfl
  have hout : s.output = outputAfter (pre ++ [.definition f]) := by rw [outputAfter_snoc]; exact h.output
  have htarget : s1.scene.target (owner pre) = s.store.scene.target (owner pre) := target_frame post.frame _
  by_cases hog : owner pre = .general
  · obtain ⟨t, ht, hd, hb⟩ := hgen hog
    have htg : s.target = .global := by rw [h.target, hog]; rfl
    have hasg : assignments defs (pre ++ [.definition f]) = assignments defs pre ++ (defs f).filterMap (Effect.assignment (owner pre)) := by
      rw [assignments_snoc, given, hog]
      simp
    have hval : s1.scene.global "machine_extruder_count".toList = some t := by
      rw [post.good.holds .general s1.scene.global rfl, ← hasg]
      exact ht
    have hneeded : needed defs pre (.definition f) = (defs f).filterMap Effect.needed ++ [leadingNumber t] := by
      rw [needed, hog, ht]
      rfl
    obtain ⟨g1, g2, g3⟩ := post.good.extendTo (w := w) (leadingNumber t)
      (by
        rw [hcap1, hlen1]
        refine foldl_max_le _ _ _ h.room fun n hn => hneed n (List.mem_append_left _ hn))
      (by rw [hcap1]; exact hneed _ (by rw [hneeded]; simp))
    refine ⟨f0, { s with store := { s1 with scene := s1.scene.extend w (leadingNumber t - s1.scene.extruders.length) }, output := s.output },
      fun fuel hf rest => hparse fuel _ (jsonOption_ok (sc1 := s1.scene.extend w (leadingNumber t - s1.scene.extruders.length))
        (hload' fuel hf) ?_ ?_) rest, h.quiet rfl _ s.output ?_ (g2.trans post.frame) ?_ hroom post.dirs hout⟩
    · unfold machineExtruders
      rw [if_pos htg]
      unfold Scene.get Scene.read
      rw [Run.bind_ok, hval]
      dsimp only
      rw [Run.pure_eq, Run.bind_ok, stoul_leading hd hb]
      rfl
    · unfold numberExtruder
      rw [if_neg (by rw [htg]; simp)]
    · rw [hasg]; exact g1
    · rw [extruderCount_snoc, hneeded, List.foldl_append]
      simp only [List.foldl_cons, List.foldl_nil]
      exact g3.trans (by rw [hlen1])
  · have htg : s.target ≠ .global := by
      rw [h.target]
      cases ho : owner pre with
      | general => exact absurd ho hog
      | _ => simp [Scene.target]
    by_cases hoe : ∃ n, owner pre = .extruder n
    · obtain ⟨n, hoe⟩ := hoe
      have hnn := h.ofExtruder n hoe
      have hex : (s1.scene.env (.extruder n)).isSome = true := by
        rw [← hoe]
        exact env_isSome_mono post.frame (by rw [post.length]; exact foldl_max_ge _ _) h.exist
      obtain ⟨sc, a1, a2, a3, a4⟩ := post.good.add hex "extruder_nr".toList (Text.digits n)
      have hst : s.target = .extruder s.last := by
        rw [h.target, hoe, h.last, hnn, Scene.target, h.gen]
      have hlt : n < s1.scene.extruders.length := by rw [env_isSome] at hex; exact hex
      refine ⟨f0, { s with store := { s1 with scene := sc }, output := s.output },
        fun fuel hf rest => hparse fuel _ (jsonOption_ok (sc1 := s1.scene) (hload' fuel hf) ?_ ?_) rest,
        h.quiet rfl _ s.output ?_ (a3.trans post.frame) ?_ hroom post.dirs hout⟩
      · unfold machineExtruders; rw [if_neg htg]
      · have he : s1.scene.extruders[n]? = some s1.scene.extruders[n] := List.getElem?_eq_getElem hlt
        unfold numberExtruder
        rw [if_pos hst, Scene.extruder, h.last, hgen1, if_pos rfl, hnn, index_some he, Run.bind_ok, extruder_number post.good he,
          h.target, ← htarget, hoe]
        exact a1
      · rw [assignments_snoc, given, hoe, ← List.append_assoc]
        rw [hoe] at a2
        exact a2
      · rw [extruderCount_snoc, needed, hoe, List.append_nil, a4, hlen1]
    · refine ⟨f0, { s with store := s1, output := s.output },
        fun fuel hf rest => hparse fuel _ (jsonOption_ok (sc1 := s1.scene) (hload' fuel hf) ?_ ?_) rest,
        h.quiet rfl _ s.output ?_ post.frame ?_ hroom post.dirs hout⟩
      · unfold machineExtruders; rw [if_neg htg]
      · unfold numberExtruder
        rw [if_neg]
        · rw [h.target]
          cases ho : owner pre with
          | extruder n => exact absurd ⟨n, ho⟩ hoe
          | _ => simp [Scene.target]
      · rw [assignments_snoc, given]
        have hg := post.good
        cases ho : owner pre with
        | extruder n => exact absurd ⟨n, ho⟩ hoe
        | general => exact absurd ho hog
        | _ => rw [ho] at hg; simpa using hg
      · rw [extruderCount_snoc, needed, hlen1]
        cases ho : owner pre with
        | general => exact absurd ho hog
        | _ => simp

theorem step_group {w : World} {defs : Str → List Effect} {C G : Nat} {pre : List Item} {dirs : List Str} {s : State}
    (h : Inv defs C G pre dirs s) (hG : groupAfter pre < G) : Steps w defs C G pre dirs s .group := by
  have e1 : groupAfter (pre ++ [.group]) = groupAfter pre := by rw [groupAfter_snoc]; rfl
  have e2 : modelsAfter (pre ++ [.group]) = modelsAfter pre := by rw [modelsAfter_snoc]; rfl
  have e3 : owner (pre ++ [.group]) = .group (groupAfter pre) := by rw [owner_snoc]
  have e4 : extruderAfter (pre ++ [.group]) = extruderAfter pre := by rw [extruderAfter_snoc]; rfl
  have e5 : models defs (pre ++ [.group]) = models defs pre := by rw [models_snoc]; simp [modelOf]
  have e6 : extruderCount defs (pre ++ [.group]) = extruderCount defs pre := by rw [extruderCount_snoc]; rfl
  have e7 : assignments defs (pre ++ [.group]) = assignments defs pre := by rw [assignments_snoc]; simp [given]
  have e8 : outputAfter (pre ++ [.group]) = outputAfter pre := by rw [outputAfter_snoc]
  refine ⟨0, { s with target := .group s.group }, fun fuel _ rest => ?_, ?_⟩
  · show parse w fuel ("-g".toList :: rest) s = _
    rw [parse_plain (by decide +kernel)]
    rfl
  · exact {
      good := by rw [e7]; exact h.good
      gen := h.gen
      cap := h.cap
      limit := h.limit
      len := by rw [e6]; exact h.len
      room := by rw [e6]; exact h.room
      dirs := h.dirs
      flags := h.flags
      group := by rw [e1]; exact h.group
      groups := h.groups
      target := by rw [e3]; dsimp only; rw [h.group]; rfl
      exist := by rw [e3, env_isSome]; dsimp only; rw [List.length_map, h.groups]; exact hG
      last := by rw [e4]; exact h.last
      lastOk := by rw [e4, e6]; exact h.lastOk
      ofExtruder := by rw [e3]; intro n hn; simp at hn
      shapes := by rw [e5, e6]; exact h.shapes
      current := by rw [e1, e2]; exact h.current
      fresh := by rw [e1]; exact h.fresh
      parent := by rw [e3]; intro g j hn; simp at hn
      output := by rw [e8]; exact h.output }

theorem step_next {w : World} {defs : Str → List Effect} {C G : Nat} {pre : List Item} {dirs : List Str} {s : State}
    (h : Inv defs C G pre dirs s) (hG : groupAfter pre + 1 < G) : Steps w defs C G pre dirs s .next := by
  have e1 : groupAfter (pre ++ [.next]) = groupAfter pre + 1 := by rw [groupAfter_snoc]; rfl
  have e2 : modelsAfter (pre ++ [.next]) = 0 := by rw [modelsAfter_snoc]; rfl
  have e3 : owner (pre ++ [.next]) = .group (groupAfter pre + 1) := by rw [owner_snoc]
  have e4 : extruderAfter (pre ++ [.next]) = extruderAfter pre := by rw [extruderAfter_snoc]; rfl
  have e5 : models defs (pre ++ [.next]) = models defs pre := by rw [models_snoc]; simp [modelOf]
  have e6 : extruderCount defs (pre ++ [.next]) = extruderCount defs pre := by rw [extruderCount_snoc]; rfl
  have e7 : assignments defs (pre ++ [.next]) = assignments defs pre := by rw [assignments_snoc]; simp [given]
  have e8 : outputAfter (pre ++ [.next]) = outputAfter pre := by rw [outputAfter_snoc]
  refine ⟨0, { s with group := s.group + 1, target := .group (s.group + 1) }, fun fuel _ rest => ?_, ?_⟩
  · show parse w fuel ("--next".toList :: rest) s = _
    rw [parse_plain (by decide +kernel)]
    rfl
  · exact {
      good := by rw [e7]; exact h.good
      gen := h.gen
      cap := h.cap
      limit := h.limit
      len := by rw [e6]; exact h.len
      room := by rw [e6]; exact h.room
      dirs := h.dirs
      flags := h.flags
      group := by rw [e1, ← h.group]
      groups := h.groups
      target := by rw [e3]; dsimp only; rw [h.group]; rfl
      exist := by rw [e3, env_isSome]; dsimp only; rw [List.length_map, h.groups]; exact hG
      last := by rw [e4]; exact h.last
      lastOk := by rw [e4, e6]; exact h.lastOk
      ofExtruder := by rw [e3]; intro n hn; simp at hn
      shapes := by rw [e5, e6]; exact h.shapes
      current := by
        rw [e1, e2]
        intro sh hsh
        rw [h.fresh _ sh (by omega) hsh]
        rfl
      fresh := by
        rw [e1]
        intro g sh hg hsh
        exact h.fresh g sh (by omega) hsh
      parent := by rw [e3]; intro g j hn; simp at hn
      output := by rw [e8]; exact h.output }

theorem pushes_extend (w : World) (n : Nat) (s : Scene) (h : n ≤ s.extruders.length) :
    s.pushes w n (n + 1 - s.extruders.length) = s.extend w (n + 1 - s.extruders.length) := by
  by_cases hn : n = s.extruders.length
  · rw [hn, show s.extruders.length + 1 - s.extruders.length = 1 by omega]
    rfl
  · rw [show n + 1 - s.extruders.length = 0 by omega]
    rfl

theorem step_extruder {w : World} {defs : Str → List Effect} {C G : Nat} {pre : List Item} {dirs : List Str} {s : State}
    (h : Inv defs C G pre dirs s) {n : Nat} (hb : n < 2 ^ 64) (hn : n ≤ extruderCount defs pre)
    (hroom : extruderCount defs (pre ++ [.extruder n]) ≤ C) : Steps w defs C G pre dirs s (.extruder n) := by
  have e1 : groupAfter (pre ++ [.extruder n]) = groupAfter pre := by rw [groupAfter_snoc]; rfl
  have e2 : modelsAfter (pre ++ [.extruder n]) = modelsAfter pre := by rw [modelsAfter_snoc]; rfl
  have e3 : owner (pre ++ [.extruder n]) = .extruder n := by rw [owner_snoc]
  have e4 : extruderAfter (pre ++ [.extruder n]) = n := by rw [extruderAfter_snoc]; rfl
  have e5 : models defs (pre ++ [.extruder n]) = models defs pre := by rw [models_snoc]; simp [modelOf]
  have e6 : extruderCount defs (pre ++ [.extruder n]) = max (extruderCount defs pre) (n + 1) := by rw [extruderCount_snoc]; rfl
  have e7 : assignments defs (pre ++ [.extruder n]) = assignments defs pre ++ [(.extruder n, "extruder_nr".toList, Text.digits n)] := by
    rw [assignments_snoc]; rfl
  have e8 : outputAfter (pre ++ [.extruder n]) = outputAfter pre := by rw [outputAfter_snoc]
  rw [e6] at hroom
  obtain ⟨g1, g2, g3⟩ := h.good.extendTo (w := w) (n + 1) (by rw [h.len, h.cap]; exact h.room) (by rw [h.cap]; omega)
  have hgen1 : (s.store.scene.extend w (n + 1 - s.store.scene.extruders.length)).gen = 0 := (gen_frame g2).trans h.gen
  obtain ⟨sc, a1, a2, a3, a4⟩ := g1.add (o := .extruder n) (by rw [env_isSome]; dsimp only; omega) "extruder_nr".toList (Text.digits n)
  have hlen : sc.extruders.length = max (extruderCount defs pre) (n + 1) := by rw [a4, g3, h.len]
  have hf := a3.trans g2
  have hf' := hf
  simp only [Scene.frame, Prod.mk.injEq] at hf'
  obtain ⟨f1, f2, f3, f4⟩ := hf'
  refine ⟨0, { s with store := { s.store with scene := sc }, target := .extruder ⟨0, n⟩, last := ⟨0, n⟩ }, fun fuel _ rest => ?_, ?_⟩
  · show parse w fuel (('-' :: 'e' :: Text.digits n) :: rest) s = _
    have hc : classify ('-' :: 'e' :: Text.digits n) = .extruder (Text.digits n) := rfl
    rw [parse_plain (by rw [hc]; rfl), hc]
    show (extruderOption w (Text.digits n) s >>= parse w fuel rest) = _
    unfold extruderOption
    rw [stoul_digits n hb, Run.bind_ok]
    dsimp only
    rw [pushes_extend w n _ (by rw [h.len]; exact hn)]
    have ht : (Scene.extend w (n + 1 - s.store.scene.extruders.length) s.store.scene).target (.extruder n) =
        .extruder ⟨(Scene.extend w (n + 1 - s.store.scene.extruders.length) s.store.scene).gen, n⟩ := rfl
    rw [← ht, a1, Run.bind_ok, ht, hgen1]
    rfl
  · exact {
      good := by rw [e7]; exact a2
      gen := f2.trans h.gen
      cap := f3.trans h.cap
      limit := fun k => by dsimp only; rw [f4]; exact h.limit k
      len := by rw [e6]; exact hlen
      room := by rw [e6]; exact hroom
      dirs := h.dirs
      flags := h.flags
      group := by rw [e1]; exact h.group
      groups := by
        have := congrArg List.length f1
        simp only [List.length_map] at this
        exact this.trans h.groups
      target := by rw [e3, Scene.target]; dsimp only; rw [f2, h.gen]
      exist := by rw [e3, env_isSome]; dsimp only; omega
      last := by rw [e4]
      lastOk := by rw [e4, e6]; omega
      ofExtruder := by rw [e3, e4]; intro m hm; exact Owner.extruder.inj hm
      shapes := fun g sh hsh => by
        dsimp only at hsh
        rw [f1] at hsh
        obtain ⟨h1, h2⟩ := h.shapes g sh hsh
        rw [e5, e6]
        exact ⟨h1, fun x hx => ⟨(h2 x hx).1, lt_of_lt_of_le (h2 x hx).2 (le_max_left _ _)⟩⟩
      current := by dsimp only; rw [f1, e1, e2]; exact h.current
      fresh := by dsimp only; rw [f1, e1]; exact h.fresh
      parent := by rw [e3]; intro g j hj; simp at hj
      output := by rw [e8]; exact h.output }

/-- Looking up a value before slicing. -/
theorem get_lookedUp {defs : Str → List Effect} {C G : Nat} {pre : List Item} {dirs : List Str} {s : State} (h : Inv defs C G pre dirs s)
    {k v : Str} (hv : lookedUp (assignments defs pre) (owner pre) (extruderAfter pre) k = some v) : s.store.scene.get s.target k = .ok v := by
  obtain ⟨e, he⟩ := Option.isSome_iff_exists.mp h.exist
  have hek := h.good.holds _ e he k
  have hgl : s.store.scene.global k = valueOf (assignments defs pre) .general k := h.good.holds .general _ rfl k
  unfold Scene.get
  rw [h.target, read_target he, Run.bind_ok, hek]
  unfold lookedUp at hv
  cases hval : valueOf (assignments defs pre) (owner pre) k with
  | some x =>
    rw [hval] at hv
    cases ho : owner pre <;> rw [ho] at hv <;> simp at hv <;> subst hv <;> rfl
  | none =>
    rw [hval] at hv
    dsimp only
    rw [h.limit k]
    dsimp only
    cases ho : owner pre with
    | general =>
      rw [ho] at hv hval
      simp only [Option.none_or] at hv
      rw [hval] at hv
      simp at hv
    | extruder n =>
      rw [ho] at hv
      simp only [Option.none_or] at hv
      simp only [Scene.target, Scene.getParent, hgl, hv, found]
    | group g =>
      rw [ho] at hv
      simp only [Option.none_or] at hv
      simp only [Scene.target, Scene.getParent, hgl, hv, found]
    | model g j =>
      rw [ho] at hv
      simp only [Option.none_or] at hv
      obtain ⟨sh, x, hsh, hx, hpar⟩ := h.parent g j ho
      rw [shape_get, Option.map_eq_some_iff] at hsh
      obtain ⟨grp, hgrp, rfl⟩ := hsh
      simp only [Group.shape, List.getElem?_map, Option.map_eq_some_iff] at hx
      obtain ⟨m, hm, rfl⟩ := hx
      have hlt : extruderAfter pre < s.store.scene.extruders.length := by rw [h.len]; exact h.lastOk
      have hex : s.store.scene.extruders[extruderAfter pre]? = some s.store.scene.extruders[extruderAfter pre] := List.getElem?_eq_getElem hlt
      have hev := h.good.holds (.extruder (extruderAfter pre)) s.store.scene.extruders[extruderAfter pre].env (by simp [Scene.env, hex]) k
      dsimp only at hpar
      simp only [Scene.target, Scene.getParent, index_some hgrp, Run.bind_ok, index_some hm, Scene.extruder, hpar, h.gen, if_true, index_some hex]
      rw [hev]
      cases hve : valueOf (assignments defs pre) (.extruder (extruderAfter pre)) k with
      | some y =>
        rw [hve] at hv
        simp at hv
        subst hv
        rfl
      | none =>
        rw [hve] at hv
        simp only [Option.none_or] at hv
        simp only [hgl, hv, found]

theorem push_shape (w : World) (g : Group) (m : Mesh) : (g.push w m).shape.1 = g.shape.1 ++ [(m.file, m.rotation, m.parent)] := by
  unfold Group.push Group.shape
  split <;> simp

theorem push_env (w : World) (g : Group) (m : Mesh) : (g.push w m).env = g.env ∧ (g.push w m).meshes = g.meshes ++ [m] := by
  unfold Group.push
  split <;> exact ⟨rfl, rfl⟩

/-- Another mesh at the end of a group. -/
def withMesh (w : World) (s : Scene) (g : Nat) (m : Mesh) : Scene := { s with groups := s.groups.modify g fun g => g.push w m }

theorem withMesh_get (w : World) (s : Scene) (g : Nat) (m : Mesh) (g' : Nat) :
    (withMesh w s g m).groups[g']? = s.groups[g']?.map fun G => if g = g' then G.push w m else G := by
  unfold withMesh
  rw [List.getElem?_modify]
  cases s.groups[g']? <;> simp

theorem withMesh_good {w : World} {s : Scene} {asgs : List Assignment} (hg : Good s asgs) {g : Nat} {G : Group} (hG : s.groups[g]? = some G)
    (f r : Str) (p : Ref) : Good (withMesh w s g ⟨f, r, p, Env.empty⟩) asgs := by
  refine ⟨hg.numbers, fun o e he k => ?_, fun a ha => ?_⟩
  · cases o with
    | general => exact hg.holds .general e he k
    | extruder n => exact hg.holds (.extruder n) e he k
    | group g' =>
      refine hg.holds (.group g') e ?_ k
      simp only [Scene.env, withMesh_get, Option.map_map] at he ⊢
      rw [← he]
      congr 1
      funext G'
      simp only [Function.comp]
      split
      · rw [(push_env _ _ _).1]
      · rfl
    | model g' j =>
      simp only [Scene.env, withMesh_get] at he
      cases hG' : s.groups[g']? with
      | none => rw [hG'] at he; simp at he
      | some G' =>
        rw [hG'] at he
        simp only [Option.map_some, Option.bind_some] at he
        split at he
        · rename_i hgg
          subst hgg
          rw [hG] at hG'
          cases hG'
          rw [(push_env _ _ _).2, List.getElem?_append] at he
          split at he
          · exact hg.holds (.model g j) e (by simp only [Scene.env, hG, Option.bind_some]; exact he) k
          · rename_i hj
            have : e = Env.empty := by
              cases hx : [(⟨f, r, p, Env.empty⟩ : Mesh)][j - G.meshes.length]? with
              | none => rw [hx] at he; simp at he
              | some m =>
                rw [hx] at he
                have := List.mem_of_getElem? hx
                simp only [List.mem_singleton] at this
                subst this
                simp at he
                exact he.symm
            subst this
            refine (valueOf_none (fun a ha hax => ?_) k).symm
            have := hg.known a ha
            rw [hax] at this
            simp only [Scene.env, hG, Option.bind_some, Option.isSome_map] at this
            rw [List.getElem?_eq_none (by omega)] at this
            simp at this
        · exact hg.holds (.model g' j) e (by simp only [Scene.env, hG', Option.bind_some]; exact he) k
  · have := hg.known a ha
    cases ha1 : a.1 with
    | general => rfl
    | extruder n => rw [ha1] at this; exact this
    | group g' =>
      rw [ha1] at this
      simp only [Scene.env, withMesh_get, Option.isSome_map] at this ⊢
      exact this
    | model g' j =>
      rw [ha1] at this
      simp only [Scene.env, withMesh_get] at this ⊢
      cases hG' : s.groups[g']? with
      | none => rw [hG'] at this; simp at this
      | some G' =>
        rw [hG'] at this
        simp only [Option.map_some, Option.bind_some, Option.isSome_map] at this ⊢
        split
        · rw [(push_env _ _ _).2]
          simp at this ⊢
          omega
        · exact this

theorem withMesh_shape (w : World) (s : Scene) (g : Nat) (m : Mesh) (g' : Nat) :
    ((withMesh w s g m).groups.map Group.shape)[g']? = s.groups[g']?.map fun G => if g = g' then (G.push w m).shape else G.shape := by
  rw [List.getElem?_map, withMesh_get, Option.map_map]
  congr 1
  funext G
  simp only [Function.comp]
  split <;> rfl

theorem step_model {w : World} {defs : Str → List Effect} {C G : Nat} {pre : List Item} {dirs : List Str} {s : State}
    (h : Inv defs C G pre dirs s) (hG : groupAfter pre < G) {f : Str} (hm : w.mesh f = true) (hr : rotationAfter defs pre ≠ none) :
    Steps w defs C G pre dirs s (.model f) := by
  have e1 : groupAfter (pre ++ [.model f]) = groupAfter pre := by rw [groupAfter_snoc]; rfl
  have e2 : modelsAfter (pre ++ [.model f]) = modelsAfter pre + 1 := by rw [modelsAfter_snoc]; rfl
  have e3 : owner (pre ++ [.model f]) = .model (groupAfter pre) (modelsAfter pre) := by rw [owner_snoc]
  have e4 : extruderAfter (pre ++ [.model f]) = extruderAfter pre := by rw [extruderAfter_snoc]; rfl
  have e5 : models defs (pre ++ [.model f]) = models defs pre ++ [⟨groupAfter pre, f, extruderAfter pre, rotationAfter defs pre⟩] := by
    rw [models_snoc]; rfl
  have e6 : extruderCount defs (pre ++ [.model f]) = extruderCount defs pre := by rw [extruderCount_snoc]; rfl
  have e7 : assignments defs (pre ++ [.model f]) = assignments defs pre := by rw [assignments_snoc]; simp [given]
  have e8 : outputAfter (pre ++ [.model f]) = outputAfter pre := by rw [outputAfter_snoc]
  obtain ⟨rot, hrot⟩ := Option.ne_none_iff_exists'.mp hr
  have hget := get_lookedUp h hrot
  have hgl : groupAfter pre < s.store.scene.groups.length := by rw [h.groups]; exact hG
  have hgrp : s.store.scene.groups[groupAfter pre]? = some s.store.scene.groups[groupAfter pre] := List.getElem?_eq_getElem hgl
  generalize s.store.scene.groups[groupAfter pre] = grp at hgrp
  have hcur : grp.meshes.length = modelsAfter pre := by
    have := h.current grp.shape (by rw [shape_get, hgrp]; rfl)
    simpa [Group.shape] using this
  have hlt : extruderAfter pre < s.store.scene.extruders.length := by rw [h.len]; exact h.lastOk
  have hex : s.store.scene.extruders[extruderAfter pre]? = some s.store.scene.extruders[extruderAfter pre] := List.getElem?_eq_getElem hlt
  let m : Mesh := ⟨f, rot, ⟨0, extruderAfter pre⟩, Env.empty⟩
  have hg' : (withMesh w s.store.scene (groupAfter pre) m).groups[groupAfter pre]? = some (grp.push w m) := by
    rw [withMesh_get, hgrp, Option.map_some, if_pos rfl]
  have hlen' : (grp.push w m).meshes.length - 1 = modelsAfter pre := by rw [(push_env _ _ _).2, ← hcur]; simp
  refine ⟨0, { s with store := { s.store with scene := withMesh w s.store.scene (groupAfter pre) m },
                      target := .mesh s.group ⟨(grp.push w m).gen, modelsAfter pre⟩ }, fun fuel _ rest => ?_, ?_⟩
  · show parse w fuel ("-l".toList :: f :: rest) s = _
    rw [parse_value (by decide +kernel)]
    show (loadOption w f s >>= parse w fuel rest) = _
    unfold loadOption
    rw [hget, Run.bind_ok]
    have hadd : addMesh w s.store.scene s.group f rot s.last = .ok (withMesh w s.store.scene (groupAfter pre) m) := by
      unfold addMesh
      rw [h.last, h.group]
      simp only [Scene.extruder, h.gen, if_true, index_some hex, Run.bind_ok, index_some hgrp, hm, Run.pure_eq]
      unfold withMesh
      rw [h.gen]
    have hidx : index (withMesh w s.store.scene (groupAfter pre) m).groups s.group = .ok (grp.push w m) := by
      rw [h.group]
      exact index_some hg'
    rw [hadd, Run.bind_ok, hidx, Run.bind_ok, hlen']
    rfl
  · exact {
      good := by rw [e7]; exact withMesh_good h.good hgrp _ _ _
      gen := h.gen
      cap := h.cap
      limit := h.limit
      len := by rw [e6]; exact h.len
      room := by rw [e6]; exact h.room
      dirs := h.dirs
      flags := h.flags
      group := by rw [e1]; exact h.group
      groups := by simp only [withMesh, List.length_modify]; exact h.groups
      target := by rw [e3]; simp only [h.group, Scene.target, hg', Option.map_some, Option.getD_some]
      exist := by
        rw [e3]
        simp only [Scene.env, hg', Option.bind_some, Option.isSome_map, (push_env w grp m).2]
        simp [hcur]
      last := by rw [e4]; exact h.last
      lastOk := by rw [e4, e6]; exact h.lastOk
      ofExtruder := by rw [e3]; intro n hn; simp at hn
      shapes := fun g sh hsh => by
        dsimp only at hsh
        rw [withMesh_shape] at hsh
        rw [e5, e6, List.filter_append]
        rw [Option.map_eq_some_iff] at hsh
        obtain ⟨G', hG', hsh⟩ := hsh
        obtain ⟨h1, h2⟩ := h.shapes g G'.shape (by rw [shape_get, hG']; rfl)
        split at hsh
        · rename_i hgg
          subst hgg
          subst hsh
          rw [push_shape, List.map_append, h1]
          refine ⟨?_, fun x hx => ?_⟩
          · congr 1
            simp [meshSpec, hrot, m]
          · rcases List.mem_append.mp hx with hx | hx
            · exact h2 x hx
            · simp only [List.mem_singleton] at hx
              subst hx
              exact ⟨rfl, h.lastOk⟩
        · rename_i hgg
          subst hsh
          refine ⟨?_, h2⟩
          rw [h1]
          simp [hgg]
      current := by
        dsimp only
        rw [e1, e2, shape_get, hg']
        rintro sh hsh
        cases hsh
        rw [push_shape]
        simp [Group.shape, hcur]
      fresh := by
        dsimp only
        rw [e1]
        intro g sh hg hsh
        rw [withMesh_shape, Option.map_eq_some_iff] at hsh
        obtain ⟨G', hG', hsh⟩ := hsh
        rw [if_neg (by omega)] at hsh
        exact h.fresh g sh hg (by rw [shape_get, hG', Option.map_some, hsh])
      parent := by
        dsimp only
        rw [e3, e4]
        intro g j hgj
        simp only [Owner.model.injEq] at hgj
        obtain ⟨rfl, rfl⟩ := hgj
        refine ⟨(grp.push w m).shape, (m.file, m.rotation, m.parent), by rw [shape_get, hg']; rfl, ?_, rfl⟩
        rw [push_shape, List.getElem?_append_right (by simp [Group.shape, hcur])]
        simp [Group.shape, hcur]
      output := by rw [e8]; exact h.output }

/-! ## All items -/

theorem groupAfter_append (a b : List Item) : groupAfter (a ++ b) = groupAfter a + groupAfter b := by
  simp [groupAfter]

theorem extruderCount_append (defs : Str → List Effect) (a b : List Item) : extruderCount defs a ≤ extruderCount defs (a ++ b) := by
  induction b generalizing a with
  | nil => simp
  | cons i b ih =>
    have := ih (a ++ [i])
    rw [List.append_assoc, List.singleton_append] at this
    exact le_trans (extruderCount_mono defs a i) this

theorem step {w : World} {defs : Str → List Effect} {C G : Nat} {pre : List Item} {dirs dirs' : List Str} {s : State} {i : Item}
    (h : Inv defs C G pre dirs s) (hok : ItemOk w defs pre dirs dirs' i) (hroom : extruderCount defs (pre ++ [i]) ≤ C)
    (hG : groupAfter (pre ++ [i]) < G) : Steps w defs C G pre dirs' s i := by
  rw [groupAfter_snoc] at hG
  cases i with
  | setting k v => obtain ⟨h1, rfl⟩ := hok; exact step_setting h h1
  | extruder n => obtain ⟨h1, h2, rfl⟩ := hok; exact step_extruder h h1 h2 hroom
  | model f => obtain ⟨h1, h2, rfl⟩ := hok; exact step_model h (by omega) h1 h2
  | group => cases hok; exact step_group h (by omega)
  | next => cases hok; exact step_next h (by simpa [Item.isNext] using hG)
  | definition f => exact step_definition h hok hroom
  | output f => obtain ⟨h1, rfl⟩ := hok; exact step_output h h1
  | verbose => cases hok; exact step_verbose h
  | search paths => obtain ⟨h1, h2, rfl⟩ := hok; exact step_search h h1 h2

theorem steps {w : World} {defs : Str → List Effect} {C G : Nat} {dirs' : List Str} (rest pre : List Item) {dirs : List Str} {s : State}
    (h : Inv defs C G pre dirs s) (hok : ItemsOk w defs dirs' pre dirs rest) (hroom : extruderCount defs (pre ++ rest) ≤ C)
    (hG : groupAfter (pre ++ rest) < G) :
    ∃ f0 s', (∀ fuel, f0 ≤ fuel → ∀ more, parse w fuel (commandLine rest ++ more) s = parse w fuel more s') ∧
      Inv defs C G (pre ++ rest) dirs' s' := by
  induction rest generalizing pre dirs s with
  | nil => cases hok; exact ⟨0, s, fun _ _ _ => rfl, by simpa using h⟩
  | cons i rest ih =>
    obtain ⟨d, h1, h2⟩ := hok
    have e : pre ++ i :: rest = (pre ++ [i]) ++ rest := by simp
    rw [e] at hroom hG
    obtain ⟨f1, s1, hs1, hi1⟩ := step h h1 (le_trans (extruderCount_append defs _ rest) hroom) (by
      rw [groupAfter_append] at hG
      omega)
    obtain ⟨f2, s2, hs2, hi2⟩ := ih (pre ++ [i]) hi1 h2 hroom hG
    refine ⟨max f1 f2, s2, fun fuel hf more => ?_, by rw [e]; exact hi2⟩
    rw [commandLine, List.flatMap_cons, List.append_assoc, hs1 fuel (by omega)]
    exact hs2 fuel (by omega) more

theorem nexts_le (items : List Item) : groupAfter items ≤ (commandLine items).countP (startsWith "--next".toList) := by
  induction items with
  | nil => simp [groupAfter]
  | cons i items ih =>
    rw [commandLine, List.flatMap_cons, List.countP_append]
    unfold groupAfter at ih ⊢
    rw [List.countP_cons]
    cases i with
    | next =>
      have : (Item.next.write).countP (startsWith "--next".toList) = 1 := by decide +kernel
      rw [this]
      simp only [Item.isNext, if_true]
      unfold commandLine at ih
      omega
    | _ =>
      simp only [Item.isNext, Bool.false_eq_true, if_false]
      unfold commandLine at ih
      omega

theorem start_inv (w : World) (env : Str) (defs : Str → List Effect) (args : List Str) :
    Inv defs ((args.length + 2) / 2) (args.countP (startsWith "--next".toList) + 1) [] (if env = [] then [] else splitPaths env)
      (start w env args (args.length + 2)) := by
  have hc : 0 < (args.length + 2) / 2 := by omega
  have hsc : startScene w args (args.length + 2) = {
      global := Env.empty
      extruders := [⟨0, Env.empty⟩]
      gen := 0
      cap := (args.length + 2) / 2
      groups := List.replicate (args.countP (startsWith "--next".toList) + 1) ⟨Env.empty, [], 0, 0⟩
      limit := fun _ => none } := by
    unfold startScene Scene.push
    dsimp only
    rw [if_pos (by simp)]
    rfl
  have hsh : ∀ (g : Nat) sh, ((startScene w args (args.length + 2)).groups.map Group.shape)[g]? = some sh → sh.1 = [] := by
    intro g sh h
    rw [hsc] at h
    have := List.mem_of_getElem? h
    simp only [List.map_replicate, List.mem_replicate] at this
    rw [this.2]
    rfl
  have hnone : ∀ o k, valueOf (assignments defs []) o k = none := fun o k => valueOf_none (by simp [assignments, collect]) k
  exact {
    good := by
      refine ⟨by rw [start, hsc]; rfl, fun o e he k => ?_, by simp [assignments, collect]⟩
      rw [hnone]
      rw [start, hsc] at he
      dsimp only at he
      cases o with
      | general => cases he; rfl
      | extruder n =>
        simp only [Scene.env, Option.map_eq_some_iff] at he
        obtain ⟨x, hx, rfl⟩ := he
        have := List.mem_of_getElem? hx
        simp only [List.mem_singleton] at this
        subst this
        rfl
      | group g =>
        simp only [Scene.env, Option.map_eq_some_iff] at he
        obtain ⟨x, hx, rfl⟩ := he
        have := List.mem_of_getElem? hx
        simp only [List.mem_replicate] at this
        rw [this.2]
        rfl
      | model g j =>
        simp only [Scene.env, Option.bind_eq_some_iff, Option.map_eq_some_iff] at he
        obtain ⟨x, hx, m, hm, rfl⟩ := he
        have := List.mem_of_getElem? hx
        simp only [List.mem_replicate] at this
        rw [this.2] at hm
        simp at hm
    gen := by rw [start, hsc]
    cap := by rw [start, hsc]
    limit := fun k => by rw [start, hsc]
    len := by rw [start, hsc]; rfl
    room := hc
    dirs := rfl
    flags := rfl
    group := rfl
    groups := by rw [start, hsc]; simp
    target := rfl
    exist := rfl
    last := by rw [start, hsc]; rfl
    lastOk := Nat.zero_lt_one
    ofExtruder := by intro n hn; simp [owner] at hn
    shapes := fun g sh h => by
      rw [hsh g sh h]
      exact ⟨rfl, by simp⟩
    current := fun sh h => by rw [hsh _ sh h]; rfl
    fresh := fun g sh _ h => hsh g sh h
    parent := by intro g j hn; simp [owner] at hn
    output := rfl }

theorem Inv.describes {defs : Str → List Effect} {C G : Nat} {items : List Item} {dirs : List Str} {s : State} (h : Inv defs C G items dirs s)
    (hG : groupAfter items < G) : Describes defs items s.store.scene where
  general := h.good.holds .general _ rfl
  count := h.len
  extruder := fun n e he => ⟨extruder_number h.good he, h.good.holds (.extruder n) e.env (by simp [Scene.env, he])⟩
  groups := by rw [h.groups]; exact hG
  group := fun g grp hg => by
    refine ⟨h.good.holds (.group g) grp.env (by simp [Scene.env, hg]), ?_, fun j m hm => ?_⟩
    · obtain ⟨h1, -⟩ := h.shapes g grp.shape (by rw [shape_get, hg]; rfl)
      rw [← h1, Group.shape, List.map_map]
      rfl
    · exact h.good.holds (.model g j) m.env (by simp [Scene.env, hg, hm])

theorem Inv.sound {defs : Str → List Effect} {C G : Nat} {items : List Item} {dirs : List Str} {s : State} (h : Inv defs C G items dirs s) :
    s.store.scene.sound = true := by
  unfold Scene.sound
  rw [List.all_eq_true]
  intro grp hgrp
  rw [List.all_eq_true]
  intro m hm
  obtain ⟨g, hg⟩ := List.mem_iff_getElem?.mp hgrp
  obtain ⟨-, h2⟩ := h.shapes g grp.shape (by rw [shape_get, hg]; rfl)
  obtain ⟨h3, h4⟩ := h2 (m.file, m.rotation, m.parent) (by
    simp only [Group.shape, List.mem_map]
    exact ⟨m, hm, rfl⟩)
  dsimp only at h3 h4
  simp only [h3, h.gen, h.len, h4, decide_true, Bool.and_self]

theorem searchPath_dirs {env : Str} {dirs : List Str} (h : SearchPath env dirs) : (if env = [] then [] else splitPaths env) = dirs := by
  rcases h with ⟨h1, h2⟩ | ⟨h1, h2, h3, h4⟩
  · rw [if_pos h1, h2]
  · rw [if_neg h1, h4]
    exact splitPaths_intercalate dirs h2 h3

/-- Following the items from the start. -/
theorem run_items {w : World} {env : Str} {dirs dirs' : List Str} {defs : Str → List Effect} {items : List Item} {more : List Str}
    (henv : SearchPath env dirs) (hok : ItemsOk w defs dirs' [] dirs items)
    (hroom : extruderCount defs items ≤ ((commandLine items ++ more).length + 2) / 2) :
    ∃ f0 s', (∀ fuel, f0 ≤ fuel → parse w fuel (commandLine items ++ more) (start w env (commandLine items ++ more)
        ((commandLine items ++ more).length + 2)) = parse w fuel more s') ∧
      ∃ C G, groupAfter items < G ∧ Inv defs C G items dirs' s' := by
  have h0 := start_inv w env defs (commandLine items ++ more)
  rw [searchPath_dirs henv] at h0
  have hG : groupAfter items < (commandLine items ++ more).countP (startsWith "--next".toList) + 1 := by
    have := nexts_le items
    rw [List.countP_append]
    omega
  obtain ⟨f0, s', h1, h2⟩ := steps items [] h0 hok hroom hG
  exact ⟨f0, s', fun fuel hf => h1 fuel hf more, _, _, hG, h2⟩

/-- Looking up a value that is not there. -/
theorem get_missing {defs : Str → List Effect} {C G : Nat} {pre : List Item} {dirs : List Str} {s : State} (h : Inv defs C G pre dirs s)
    {k : Str} (hv : lookedUp (assignments defs pre) (owner pre) (extruderAfter pre) k = none) : s.store.scene.get s.target k = .exit 2 := by
  obtain ⟨e, he⟩ := Option.isSome_iff_exists.mp h.exist
  have hek := h.good.holds _ e he k
  have hgl : s.store.scene.global k = valueOf (assignments defs pre) .general k := h.good.holds .general _ rfl k
  unfold Scene.get
  rw [h.target, read_target he, Run.bind_ok, hek]
  unfold lookedUp at hv
  cases ho : owner pre with
  | general =>
    rw [ho] at hv
    simp only [Option.or_eq_none_iff] at hv
    rw [hv.1]
    dsimp only
    rw [h.limit k]
    rfl
  | extruder n =>
    rw [ho] at hv
    simp only [Option.or_eq_none_iff] at hv
    rw [hv.1]
    dsimp only
    rw [h.limit k]
    simp only [Scene.target, Scene.getParent, hgl, hv.2, found]
  | group g =>
    rw [ho] at hv
    simp only [Option.or_eq_none_iff] at hv
    rw [hv.1]
    dsimp only
    rw [h.limit k]
    simp only [Scene.target, Scene.getParent, hgl, hv.2, found]
  | model g j =>
    rw [ho] at hv
    simp only [Option.or_eq_none_iff] at hv
    rw [hv.1.1]
    dsimp only
    rw [h.limit k]
    obtain ⟨sh, x, hsh, hx, hpar⟩ := h.parent g j ho
    rw [shape_get, Option.map_eq_some_iff] at hsh
    obtain ⟨grp, hgrp, rfl⟩ := hsh
    simp only [Group.shape, List.getElem?_map, Option.map_eq_some_iff] at hx
    obtain ⟨m, hm, rfl⟩ := hx
    have hlt : extruderAfter pre < s.store.scene.extruders.length := by rw [h.len]; exact h.lastOk
    have hex : s.store.scene.extruders[extruderAfter pre]? = some s.store.scene.extruders[extruderAfter pre] := List.getElem?_eq_getElem hlt
    have hev := h.good.holds (.extruder (extruderAfter pre)) s.store.scene.extruders[extruderAfter pre].env (by simp [Scene.env, hex]) k
    dsimp only at hpar
    simp only [Scene.target, Scene.getParent, index_some hgrp, Run.bind_ok, index_some hm, Scene.extruder, hpar, h.gen, if_true, index_some hex]
    rw [hev, hv.1.2]
    simp only [hgl, hv.2, found]

end Verif.Cli
