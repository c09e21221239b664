import Verif.Cli.ResolvedLemmas
import Mathlib.Tactic.Linarith
import Mathlib.Tactic.Positivity
import Mathlib.Tactic.FieldSimp

/-! # Properties of the command line (C90 to C94) -/

namespace Verif.Cli

/-- **C90 (part).** A command line of items that make sense is accepted, and what is sliced is what the items say: every
setting has gone to what it follows, the last value counts, definition files give their values to what they follow and to
their extruders, models are in their groups with the extruder named last, and there are as many extruders as are needed.
Missing: command lines with more extruders than half the number of arguments, and extruders that do not come one after the other; both are
wrong (see the counterexamples). -/
theorem C90_scene_partial {w : World} {env : Str} {dirs dirs' : List Str} {defs : Str → List Effect} {items : List Item}
    (henv : SearchPath env dirs) (hok : ItemsOk w defs dirs' [] dirs items)
    (hroom : extruderCount defs items ≤ ((commandLine items).length + 2) / 2) :
    ∃ f0 job, (∀ fuel, f0 ≤ fuel → slice w fuel env (commandLine items) = .ok job) ∧ Describes defs items job.scene ∧
      job.output = outputAfter items := by
  obtain ⟨f0, s', h1, C, G, hG, hi⟩ := run_items (more := []) henv hok (by simpa using hroom)
  refine ⟨f0, ⟨s'.store.scene, s'.group, s'.output⟩, fun fuel hf => ?_, hi.describes hG, hi.output⟩
  have := h1 fuel hf
  rw [List.append_nil] at this
  unfold slice
  rw [this]
  show (if s'.store.scene.sound then _ else _) = _
  rw [hi.sound]
  rfl

/-- **C90 (part).** The models of the last group are placed on the build plate. Missing: those of the other groups, which are
not (see the counterexample). -/
theorem C90_placed_partial {w : World} {env : Str} {dirs dirs' : List Str} {defs : Str → List Effect} {items : List Item}
    (henv : SearchPath env dirs) (hok : ItemsOk w defs dirs' [] dirs items)
    (hroom : extruderCount defs items ≤ ((commandLine items).length + 2) / 2) :
    ∃ f0 job, (∀ fuel, f0 ≤ fuel → slice w fuel env (commandLine items) = .ok job) ∧ job.placed = groupAfter items := by
  obtain ⟨f0, s', h1, C, G, hG, hi⟩ := run_items (more := []) henv hok (by simpa using hroom)
  refine ⟨f0, ⟨s'.store.scene, s'.group, s'.output⟩, fun fuel hf => ?_, hi.group⟩
  have := h1 fuel hf
  rw [List.append_nil] at this
  unfold slice
  rw [this]
  show (if s'.store.scene.sound then _ else _) = _
  rw [hi.sound]
  rfl

/-! ## Definition files -/

theorem adds_lookup (l : List (Str × Str)) (e : Env) (k : Str) : e.adds l k = (l.reverse.lookup k).or (e k) := by
  induction l using List.reverseRecOn with
  | nil => simp [Env.adds]
  | append_singleton l x ih =>
    have h1 : e.adds (l ++ [x]) k = (e.adds l).add x.1 x.2 k := by simp [Env.adds, List.foldl_append]
    rw [h1, List.reverse_append, List.reverse_singleton, List.singleton_append, List.lookup_cons, Env.add]
    by_cases hk : k = x.1
    · subst hk; simp
    · rw [if_neg hk, ih]
      have : (k == x.1) = false := by simpa using hk
      rw [this]

theorem loadSection_global {fs : Fields} {name : String} {a : List (Str × Str)} (h : Section fs name a) (s : Store) :
    loadSection noForce name.toList fs .global s = .ok { s with scene := { s.scene with global := s.scene.global.adds a } } := by
  cases h with
  | @here f a hm hgv =>
    unfold loadSection
    rw [show fs.find name.toList = some (.obj f) from (find_lookup _ _).trans hm]
    dsimp only
    simp only [Scene.read, Run.bind_ok, members_gives hgv f rfl, Scene.write]
    rfl
  | absent hm =>
    unfold loadSection
    rw [find_lookup]
    split
    · rename_i o' ho'
      exact absurd ho' (hm o')
    · rfl

theorem loadMetadata_none {w : World} {l : Target → Str → Store → Run (Bool × Store)} {fs : Fields} (h : TrainList fs []) (s : Store) :
    loadMetadata w l fs s = .ok s := by
  generalize hl : ([] : List (Str × Json)) = ts at h
  cases h with
  | @here md tr h1 h2 =>
    unfold loadMetadata
    rw [show fs.find "metadata".toList = some (.obj md) from (find_lookup _ _).trans h1]
    dsimp only
    rw [show md.find "machine_extruder_trains".toList = some (.obj tr) from (find_lookup _ _).trans h2]
    dsimp only
    cases tr with
    | nil => rfl
    | cons k v r => simp [Fields.list] at hl
  | @noTrains md h1 h2 =>
    unfold loadMetadata
    rw [show fs.find "metadata".toList = some (.obj md) from (find_lookup _ _).trans h1]
    dsimp only
    rw [find_lookup]
    split
    · rename_i tr htr
      exact absurd htr (h2 tr)
    · rfl
  | noMetadata h1 =>
    unfold loadMetadata
    rw [find_lookup]
    split
    · rename_i md hmd
      exact absurd hmd (h1 md)
    · rfl

theorem load_chain {w : World} {dirs : List Str} {path : Str} {vals : List (Str × Str)} (h : Chain w dirs path vals) :
    ∃ f0 dirs', ∀ fuel, f0 ≤ fuel → ∀ s : Store, s.dirs = dirs → load w noForce fuel .global path s =
      .ok (true, ⟨{ s.scene with global := s.scene.global.adds vals }, dirs'⟩) := by
  induction h with
  | @root dirs path fs a b hf hi ht ha hb =>
    refine ⟨1, dirs ++ [w.parentPath path], fun fuel hfu s hs => ?_⟩
    obtain ⟨fuel, rfl⟩ : ∃ k, fuel = k + 1 := ⟨fuel - 1, by omega⟩
    unfold load
    rw [hf]
    dsimp only
    unfold loadDocument
    have hp : ∀ s : Store, loadParent w (load w noForce fuel) fs .global s = .ok (true, s) := by
      intro s
      unfold loadParent
      rw [find_lookup]
      split
      · rename_i id hid
        exact absurd hid (hi id)
      · rfl
    rw [hp, Run.bind_ok]
    dsimp only
    rw [if_pos rfl, loadMetadata_none ht, Run.bind_ok, loadSection_global ha, Run.bind_ok, loadSection_global hb, hs]
    simp [Env.adds, List.foldl_append]
  | @child dirs path fs id p base a b hf hi hfi _ ht ha hb ih =>
    obtain ⟨f0, d', ih⟩ := ih
    refine ⟨f0 + 1, d', fun fuel hfu s hs => ?_⟩
    obtain ⟨fuel, rfl⟩ : ∃ k, fuel = k + 1 := ⟨fuel - 1, by omega⟩
    unfold load
    rw [hf]
    dsimp only
    unfold loadDocument loadParent
    rw [show fs.find "inherits".toList = some (.str id) from (find_lookup _ _).trans hi]
    dsimp only
    rw [hs, find_definition hfi]
    dsimp only
    rw [ih fuel (by omega) _ rfl, Run.bind_ok]
    dsimp only
    rw [if_pos rfl, loadMetadata_none ht, Run.bind_ok, loadSection_global ha, Run.bind_ok, loadSection_global hb]
    simp [Env.adds, List.foldl_append]

/-- **C91.** Loading a definition file gives every setting the value of the file that comes first on the way from the file to
its ancestors and has one, where in a file overrides come before settings and later ones before earlier ones. Settings that
none of the files has keep their values. -/
theorem C91_inheritance {w : World} {dirs : List Str} {path : Str} {vals : List (Str × Str)} (h : Chain w dirs path vals) :
    ∃ f0, ∀ fuel, f0 ≤ fuel → ∀ scene, ∃ s', load w ⟨false, false⟩ fuel .global path ⟨scene, dirs⟩ = .ok (true, s') ∧
      (∀ k, s'.scene.global k = (vals.reverse.lookup k).or (scene.global k)) ∧
      s'.scene.extruders = scene.extruders ∧ s'.scene.groups = scene.groups := by
  obtain ⟨f0, d', h⟩ := load_chain h
  refine ⟨f0, fun fuel hf scene => ⟨_, h fuel hf ⟨scene, dirs⟩ rfl, fun k => ?_, rfl, rfl⟩⟩
  exact adds_lookup _ _ _

/-! ## Values of definition files -/

/-- **C92 (part).** The text of a number in a definition file is a decimal number with six digits behind the point that differs
by at most half a millionth from it. Missing: that it is the number, which it is not (see the counterexample). -/
theorem C92_number_partial (q : ℚ) : ∃ m : Int, (toText (.num q)).bind Text.Spec.parseDecimal = some (m, 6) ∧ |(m : ℚ) / 10 ^ 6 - q| ≤ 1 / 2 / 10 ^ 6 := by
  have hnn : 0 ≤ |q| * 10 ^ 6 := by positivity
  have h0 := Text.roundHalfEven_nonneg _ hnn
  have hc := Text.roundHalfEven_close (|q| * 10 ^ 6)
  have hm : ((Text.roundHalfEven (|q| * 10 ^ 6)).toNat : ℚ) = Text.roundHalfEven (|q| * 10 ^ 6) := by
    have := Int.toNat_of_nonneg h0
    exact_mod_cast this
  generalize hn : (Text.roundHalfEven (|q| * 10 ^ 6)).toNat = n at hm
  have hp := Text.parseDecimal_frac (decide (q < 0)) (Text.digits (n / 10 ^ 6)) (Text.lastDigits 6 n) (Text.isDigit_digits _)
    (by simp [Text.lastDigits]) n (by
      rw [Text.natFrom_append, Text.natFrom_digits]
      simp only [Option.bind_some, Text.natFrom_lastDigits, Nat.zero_mul, Nat.zero_add]
      congr 1
      have := Nat.div_add_mod n (10 ^ 6)
      rw [Nat.mul_comm] at this
      exact this)
  have hl : (Text.lastDigits 6 n).length = 6 := by simp [Text.lastDigits]
  rw [hl] at hp
  refine ⟨(if q < 0 then (-1 : Int) else 1) * n, ?_, ?_⟩
  · simp only [toText, Option.bind_some, realText, Text.fmtFixed, hn]
    rw [if_neg (show ¬ (6 = 0) by decide), hp]
    simp
  · rw [← hm] at hc
    rw [abs_le] at hc ⊢
    by_cases hq : q < 0
    · rw [abs_of_neg hq] at hc
      simp only [if_pos hq]
      push_cast
      constructor <;> linarith [hc.1, hc.2]
    · rw [abs_of_nonneg (not_lt.mp hq)] at hc
      simp only [if_neg hq]
      push_cast
      constructor <;> linarith [hc.1, hc.2]

theorem restText_list (xs : Items) (ts : List Str) (h : xs.list.map toText = ts.map some) (t : Str) :
    restText t xs = ts.flatMap (fun x => ',' :: x) ++ [']'] := by
  match xs, ts with
  | .nil, [] => rfl
  | .nil, _ :: _ => simp [Items.list] at h
  | .cons x xs, [] => simp [Items.list] at h
  | .cons x xs, t' :: ts =>
    simp only [Items.list, List.map_cons, List.cons.injEq] at h
    rw [restText, h.1, Option.getD_some, restText_list xs ts h.2]
    simp

/-- **C92 (part).** Texts are kept as they are, truth values are written out, and an array whose elements all have texts is
these texts in brackets with commas between. Missing: arrays with an element that has none, where the element before is
repeated (see the counterexample). -/
theorem C92_text_partial :
    (∀ s, toText (.str s) = some s) ∧ toText (.bool true) = some "true".toList ∧ toText (.bool false) = some "false".toList ∧
    (∀ (xs : Items) (ts : List Str), xs.list.map toText = ts.map some →
      toText (.arr xs) = some ('[' :: List.intercalate [','] ts ++ [']'])) := by
  refine ⟨fun _ => rfl, rfl, rfl, fun xs ts h => ?_⟩
  match xs, ts with
  | .nil, [] => rfl
  | .nil, _ :: _ => simp [Items.list] at h
  | .cons x xs, [] => simp [Items.list] at h
  | .cons x xs, t :: ts =>
    simp only [Items.list, List.map_cons, List.cons.injEq] at h
    rw [toText, itemsText, h.1, Option.getD_some, restText_list xs ts h.2]
    have : List.intercalate [','] (t :: ts) = t ++ ts.flatMap fun x => ',' :: x := by
      clear h
      induction ts generalizing t with
      | nil => simp [List.intercalate]
      | cons u ts ih =>
        have e : List.intercalate [','] (t :: u :: ts) = t ++ ',' :: List.intercalate [','] (u :: ts) := by
          simp [List.intercalate, List.intersperse]
        rw [e, ih u]
        simp
    rw [this]
    simp

/-! ## Resolved settings -/

/-- **C93 (part).** A file of resolved settings with parts for everything and for extruders gives its values to them, whatever
the order in which the parts are visited; other values stay as they are. An extruder for which there is a part exists then.
Missing: the parts for models, and that new extruders have their numbers; both is wrong (see the counterexamples). -/
theorem C93_values_partial {w : World} {f : Str} {fs : Fields} {s : State} (hf : w.file f = some (some (.obj fs))) (hp : PlainParts fs)
    (ho : ∀ l, (w.order l).Perm l) : ∃ s', resolvedOption w f s = .ok s' ∧
      (∀ k, s'.store.scene.global k = (resolved fs "global".toList k).or (s.store.scene.global k)) ∧
      (∀ n e, s'.store.scene.extruders[n]? = some e → ∀ k, e.env k =
        (resolved fs ("extruder.".toList ++ Text.digits n) k).or ((s.store.scene.extruders[n]?).bind fun e => e.env k)) ∧
      (∀ n, (fs.list.lookup ("extruder.".toList ++ Text.digits n)).isSome = true → n < s'.store.scene.extruders.length) ∧
      s'.store.scene.groups = s.store.scene.groups ∧ s'.store.scene.limit = s.store.scene.limit ∧ s'.target = s.target :=
  resolved_plain hf hp ho

/-! ## Command lines that are refused -/

theorem classify_missing {a : Str} (h : a ∈ ["-d".toList, "-j".toList, "-l".toList, "-o".toList, "-s".toList, "-r".toList]) :
    (classify a).takesValue = true ∧ missing (classify a) = .exit 1 := by
  simp only [List.mem_cons, List.not_mem_nil, or_false] at h
  rcases h with rfl | rfl | rfl | rfl | rfl | rfl <;> exact ⟨by decide +kernel, rfl⟩

theorem classify_word {a : Str} (h : a.head? ≠ some '-') : classify a = .bad := by
  unfold classify
  split <;> first | rfl | (exact absurd rfl h)

theorem classify_option {c : Char} {r : Str} (h : c ∉ "-vmpdjelogsr".toList) : classify ('-' :: c :: r) = .bad := by
  unfold classify
  split <;> first | rfl | (exfalso; apply h; rename_i heq; simp only [List.cons.injEq, true_and] at heq; rw [heq.1]; decide)

/-- **C94 (part).** A command line is refused with an error code if behind items that make sense there are arguments that do not: a
value is missing, the option does not exist, a setting has no value, or a file cannot be used. -/
theorem C94_refused_partial {w : World} {env : Str} {dirs dirs' : List Str} {defs : Str → List Effect} {items : List Item} {more : List Str}
    (henv : SearchPath env dirs) (hok : ItemsOk w defs dirs' [] dirs items)
    (hroom : extruderCount defs items ≤ ((commandLine items ++ more).length + 2) / 2) (hr : Refused w defs items dirs' more) :
    ∃ f0 code, code ≠ 0 ∧ ∀ fuel, f0 ≤ fuel → slice w fuel env (commandLine items ++ more) = .exit code := by
  obtain ⟨f0, s', h1, C, G, hG, hi⟩ := run_items henv hok hroom
  suffices hs : ∃ code, code ≠ 0 ∧ ∀ fuel, parse w (fuel + 1) more s' = .exit code by
    obtain ⟨code, hc, hp⟩ := hs
    refine ⟨f0 + 1, code, hc, fun fuel hf => ?_⟩
    unfold slice
    obtain ⟨k, rfl⟩ : ∃ k, fuel = k + 1 := ⟨fuel - 1, by omega⟩
    rw [h1 (k + 1) (by omega), hp k]
    rfl
  cases hr with
  | missing ha =>
    obtain ⟨h2, h3⟩ := classify_missing ha
    refine ⟨1, by decide, fun fuel => ?_⟩
    unfold parse
    rw [if_pos h2, h3]
  | word ha =>
    refine ⟨1, by decide, fun fuel => ?_⟩
    have := classify_word ha
    rw [parse_plain (by rw [this]; rfl), this]
    rfl
  | dash =>
    refine ⟨1, by decide, fun fuel => ?_⟩
    rw [parse_plain rfl]
    rfl
  | @option c r rest hc =>
    refine ⟨1, by decide, fun fuel => ?_⟩
    have := classify_option (r := r) hc
    rw [parse_plain (by rw [this]; rfl), this]
    rfl
  | @noValue t rest ht =>
    refine ⟨1, by decide, fun fuel => ?_⟩
    rw [parse_value (by decide +kernel)]
    show (settingOption t s' >>= _) = _
    unfold settingOption
    rw [if_neg ht]
    rfl
  | @model f rest hf =>
    have hcase : ∃ code, code ≠ 0 ∧ loadOption w f s' = .exit code := by
      cases hrot : rotationAfter defs items with
      | none =>
        refine ⟨2, by decide, ?_⟩
        unfold loadOption
        rw [get_missing hi hrot]
        rfl
      | some rot =>
        refine ⟨1, by decide, ?_⟩
        unfold loadOption
        rw [get_lookedUp hi hrot, Run.bind_ok]
        have hgl : groupAfter items < s'.store.scene.groups.length := by rw [hi.groups]; exact hG
        have hgrp : s'.store.scene.groups[groupAfter items]? = some s'.store.scene.groups[groupAfter items] := List.getElem?_eq_getElem hgl
        have hlt : extruderAfter items < s'.store.scene.extruders.length := by rw [hi.len]; exact hi.lastOk
        have hex : s'.store.scene.extruders[extruderAfter items]? = some s'.store.scene.extruders[extruderAfter items] := List.getElem?_eq_getElem hlt
        have hadd : addMesh w s'.store.scene s'.group f rot s'.last = .exit 1 := by
          unfold addMesh
          rw [hi.last, hi.group]
          simp only [Scene.extruder, hi.gen, if_true, index_some hex, Run.bind_ok, index_some hgrp, hf]
          rfl
        rw [hadd]
        rfl
    obtain ⟨code, hc, hl⟩ := hcase
    refine ⟨code, hc, fun fuel => ?_⟩
    rw [parse_value (by decide +kernel)]
    show (loadOption w f s' >>= _) = _
    rw [hl]
    rfl
  | @rotation f rest hrot =>
    refine ⟨2, by decide, fun fuel => ?_⟩
    rw [parse_value (by decide +kernel)]
    show (loadOption w f s' >>= _) = _
    unfold loadOption
    rw [get_missing hi hrot]
    rfl
  | @output f rest hf =>
    refine ⟨1, by decide, fun fuel => ?_⟩
    rw [parse_value (by decide +kernel)]
    show (outputOption w f s' >>= _) = _
    unfold outputOption
    rw [hf]
    rfl
  | @definition f rest hf =>
    refine ⟨1, by decide, fun fuel => ?_⟩
    rw [parse_value (by decide +kernel)]
    show (jsonOption w (fuel + 1) f s' >>= _) = _
    unfold jsonOption load
    rcases hf with hf | hf <;> rw [hf] <;> rfl
  | @parent f rest fs id hf hm hfn =>
    refine ⟨1, by decide, fun fuel => ?_⟩
    rw [parse_value (by decide +kernel)]
    show (jsonOption w (fuel + 1) f s' >>= _) = _
    unfold jsonOption load
    rw [hf]
    dsimp only
    unfold loadDocument loadParent
    rw [show fs.find "inherits".toList = some (.str id) from (find_lookup _ _).trans hm]
    dsimp only
    rw [hi.dirs, find_none hfn]
    rfl
  | @resolved f rest hf =>
    refine ⟨1, by decide, fun fuel => ?_⟩
    rw [parse_value (by decide +kernel)]
    show (resolvedOption w f s' >>= _) = _
    unfold resolvedOption
    split
    · rename_i fs hfs
      exact absurd hfs (hf fs)
    · rfl

end Verif.Cli
