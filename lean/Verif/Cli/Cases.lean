import Verif.Cli.Props

/-! # Cases of C90 to C94 -/

namespace Verif.Cli.Cases

open Verif.Cli

/-! ## A small world -/

def fields : List (String × Json) → Fields
  | [] => .nil
  | (k, v) :: rest => .cons k.toList v (fields rest)

def object (l : List (String × Json)) : Json := .obj (fields l)

def text (s : String) : Json := .str s.toList

/-- A setting with a default value. -/
def dflt (v : Json) : Json := object [("default_value", v)]

def world (files : List (String × Json)) : World where
  file p := (files.find? fun x => x.1.toList = p).map fun x => some x.2
  mesh p := p ≠ "none.stl".toList
  writable p := p ≠ "none.gcode".toList
  parentPath _ := "lib".toList
  join d f := d ++ '/' :: f
  grow n := 2 * n + 1
  order l := l

/-- A machine with two extruders that inherits from a general one. -/
def base : Fields := fields [("settings", object [
  ("machine", object [("children", object [("machine_extruder_count", dflt (text "1")), ("mesh_rotation_matrix", dflt (text "r"))])]),
  ("speed", dflt (text "60"))])]

def machine : Fields := fields [("inherits", text "base"), ("overrides", object [("machine_extruder_count", dflt (text "2"))])]

def w : World := world [("lib/base.def.json", .obj base), ("machine.json", .obj machine), ("bad.json", object [("inherits", text "lost")])]

def baseValues : List (Str × Str) := [("machine_extruder_count".toList, "1".toList), ("mesh_rotation_matrix".toList, "r".toList), ("speed".toList, "60".toList)]

theorem base_gives : Section base "settings" baseValues := by
  refine .here (o := fields [("machine", object [("children", object [("machine_extruder_count", dflt (text "1")), ("mesh_rotation_matrix", dflt (text "r"))])]),
    ("speed", dflt (text "60"))]) rfl ?_
  refine Gives.category (a := [("machine_extruder_count".toList, "1".toList), ("mesh_rotation_matrix".toList, "r".toList)]) (b := [("speed".toList, "60".toList)])
    (cs := fields [("machine_extruder_count", dflt (text "1")), ("mesh_rotation_matrix", dflt (text "r"))]) rfl ?_ ?_
  · exact .value rfl rfl rfl (.value rfl rfl rfl .nil)
  · exact .value rfl rfl rfl .nil

theorem noMember {fs : Fields} {name : String} (h : NoMember fs name) {p : Json → Prop} : ∀ v, Member fs name v → ¬ p v := by
  intro v hv
  unfold NoMember at h
  unfold Member at hv
  rw [h] at hv
  cases hv

theorem noStr {fs : Fields} {name : String} (h : NoMember fs name) : ∀ id, ¬ Member fs name (.str id) :=
  fun _ hm => noMember h (p := fun _ => True) _ hm trivial

theorem noObj {fs : Fields} {name : String} (h : NoMember fs name) : ∀ o, ¬ Member fs name (.obj o) :=
  fun _ hm => noMember h (p := fun _ => True) _ hm trivial

theorem machine_gives : Section machine "overrides" [("machine_extruder_count".toList, "2".toList)] :=
  .here (o := fields [("machine_extruder_count", dflt (text "2"))]) rfl (.value rfl rfl rfl .nil)

theorem machine_finds : Finds w (["top".toList] ++ ["lib".toList]) "base".toList "lib/base.def.json".toList :=
  ⟨["top".toList], "lib".toList, [], rfl, rfl, by decide +kernel, by decide +kernel⟩

/-- C91: the override of the machine is behind the settings of the base. -/
theorem machine_chain : Chain w ["top".toList] "machine.json".toList (baseValues ++ [] ++ [("machine_extruder_count".toList, "2".toList)]) :=
  .child (fs := machine) (id := "base".toList) rfl rfl machine_finds
    (.root (a := baseValues) (b := []) (fs := base) rfl (noStr rfl) (.noMetadata (noObj rfl)) base_gives (.absent (noObj rfl)))
    (.noMetadata (noObj rfl)) (.absent (noObj rfl)) machine_gives

example : ∃ f0, ∀ fuel, f0 ≤ fuel → ∀ scene, ∃ s', load w ⟨false, false⟩ fuel .global "machine.json".toList ⟨scene, ["top".toList]⟩ = .ok (true, s') ∧
    s'.scene.global "machine_extruder_count".toList = some "2".toList ∧ s'.scene.global "speed".toList = some "60".toList := by
  obtain ⟨f0, h⟩ := C91_inheritance machine_chain
  refine ⟨f0, fun fuel hf scene => ?_⟩
  obtain ⟨s', h1, h2, -⟩ := h fuel hf scene
  exact ⟨s', h1, by rw [h2]; rfl, by rw [h2]; rfl⟩

/-! ## C90 -/

def effects : List Effect := (baseValues ++ [("machine_extruder_count".toList, "2".toList)]).map fun x => .set none x.1 x.2

theorem machine_loads : Loads w ["top".toList] "machine.json".toList effects ["top".toList, "lib".toList, "lib".toList] := by
  have hb : Loads w ["top".toList, "lib".toList] "lib/base.def.json".toList (baseValues.map fun x => .set none x.1 x.2) ["top".toList, "lib".toList, "lib".toList] := by
    have := Loads.file (w := w) (dirs := ["top".toList, "lib".toList]) (path := "lib/base.def.json".toList) (fs := base) (e1 := []) (e2 := []) (trains := [])
      (a := baseValues) (b := []) rfl (.none (noStr rfl)) (.noMetadata (noObj rfl)) .nil base_gives (.absent (noObj rfl))
    exact this
  have := Loads.file (w := w) (dirs := ["top".toList]) (path := "machine.json".toList) (fs := machine) (e2 := []) (trains := []) (a := [])
    (b := [("machine_extruder_count".toList, "2".toList)]) rfl (.some (id := "base".toList) rfl machine_finds hb) (.noMetadata (noObj rfl)) .nil
    (.absent (noObj rfl)) machine_gives
  exact this

def defs : Str → List Effect := fun _ => effects

/-- Two models in two groups, with settings of all kinds. -/
def items : List Item := [.search ["top".toList], .definition "machine.json".toList, .setting "speed".toList "50".toList, .extruder 1, .setting "speed".toList "40".toList,
  .model "a.stl".toList, .setting "speed".toList "30".toList, .next, .setting "speed".toList "20".toList, .extruder 0, .model "b.stl".toList,
  .output "o.gcode".toList, .setting "speed".toList "10".toList]

theorem items_ok : ItemsOk w defs ["top".toList, "lib".toList, "lib".toList] [] [] items := by
  refine ⟨_, ⟨by simp, by decide +kernel, rfl⟩, _, ⟨machine_loads, fun _ => ⟨"2".toList, by decide +kernel, ⟨'2', [], by decide +kernel, by decide, by decide⟩, by decide +kernel⟩⟩, ?_⟩
  refine ⟨_, ⟨by decide +kernel, rfl⟩, _, ⟨by decide, by decide +kernel, rfl⟩, _, ⟨by decide +kernel, rfl⟩, _, ⟨by decide +kernel, by decide +kernel, rfl⟩,
    _, ⟨by decide +kernel, rfl⟩, _, rfl, _, ⟨by decide +kernel, rfl⟩, _, ⟨by decide, by decide +kernel, rfl⟩, _, ⟨by decide +kernel, by decide +kernel, rfl⟩,
    _, ⟨by decide +kernel, rfl⟩, _, ⟨by decide +kernel, rfl⟩, rfl⟩

theorem items_room : extruderCount defs items ≤ ((commandLine items).length + 2) / 2 := by decide +kernel

example : ∃ f0 job, (∀ fuel, f0 ≤ fuel → slice w fuel [] (commandLine items) = .ok job) ∧ Describes defs items job.scene ∧ job.output = outputAfter items :=
  C90_scene_partial (.inl ⟨rfl, rfl⟩) items_ok items_room

/-- What this means for the settings. -/
example : let a := assignments defs items
    valueOf a .general "speed".toList = some "50".toList ∧ valueOf a (.extruder 1) "speed".toList = some "40".toList ∧
    valueOf a (.model 0 0) "speed".toList = some "30".toList ∧ valueOf a (.group 1) "speed".toList = some "20".toList ∧
    valueOf a (.model 1 0) "speed".toList = some "10".toList ∧ valueOf a (.extruder 0) "speed".toList = none ∧ extruderCount defs items = 2 ∧
    (models defs items).map (fun m => (m.group, m.file, m.extruder, m.rotation)) =
      [(0, "a.stl".toList, 1, some "r".toList), (1, "b.stl".toList, 0, some "r".toList)] ∧ outputAfter items = some "o.gcode".toList := by
  decide +kernel

example : ∃ f0 job, (∀ fuel, f0 ≤ fuel → slice w fuel [] (commandLine items) = .ok job) ∧ job.placed = groupAfter items :=
  C90_placed_partial (.inl ⟨rfl, rfl⟩) items_ok items_room

/-! ## What runs end with -/

def isUb {α : Type} : Run α → Bool
  | .ub => true
  | _ => false

def isThrows {α : Type} : Run α → Bool
  | .throws => true
  | _ => false

def isOk {α : Type} : Run α → Bool
  | .ok _ => true
  | _ => false

def exits {α : Type} (c : Nat) : Run α → Bool
  | .exit d => c = d
  | _ => false

def diverges {α : Type} : Run α → Bool
  | .diverge => true
  | _ => false

def get {α β : Type} (d : β) (f : α → β) : Run α → β
  | .ok a => f a
  | _ => d

def args (l : List String) : List Str := l.map String.toList

/-- FINDING. A machine with more extruders than the command line has room for: the vector of extruders is moved in memory while
a pointer to the first extruder is kept. The first model is then loaded for an extruder that does not exist any more. -/
theorem C90_reallocation_counterexample :
    isUb (slice (world [("m.json", object [("settings", object [("machine_extruder_count", dflt (text "8")), ("mesh_rotation_matrix", dflt (text "r"))])])])
      3 [] (args ["-j", "m.json", "-l", "a.stl"])) = true := by decide +kernel

/-- The same with an extruder that is named behind a model. -/
theorem C90_late_extruder_counterexample :
    isUb (slice (world []) 3 [] (args ["-s", "mesh_rotation_matrix=r", "-l", "a.stl", "-e1", "-e2", "-e3", "-e4", "-e5", "-e6", "-e7"])) = true := by decide +kernel

/-- FINDING. An extruder that is named before those with smaller numbers: these get its number. -/
theorem C90_numbers_counterexample :
    get [] (fun j => j.scene.extruders.map (·.nr)) (slice (world []) 3 [] (args ["-e3", "-s", "a=1", "-s", "b=1", "-s", "c=1"])) = [0, 3, 3, 3] := by decide +kernel

/-- FINDING. With several groups only the last one is moved to its place on the build plate. -/
theorem C90_placed_counterexample :
    get (0, 0) (fun j => (j.scene.groups.length, j.placed)) (slice (world []) 3 [] (args ["-s", "mesh_rotation_matrix=r", "-l", "a.stl", "--next", "-l", "b.stl"])) =
      (2, 1) := by decide +kernel

/-- FINDING. A rotation that is given for a model is not that of this model, but that of the next one. -/
theorem C90_rotation_counterexample :
    get [] (fun j => j.scene.groups.flatMap fun g => g.meshes.map fun m => (m.file, m.rotation))
      (slice (world []) 3 [] (args ["-s", "mesh_rotation_matrix=r", "-l", "a.stl", "-s", "mesh_rotation_matrix=q", "-l", "b.stl"])) =
      [("a.stl".toList, "r".toList), ("b.stl".toList, "q".toList)] := by decide +kernel

/-- FINDING. The value of a setting that begins with "--next" counts as one more group, which stays empty. -/
theorem C90_groups_counterexample :
    get 0 (fun j => j.scene.groups.length) (slice (world []) 3 [] (args ["-o", "--next.gcode"])) = 2 := by decide +kernel

/-- FINDING. `-d` replaces the directories of the environment, although the help says that it adds to them. -/
theorem C90_paths_counterexample :
    get [] (fun s => s.store.dirs) (parse (world []) 3 (args ["-d", "x"]) (start (world []) "y".toList (args ["-d", "x"]) 4)) = ["x".toList] := by decide +kernel

/-! ## C91 -/

/-- FINDING. A definition that inherits from itself is loaded for ever. -/
theorem C91_cycle_counterexample (fuel : Nat) (s : Store) :
    load (world [("lib/a.def.json", object [("inherits", text "a")])]) ⟨false, false⟩ fuel .global "lib/a.def.json".toList
      { s with dirs := "lib".toList :: s.dirs } = .diverge := by
  induction fuel generalizing s with
  | zero => rfl
  | succ n ih =>
    have h := ih { s with dirs := s.dirs ++ ["lib".toList] }
    unfold load
    rw [show (world [("lib/a.def.json", object [("inherits", text "a")])]).file "lib/a.def.json".toList =
      some (some (.obj (fields [("inherits", text "a")]))) from rfl]
    dsimp only
    unfold loadDocument
    have hp : loadParent (world [("lib/a.def.json", object [("inherits", text "a")])])
        (load (world [("lib/a.def.json", object [("inherits", text "a")])]) ⟨false, false⟩ n) (fields [("inherits", text "a")]) .global
        { scene := s.scene, dirs := "lib".toList :: s.dirs ++ ["lib".toList] } = .diverge := by
      unfold loadParent
      rw [show (fields [("inherits", text "a")]).find "inherits".toList = some (.str "a".toList) from rfl]
      dsimp only
      rw [show findDefinition (world [("lib/a.def.json", object [("inherits", text "a")])]) ("lib".toList :: s.dirs ++ ["lib".toList]) "a".toList =
        some "lib/a.def.json".toList from rfl]
      exact h
    have hpar : (world [("lib/a.def.json", object [("inherits", text "a")])]).parentPath "lib/a.def.json".toList = "lib".toList := rfl
    rw [hpar, hp]
    rfl

/-- FINDING. The directory of the file on the command line is asked last. -/
theorem C91_directory_counterexample :
    findDefinition (world [("top/a.def.json", .null), ("lib/a.def.json", .null)]) (["top".toList] ++ ["lib".toList]) "a".toList =
      some "top/a.def.json".toList := by decide +kernel

/-- FINDING. A document that is no object is undefined. -/
theorem C91_document_counterexample :
    isUb (slice (world [("m.json", .arr .nil)]) 3 [] (args ["-j", "m.json"])) = true ∧
    isUb (slice (world [("m.json", object [("settings", object [("a", object [("children", .null)])])])]) 3 [] (args ["-j", "m.json"])) = true := by decide +kernel

/-- FINDING. The definition of an extruder that is not found is ignored. -/
theorem C91_extruder_counterexample :
    isOk (slice (world [("m.json", object [("metadata", object [("machine_extruder_trains", object [("0", text "lost")])]),
      ("settings", object [("machine_extruder_count", dflt (text "1"))])])]) 3 [] (args ["-j", "m.json"])) = true := by decide +kernel

/-! ## C92 -/

example : ∃ m : Int, (toText (.num (1 / 8))).bind Text.Spec.parseDecimal = some (m, 6) ∧ |(m : ℚ) / 10 ^ 6 - 1 / 8| ≤ 1 / 2 / 10 ^ 6 :=
  C92_number_partial (1 / 8)

/-- FINDING. Small numbers become zero. -/
theorem C92_small_counterexample : toText (.num (1 / 10 ^ 7)) = some "0.000000".toList := by decide +kernel

example : toText (.arr (.cons (.str "a".toList) (.cons (.bool true) .nil))) = some "[a,true]".toList := by decide +kernel

/-- FINDING. An element of an array that has no text gets that of the element before it. -/
theorem C92_array_counterexample :
    toText (.arr (.cons (.bool true) (.cons .null (.cons (.bool false) .nil)))) = some "[true,true,false]".toList := by decide +kernel

/-! ## C93 -/

def resolvedFile : Fields := fields [("global", object [("speed", text "60")]), ("extruder.1", object [("speed", text "40")]), ("extruder.0", object [("size", text "4")])]

theorem resolvedFile_plain : PlainParts resolvedFile := by
  intro x hx
  simp only [resolvedFile, fields, Fields.list, List.mem_cons, List.not_mem_nil, or_false] at hx
  rcases hx with rfl | rfl | rfl
  · exact ⟨⟨_, rfl⟩, .inl rfl⟩
  · exact ⟨⟨_, rfl⟩, .inr ⟨1, by decide, by simp [Text.digits, Text.dig]⟩⟩
  · exact ⟨⟨_, rfl⟩, .inr ⟨0, by decide, by simp [Text.digits, Text.dig]⟩⟩

example (s : State) : ∃ s', resolvedOption (world [("r.json", .obj resolvedFile)]) "r.json".toList s = .ok s' ∧
    s'.store.scene.global "speed".toList = some "60".toList ∧ 1 < s'.store.scene.extruders.length ∧
    ∀ e, s'.store.scene.extruders[1]? = some e → e.env "speed".toList = some "40".toList := by
  obtain ⟨s', h1, h2, h3, h4, -⟩ := C93_values_partial (w := world [("r.json", .obj resolvedFile)]) (f := "r.json".toList) (fs := resolvedFile) (s := s) rfl
    resolvedFile_plain fun l => List.Perm.refl l
  refine ⟨s', h1, by rw [h2]; rfl, h4 1 ?_, fun e he => ?_⟩
  · rw [show Text.digits 1 = ['1'] by simp [Text.digits, Text.dig]]; rfl
  · rw [h3 1 e he, show Text.digits 1 = ['1'] by simp [Text.digits, Text.dig]]; rfl

/-- FINDING. The settings of a model in the file are given to its group: models behind it have them as well. -/
theorem C93_models_counterexample :
    get (false, none) (fun j => (j.scene.groups.all fun g => g.meshes.all fun m => (m.env "speed".toList).isNone, (j.scene.groups[0]?).bind fun g => g.env "speed".toList))
      (slice (world [("r.json", object [("global", object [("mesh_rotation_matrix", text "r"), ("extruder_nr", text "0")]),
        ("a.stl", object [("speed", text "10")]), ("b.stl", object [])])]) 3 [] (args ["-r", "r.json"])) = (true, some "10".toList) := by decide +kernel

/-- FINDING. The numbers of new extruders depend on the order of a hash table: extruder 1 has the number 2 here. -/
theorem C93_numbers_counterexample :
    get [] (fun j => j.scene.extruders.map (·.nr)) (slice (world [("r.json", object [("extruder.2", object []), ("extruder.1", object [])])]) 3 []
      (args ["-v", "-v", "-v", "-r", "r.json"])) = [0, 2, 2] ∧
    get [] (fun j => j.scene.extruders.map (·.nr)) (slice (world [("r.json", object [("extruder.1", object []), ("extruder.2", object [])])]) 3 []
      (args ["-v", "-v", "-v", "-r", "r.json"])) = [0, 1, 2] := by decide +kernel

/-- FINDING. A setting that is limited to an extruder that does not exist is undefined. -/
theorem C93_limit_counterexample :
    isUb (slice (world [("r.json", object [("limit_to_extruder", object [("speed", text "extruder.5")])])]) 3 [] (args ["-r", "r.json"])) = true := by decide +kernel

/-! ## C94 -/

example : ∃ f0 code, code ≠ 0 ∧ ∀ fuel, f0 ≤ fuel → slice w fuel [] (commandLine items ++ ["-l".toList, "none.stl".toList]) = .exit code :=
  C94_refused_partial (.inl ⟨rfl, rfl⟩) items_ok (by decide +kernel) (.model (by decide +kernel))

example : ∃ f0 code, code ≠ 0 ∧ ∀ fuel, f0 ≤ fuel → slice w fuel [] (commandLine items ++ ["-j".toList, "bad.json".toList, "-v".toList]) = .exit code :=
  C94_refused_partial (.inl ⟨rfl, rfl⟩) items_ok (by decide +kernel) (.parent (fs := fields [("inherits", text "lost")]) rfl (id := "lost".toList) rfl (by
    unfold FindsNone; decide +kernel))

/-- FINDING. An option of the browser version without value reads behind the arguments. -/
theorem C94_callback_counterexample : isUb (slice (world []) 3 [] (args ["--progress_cb"])) = true := by decide +kernel

/-- FINDING. A number that is missing ends the program by an exception that nothing catches. -/
theorem C94_number_counterexample : isThrows (slice (world []) 3 [] (args ["-e"])) = true ∧ isThrows (slice (world []) 3 [] (args ["-m"])) = true := by
  decide +kernel

/-- FINDING. Unknown options with two dashes are accepted. -/
theorem C94_unknown_counterexample : isOk (slice (world []) 3 [] (args ["--out", "-v"])) = true := by decide +kernel

end Verif.Cli.Cases
