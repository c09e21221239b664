import Verif.Settings.Model
import Verif.Text.Round

/-! # The command line

Models `CommandLine::sliceNext`, `loadJSON`, `loadJSONSettings`, `jsonValue2Str`, `readResolvedJsonValues` and
`findDefinitionFile` (src/communication/CommandLine.cpp). Texts are lists of characters without NUL. The file system, the
parser of JSON and the loading of models are parameters; definitions of the platform (the separator of paths) are those of Linux.
Log messages are not modelled. -/

namespace Verif.Cli

abbrev Str := List Char

/-! ## What a run can end with -/

/-- `exit` ends the program with a code, `throws` by an exception that nothing catches (std::terminate). -/
inductive Run (α : Type) where
  | ok (a : α)
  | exit (code : Nat)
  | throws
  | ub
  | diverge

namespace Run

def bind {α β : Type} (x : Run α) (f : α → Run β) : Run β :=
  match x with
  | ok a => f a
  | exit c => exit c
  | throws => throws
  | ub => ub
  | diverge => diverge

instance : Monad Run where
  pure := ok
  bind := bind

@[simp] theorem bind_ok {α β : Type} (a : α) (f : α → Run β) : (ok a >>= f) = f a := rfl
@[simp] theorem bind_exit {α β : Type} (c : Nat) (f : α → Run β) : ((exit c : Run α) >>= f) = exit c := rfl
@[simp] theorem bind_throws {α β : Type} (f : α → Run β) : ((throws : Run α) >>= f) = throws := rfl
@[simp] theorem bind_ub {α β : Type} (f : α → Run β) : ((ub : Run α) >>= f) = ub := rfl
@[simp] theorem bind_diverge {α β : Type} (f : α → Run β) : ((diverge : Run α) >>= f) = diverge := rfl
@[simp] theorem pure_eq {α : Type} (a : α) : (pure a : Run α) = ok a := rfl

instance : LawfulMonad Run := LawfulMonad.mk'
  (id_map := fun x => by cases x <;> rfl)
  (pure_bind := fun _ _ => rfl)
  (bind_assoc := fun x _ _ => by cases x <;> rfl)

end Run

/-! ## JSON -/

mutual
/-- A JSON value; numbers are what they are as double. -/
inductive Json where
  | null
  | bool (b : Bool)
  | num (q : Rat)
  | str (s : Str)
  | arr (xs : Items)
  | obj (fs : Fields)
/-- The elements of an array. -/
inductive Items where
  | nil
  | cons (x : Json) (xs : Items)
/-- The members of an object, in their order. -/
inductive Fields where
  | nil
  | cons (key : Str) (value : Json) (rest : Fields)
end

/-- `HasMember` and `operator[]` of rapidjson: the first member with that name. -/
def Fields.find (name : Str) : Fields → Option Json
  | .nil => none
  | .cons k v rest => if k = name then some v else rest.find name

/-- `std::to_string(double)`, which is `%f` (CommandLine.cpp:608). -/
def realText (q : Rat) : Str := Text.fmtFixed (decide (q < 0)) 6 (Text.roundHalfEven (|q| * 10 ^ 6)).toNat

mutual
/-- `jsonValue2Str` (CommandLine.cpp:592-636); `none` if it returns false. -/
def toText : Json → Option Str
  | .str s => some s
  | .bool true => some "true".toList
  | .bool false => some "false".toList
  | .num q => some (realText q)
  | .arr xs => some (itemsText xs)
  | .null => none
  | .obj _ => none
/-- An array (CommandLine.cpp:610-629). -/
def itemsText : Items → Str
  | .nil => "[]".toList
  | .cons x xs => '[' :: (((toText x).getD []) ++ restText ((toText x).getD []) xs)
/-- The elements behind the first (CommandLine.cpp:620-628), with `temp`, which keeps its text if an element has none. -/
def restText : Str → Items → Str
  | _, .nil => [']']
  | temp, .cons x xs => ',' :: (((toText x).getD temp) ++ restText ((toText x).getD temp) xs)
end

/-! ## The scene -/

/-- Own values of a settings container, `Settings::settings` (include/settings/Settings.h). -/
abbrev Env := Str → Option Str

/-- `Settings::add` (src/settings/Settings.cpp). -/
def Env.add (e : Env) (key value : Str) : Env := fun k => if k = key then some value else e k

def Env.empty : Env := fun _ => none

/-- `ExtruderTrain` (include/ExtruderTrain.h). -/
structure Extruder where
  nr : Nat
  env : Env

/-- A pointer to an extruder: its index, and how often the vector had been moved in memory when the pointer was made. It is
valid as long as the vector has not been moved again. -/
structure Ref where
  gen : Nat
  i : Nat
  deriving DecidableEq

/-- A mesh as `loadMeshIntoMeshGroup` makes it (src/MeshGroup.cpp): its file, the text of its rotation, and the extruder that is the parent of its settings. -/
structure Mesh where
  file : Str
  rotation : Str
  parent : Ref
  env : Env

/-- `MeshGroup` (include/MeshGroup.h); `gen` and `cap` are how often its vector of meshes was moved and its capacity. -/
structure Group where
  env : Env
  meshes : List Mesh
  gen : Nat
  cap : Nat

/-- `Scene` (include/Scene.h). -/
structure Scene where
  global : Env
  extruders : List Extruder
  gen : Nat
  cap : Nat
  groups : List Group
  limit : Str → Option Ref

/-- What the pointer `last_settings` points to. -/
inductive Target where
  | global
  | extruder (r : Ref)
  | group (g : Nat)
  | mesh (g : Nat) (r : Ref)
  deriving DecidableEq

/-- What is around the program: `file` is the content of a file, `none` if it cannot be opened and `some none` if it is not
JSON; `mesh` whether a model can be loaded, `writable` whether a file can be opened for output. `parentPath` and `join` are
`parent_path` and `/` of std::filesystem. `grow` is the capacity of a vector after it was moved to get more than the given
one. `order` is the order in which an unordered map is iterated. -/
structure World where
  file : Str → Option (Option Json)
  mesh : Str → Bool
  writable : Str → Bool
  parentPath : Str → Str
  join : Str → Str → Str
  grow : Nat → Nat
  order : List (Str × List (Str × Str)) → List (Str × List (Str × Str))

/-- `extruders.emplace_back` (CommandLine.cpp:125, 241, 256, 418, 567). -/
def Scene.push (w : World) (s : Scene) (nr : Nat) : Scene :=
  if s.extruders.length < s.cap then { s with extruders := s.extruders ++ [⟨nr, Env.empty⟩] }
  else { s with extruders := s.extruders ++ [⟨nr, Env.empty⟩], gen := s.gen + 1, cap := w.grow s.cap }

/-- So many times `emplace_back`, with the given number (CommandLine.cpp:254-257, 416-419). -/
def Scene.pushes (w : World) (nr : Nat) : Nat → Scene → Scene
  | 0, s => s
  | n + 1, s => Scene.pushes w nr n (s.push w nr)

/-- So many times `emplace_back`, with the size as number (CommandLine.cpp:239-242, 565-568). -/
def Scene.extend (w : World) : Nat → Scene → Scene
  | 0, s => s
  | n + 1, s => Scene.extend w n (s.push w s.extruders.length)

/-- `meshes.push_back` in `loadMeshIntoMeshGroup` (src/MeshGroup.cpp). -/
def Group.push (w : World) (g : Group) (m : Mesh) : Group :=
  if g.meshes.length < g.cap then { g with meshes := g.meshes ++ [m] }
  else { g with meshes := g.meshes ++ [m], gen := g.gen + 1, cap := w.grow g.cap }

/-- `v[i]` of a vector: undefined behind its end. -/
def index {α : Type} (l : List α) (i : Nat) : Run α :=
  match l[i]? with
  | some a => .ok a
  | none => .ub

/-- A pointer to an extruder is used. -/
def Scene.extruder (s : Scene) (r : Ref) : Run Extruder := if r.gen = s.gen then index s.extruders r.i else .ub

/-- The values in a container. -/
def Scene.read (s : Scene) : Target → Run Env
  | .global => .ok s.global
  | .extruder r => do let e ← s.extruder r; pure e.env
  | .group g => do let g ← index s.groups g; pure g.env
  | .mesh g r => do
    let g ← index s.groups g
    if r.gen = g.gen then let m ← index g.meshes r.i; pure m.env else .ub

/-- The values in a container are replaced. -/
def Scene.write (s : Scene) (t : Target) (env : Env) : Run Scene :=
  match t with
  | .global => .ok { s with global := env }
  | .extruder r => do
    let _ ← s.extruder r
    pure { s with extruders := s.extruders.modify r.i fun e => { e with env := env } }
  | .group g => do
    let _ ← index s.groups g
    pure { s with groups := s.groups.modify g fun g => { g with env := env } }
  | .mesh g r => do
    let _ ← s.read (.mesh g r)
    pure { s with groups := s.groups.modify g fun g => { g with meshes := g.meshes.modify r.i fun m => { m with env := env } } }

/-- `Settings::add` through a pointer (src/settings/Settings.cpp). -/
def Scene.add (s : Scene) (t : Target) (key value : Str) : Run Scene := do
  let e ← s.read t
  s.write t (e.add key value)

/-- A value, or exit code 2 if there is none (src/settings/Settings.cpp:86). -/
def found : Option Str → Run Str
  | some v => .ok v
  | none => .exit 2

/-- The last part of `Settings::get`: the parents of a container that has no value (src/settings/Settings.cpp:65-87). The
parent of extruders and groups is the scene, before anything is sliced. -/
def Scene.getParent (s : Scene) (t : Target) (key : Str) : Run Str :=
  match t with
  | .mesh g r => do
    let g ← index s.groups g
    let m ← index g.meshes r.i
    let e ← s.extruder m.parent
    match e.env key with
    | some v => pure v
    | none => found (s.global key)
  | .global => .exit 2
  | _ => found (s.global key)

/-- `Settings::get<std::string>` of a setting that is limited to an extruder (src/settings/Settings.cpp:74-77, 899-914). If
neither the extruder nor the scene has it, they ask each other for ever. -/
def Scene.getLimited (s : Scene) (r : Ref) (key : Str) : Run Str := do
  let e ← s.extruder r
  match e.env key with
  | some v => pure v
  | none => match s.global key with
    | some v => pure v
    | none => .diverge

/-- `Settings::get<std::string>` (src/settings/Settings.cpp:65-87). -/
def Scene.get (s : Scene) (t : Target) (key : Str) : Run Str := do
  let e ← s.read t
  match e key with
  | some v => pure v
  | none => match s.limit key with
    | some r => s.getLimited r key
    | none => s.getParent t key

/-! ## Numbers in arguments -/

/-- A decimal digit, as in `strtol`. -/
def isDigit (c : Char) : Bool := '0' ≤ c && c ≤ '9'

/-- The sign and the digits of `strtol`. -/
def signDigits (s : Str) : Bool × Str :=
  match s.dropWhile Settings.isSpace with
  | '-' :: r => (true, r.takeWhile isDigit)
  | '+' :: r => (false, r.takeWhile isDigit)
  | r => (false, r.takeWhile isDigit)

/-- `std::stoul`. A number with a minus wraps around. -/
def stoul (s : Str) : Run Nat :=
  match signDigits s with
  | (neg, ds) =>
    if ds = [] then .throws
    else if 2 ^ 64 ≤ Settings.digitsVal 0 ds then .throws
    else if neg then .ok ((2 ^ 64 - Settings.digitsVal 0 ds) % 2 ^ 64) else .ok (Settings.digitsVal 0 ds)

/-- `std::stoi`. -/
def stoi (s : Str) : Run Int :=
  match signDigits s with
  | (neg, ds) =>
    let n : Int := if neg then -(Settings.digitsVal 0 ds : Int) else Settings.digitsVal 0 ds
    if ds = [] then .throws
    else if n < -2 ^ 31 ∨ 2 ^ 31 ≤ n then .throws else .ok n

/-! ## Definition files -/

/-- `force_read_parent` and `force_read_nondefault` (CommandLine.cpp:128-129). -/
structure Flags where
  parent : Bool
  nondefault : Bool

/-- The value of a setting itself (CommandLine.cpp:660-683). `has` does not ask the parent. -/
def ownValue (f : Flags) (fs : Fields) (name : Str) (env : Env) : Env :=
  match fs.find "default_value".toList with
  | some v => match toText v with
    | some t => env.add name t
    | none => env
  | none => match fs.find "value".toList with
    | some v =>
      if f.nondefault && (env name).isNone then match toText v with
        | some t => env.add name t
        | none => env
      else env
    | none => env

mutual
/-- One setting of `loadJSONSettings` (CommandLine.cpp:642-683). -/
def setting (f : Flags) (name : Str) : Json → Env → Run Env
  | .obj fs, env => do
    let env ← children f fs env
    if (fs.find "children".toList).isSome && !f.parent then pure env else pure (ownValue f fs name env)
  | _, env => .ok env
/-- The first member "children", if there is one (CommandLine.cpp:651-653). -/
def children (f : Flags) : Fields → Env → Run Env
  | .nil, env => .ok env
  | .cons k v rest, env => if k = "children".toList then settings f v env else children f rest env
/-- `loadJSONSettings` (CommandLine.cpp:638-685). The members of something that is no object are asked for: undefined. -/
def settings (f : Flags) : Json → Env → Run Env
  | .obj fs, env => members f fs env
  | _, _ => .ub
/-- The loop of `loadJSONSettings` (CommandLine.cpp:640-684). -/
def members (f : Flags) : Fields → Env → Run Env
  | .nil, env => .ok env
  | .cons k v rest, env => do let env ← setting f k v env; members f rest env
end

/-- The scene and `search_directories_`. -/
structure Store where
  scene : Scene
  dirs : List Str

/-- `findDefinitionFile` (CommandLine.cpp:736-747). A file exists if it can be opened. -/
def findDefinition (w : World) (dirs : List Str) (id : Str) : Option Str :=
  (dirs.map fun d => w.join d (id ++ ".def.json".toList)).find? fun c => (w.file c).isSome

/-- `loadJSONSettings` of a member, if there is one that is an object, into a container (CommandLine.cpp:581-588). Even if
there are no values to write, a container that does not exist any more is undefined here. -/
def loadSection (f : Flags) (name : Str) (fs : Fields) (t : Target) (s : Store) : Run Store :=
  match fs.find name with
  | some (.obj o) => do
    let env ← s.scene.read t
    let env ← members f o env
    let scene ← s.scene.write t env
    pure { s with scene := scene }
  | _ => .ok s

/-- One member of "machine_extruder_trains" (CommandLine.cpp:560-576). `load` loads a file into a container. The file of an
extruder that is not found is loaded under an empty name, which fails and is ignored. -/
def loadTrain (w : World) (load : Target → Str → Store → Run (Bool × Store)) (name : Str) (v : Json) (s : Store) : Run Store :=
  let nr := Settings.atoi name
  if nr < 0 then .ok s
  else
    let s := { s with scene := s.scene.extend w (nr.toNat + 1 - s.scene.extruders.length) }
    match v with
    | .str id => match findDefinition w s.dirs id with
      | some p => do let r ← load (.extruder ⟨s.scene.gen, nr.toNat⟩) p s; pure r.2
      | none => .ok s
    | _ => .ok s

/-- The loop over "machine_extruder_trains" (CommandLine.cpp:558-577). -/
def loadTrains (w : World) (load : Target → Str → Store → Run (Bool × Store)) : Fields → Store → Run Store
  | .nil, s => .ok s
  | .cons k v rest, s => do let s ← loadTrain w load k v s; loadTrains w load rest s

/-- The extruders of a document (CommandLine.cpp:548-579). -/
def loadMetadata (w : World) (load : Target → Str → Store → Run (Bool × Store)) (fs : Fields) (s : Store) : Run Store :=
  match fs.find "metadata".toList with
  | some (.obj md) => match md.find "machine_extruder_trains".toList with
    | some (.obj tr) => loadTrains w load tr s
    | _ => .ok s
  | _ => .ok s

/-- The document from which another inherits (CommandLine.cpp:532-546); `false` if there is an error. -/
def loadParent (w : World) (load : Target → Str → Store → Run (Bool × Store)) (fs : Fields) (t : Target) (s : Store) : Run (Bool × Store) :=
  match fs.find "inherits".toList with
  | some (.str id) => match findDefinition w s.dirs id with
    | some p => load t p s
    | none => .ok (false, s)
  | _ => .ok (true, s)

/-- `loadJSON` of a document (CommandLine.cpp:525-590). -/
def loadDocument (w : World) (f : Flags) (load : Target → Str → Store → Run (Bool × Store)) (fs : Fields) (t : Target) (s : Store) :
    Run (Bool × Store) := do
  let r ← loadParent w load fs t s
  if r.1 then
    let s ← loadMetadata w load fs r.2
    let s ← loadSection f "settings".toList fs t s
    let s ← loadSection f "overrides".toList fs t s
    pure (true, s)
  else pure (false, r.2)

/-- `loadJSON` of a file (CommandLine.cpp:501-523), with a bound on the depth of recursion. The members of a document that is no
object are asked for: undefined. -/
def load (w : World) (f : Flags) : Nat → Target → Str → Store → Run (Bool × Store)
  | 0, _, _, _ => .diverge
  | fuel + 1, t, path, s =>
    match w.file path with
    | some (some (.obj fs)) => loadDocument w f (load w f fuel) fs t { s with dirs := s.dirs ++ [w.parentPath path] }
    | some (some _) => .ub
    | _ => .ok (false, s)

/-! ## Arguments -/

/-- The variables of `sliceNext` (CommandLine.cpp:118-129). -/
structure State where
  store : Store
  target : Target
  last : Ref
  group : Nat
  flags : Flags
  output : Option Str

/-- What an argument is (CommandLine.cpp:134-474). -/
inductive Opt where
  | next
  | forceParent
  | forceNondefault
  | endForce
  | callback
  | unknownLong
  | nothing
  | threads (text : Str)
  | paths
  | json
  | extruder (text : Str)
  | load
  | output
  | group
  | setting
  | resolved
  | bad

/-- `starts_with`. -/
def startsWith (p s : Str) : Bool := p.isPrefixOf s

/-- An argument with two dashes (CommandLine.cpp:136-186). -/
def longOption (a : Str) : Opt :=
  if startsWith "--next".toList a then .next
  else if startsWith "--force-read-parent".toList a || startsWith "--force_read_parent".toList a then .forceParent
  else if startsWith "--force-read-nondefault".toList a || startsWith "--force_read_nondefault".toList a then .forceNondefault
  else if startsWith "--end-force-read".toList a || startsWith "--end_force_read".toList a then .endForce
  else if startsWith "--progress_cb".toList a || startsWith "--slice_info_cb".toList a || startsWith "--gcode_header_cb".toList a
    || startsWith "--engine_info_cb".toList a then .callback
  else .unknownLong

/-- What an argument is (CommandLine.cpp:134-474). -/
def classify (a : Str) : Opt :=
  match a with
  | '-' :: '-' :: _ => longOption a
  | '-' :: 'v' :: _ => .nothing
  | '-' :: 'm' :: r => .threads r
  | '-' :: 'p' :: _ => .nothing
  | '-' :: 'd' :: _ => .paths
  | '-' :: 'j' :: _ => .json
  | '-' :: 'e' :: r => .extruder r
  | '-' :: 'l' :: _ => .load
  | '-' :: 'o' :: _ => .output
  | '-' :: 'g' :: _ => .group
  | '-' :: 's' :: _ => .setting
  | '-' :: 'r' :: _ => .resolved
  | _ => .bad

/-- Whether the next argument belongs to it (`argument_index++`). -/
def Opt.takesValue : Opt → Bool
  | .callback | .paths | .json | .load | .output | .setting | .resolved => true
  | _ => false

/-- `views::split_paths` on Linux (include/utils/views/split_paths.h). -/
def splitPaths : Str → List Str
  | [] => [[]]
  | c :: cs => if c = ':' then [] :: splitPaths cs else match splitPaths cs with
    | p :: ps => (c :: p) :: ps
    | [] => [[c]]

/-- After a definition file for everything there are as many extruders as the machine has (CommandLine.cpp:235-243). -/
def machineExtruders (w : World) (t : Target) (s : Scene) : Run Scene :=
  if t = .global then do
    let text ← s.get .global "machine_extruder_count".toList
    let n ← stoul text
    pure (s.extend w (n - s.extruders.length))
  else .ok s

/-- After a definition file for an extruder the extruder has its number (CommandLine.cpp:244-248). -/
def numberExtruder (t : Target) (last : Ref) (s : Scene) : Run Scene :=
  if t = .extruder last then do
    let e ← s.extruder last
    s.add t "extruder_nr".toList (Text.digits e.nr)
  else .ok s

/-- `-j` (CommandLine.cpp:220-250). The fuel bounds the nesting of definition files; the code has no bound but the stack. -/
def jsonOption (w : World) (fuel : Nat) (path : Str) (s : State) : Run State := do
  let r ← load w s.flags fuel s.target path s.store
  if r.1 then
    let scene ← machineExtruders w s.target r.2.scene
    let scene ← numberExtruder s.target s.last scene
    pure { s with store := { r.2 with scene := scene } }
  else .exit 1

/-- `-e` (CommandLine.cpp:251-262). -/
def extruderOption (w : World) (text : Str) (s : State) : Run State := do
  let nr ← stoul text
  let scene := s.store.scene.pushes w nr (nr + 1 - s.store.scene.extruders.length)
  let r : Ref := ⟨scene.gen, nr⟩
  let scene ← scene.add (.extruder r) "extruder_nr".toList text
  pure { s with store := { s.store with scene := scene }, target := .extruder r, last := r }

/-- `loadMeshIntoMeshGroup` as far as the scene is concerned (src/MeshGroup.cpp:508-576): a mesh at the end of a group. A reference to an extruder
that does not exist any more is undefined. -/
def addMesh (w : World) (scene : Scene) (g : Nat) (file rotation : Str) (parent : Ref) : Run Scene := do
  let _ ← scene.extruder parent
  let _ ← index scene.groups g
  if w.mesh file then pure { scene with groups := scene.groups.modify g fun g => g.push w ⟨file, rotation, parent, Env.empty⟩ } else .exit 1

/-- `-l` (CommandLine.cpp:263-285). -/
def loadOption (w : World) (file : Str) (s : State) : Run State := do
  let rotation ← s.store.scene.get s.target "mesh_rotation_matrix".toList
  let scene ← addMesh w s.store.scene s.group file rotation s.last
  let g ← index scene.groups s.group
  pure { s with store := { s.store with scene := scene }, target := .mesh s.group ⟨g.gen, g.meshes.length - 1⟩ }

/-- `-s` (CommandLine.cpp:315-335). -/
def settingOption (text : Str) (s : State) : Run State :=
  if '=' ∈ text then do
    let scene ← s.store.scene.add s.target (text.takeWhile (· ≠ '=')) ((text.dropWhile (· ≠ '=')).drop 1)
    pure { s with store := { s.store with scene := scene } }
  else .exit 1

/-- `-o` (CommandLine.cpp:286-308). -/
def outputOption (w : World) (file : Str) (s : State) : Run State :=
  if w.writable file then .ok { s with output := some file } else .exit 1

/-! ### Resolved settings -/

/-- `emplace` of a map: the first value counts (CommandLine.cpp:729, 731). -/
def emplace {α : Type} (m : List (Str × α)) (k : Str) (v : α) : List (Str × α) := if m.any (fun e => e.1 = k) then m else m ++ [(k, v)]

/-- The settings of one part of the file (CommandLine.cpp:720-730). -/
def resolvedValues (m : List (Str × Str)) : Fields → List (Str × Str)
  | .nil => m
  | .cons k v rest => match toText v with
    | some t => resolvedValues (emplace m k t) rest
    | none => resolvedValues m rest

/-- `readResolvedJsonValues` (CommandLine.cpp:710-734). Members of a part that is no object are asked for: undefined. -/
def resolvedParts (m : List (Str × List (Str × Str))) : Fields → Run (List (Str × List (Str × Str)))
  | .nil => .ok m
  | .cons k (.obj fs) rest => resolvedParts (emplace m k (resolvedValues [] fs)) rest
  | .cons _ _ _ => .ub

/-- All values of a part into a container (CommandLine.cpp:408-411, 420-423, 429-432). -/
def addAll (t : Target) : List (Str × Str) → Scene → Run Scene
  | [], s => .ok s
  | (k, v) :: rest, s => do let s ← s.add t k v; addAll t rest s

/-- The extruders (CommandLine.cpp:413-424). For a negative number there is no end to the new extruders until the memory is
full. -/
def resolvedExtruders (w : World) : List (Str × List (Str × Str)) → Scene → Run Scene
  | [], s => .ok s
  | (k, vs) :: rest, s => do
    let nr ← stoi (k.drop 9)
    if nr < 0 then .throws
    else
      let s := s.pushes w nr.toNat (nr.toNat + 1 - s.extruders.length)
      let s ← addAll (.extruder ⟨s.gen, nr.toNat⟩) vs s
      resolvedExtruders w rest s

/-- The models (CommandLine.cpp:426-446). -/
def resolvedModels (w : World) (folder : Str) (g : Nat) : List (Str × List (Str × Str)) → Scene → Run Scene
  | [], s => .ok s
  | (name, vs) :: rest, s => do
    let s ← addAll (.group g) vs s
    let rotation ← s.get (.group g) "mesh_rotation_matrix".toList
    let text ← s.get (.group g) "extruder_nr".toList
    let nr ← stoul text
    let s ← addMesh w s g (w.join folder name) rotation ⟨s.gen, nr⟩
    resolvedModels w folder g rest s

/-- The settings that are limited to an extruder (CommandLine.cpp:447-454). -/
def resolvedLimits : List (Str × Str) → Scene → Run Scene
  | [], s => .ok s
  | (k, v) :: rest, s =>
    if v.length < 9 then .throws
    else do
      let nr ← stoi (v.drop 9)
      if nr < 0 then resolvedLimits rest s
      else
        let r : Ref := ⟨s.gen, nr.toNat⟩
        let _ ← s.extruder r
        resolvedLimits rest { s with limit := fun key => if key = k then some r else s.limit key }

/-- Which part of the file is which (CommandLine.cpp:388-406). -/
def isExtruderPart (k : Str) : Bool := startsWith "extruder.".toList k
/-- The other parts are models (CommandLine.cpp:402-405). -/
def isModelPart (k : Str) : Bool := !(k = "global".toList || isExtruderPart k || k = "limit_to_extruder".toList)

/-- `-r` (CommandLine.cpp:336-457). -/
def resolvedOption (w : World) (path : Str) (s : State) : Run State :=
  match w.file path with
  | some (some (.obj fs)) => do
    let parts ← resolvedParts [] fs
    let scene ← addAll .global ((parts.lookup "global".toList).getD []) s.store.scene
    let scene ← resolvedExtruders w (w.order (parts.filter fun e => isExtruderPart e.1)) scene
    let scene ← resolvedModels w (w.parentPath path) s.group (w.order (parts.filter fun e => isModelPart e.1)) scene
    let scene ← resolvedLimits ((parts.lookup "limit_to_extruder".toList).getD []) scene
    pure { s with store := { s.store with scene := scene } }
  | _ => .exit 1

/-! ### The loop -/

/-- An argument that stands for itself (CommandLine.cpp:138-173, 192-207, 251-262, 309-313). -/
def plainOption (w : World) (o : Opt) (s : State) : Run State :=
  match o with
  | .next => .ok { s with group := s.group + 1, target := .group (s.group + 1) }
  | .forceParent => .ok { s with flags := { s.flags with parent := true } }
  | .forceNondefault => .ok { s with flags := { s.flags with nondefault := true } }
  | .endForce => .ok { s with flags := ⟨false, false⟩ }
  | .threads text => do let _ ← stoi text; pure s
  | .extruder text => extruderOption w text s
  | .group => .ok { s with target := .group s.group }
  | .bad => .exit 1
  | _ => .ok s

/-- An argument with the one behind it (CommandLine.cpp:174-181, 208-250, 263-308, 315-457). -/
def valueOption (w : World) (fuel : Nat) (o : Opt) (v : Str) (s : State) : Run State :=
  match o with
  | .paths => .ok { s with store := { s.store with dirs := splitPaths v } }
  | .json => jsonOption w fuel v s
  | .load => loadOption w v s
  | .output => outputOption w v s
  | .setting => settingOption v s
  | .resolved => resolvedOption w v s
  | _ => .ok s

/-- The value is missing (CommandLine.cpp:211-215 and the like): for the functions of the browser version there is no check, the read behind the last argument is
undefined. -/
def missing : Opt → Run State
  | .callback => .ub
  | _ => .exit 1

/-- The loop over the arguments (CommandLine.cpp:131-475). -/
def parse (w : World) (fuel : Nat) : List Str → State → Run State
  | [], s => .ok s
  | [a], s => if (classify a).takesValue then missing (classify a) else plainOption w (classify a) s
  | a :: v :: rest, s =>
    if (classify a).takesValue then do
      let s ← valueOption w fuel (classify a) v s
      parse w fuel rest s
    else do
      let s ← plainOption w (classify a) s
      parse w fuel (v :: rest) s

/-- The scene before the loop (CommandLine.cpp:108-125), for `n` arguments. -/
def startScene (w : World) (args : List Str) (n : Nat) : Scene := Scene.push w {
  global := Env.empty
  extruders := []
  gen := 0
  cap := n / 2
  groups := List.replicate (args.countP (startsWith "--next".toList) + 1) ⟨Env.empty, [], 0, 0⟩
  limit := fun _ => none } 0

/-- Before the loop (CommandLine.cpp:41-50, 104-129). `env` is `CURA_ENGINE_SEARCH_PATH`. -/
def start (w : World) (env : Str) (args : List Str) (n : Nat) : State where
  store := { scene := startScene w args n, dirs := if env = [] then [] else splitPaths env }
  target := .global
  last := ⟨(startScene w args n).gen, 0⟩
  group := 0
  flags := ⟨false, false⟩
  output := none

/-- Every mesh asks its extruder for settings as soon as it is sliced. -/
def Scene.sound (s : Scene) : Bool :=
  s.groups.all fun g => g.meshes.all fun m => m.parent.gen = s.gen && decide (m.parent.i < s.extruders.length)

/-- What is sliced: the scene, and which group has been finalised, that is moved to its place on the build plate
(CommandLine.cpp:477-487). -/
structure Job where
  scene : Scene
  placed : Nat
  output : Option Str

/-- `sliceNext` (CommandLine.cpp:104-499) until slicing starts, for the arguments behind the name of the program and the command. -/
def slice (w : World) (fuel : Nat) (env : Str) (args : List Str) : Run Job := do
  let s ← parse w fuel args (start w env args (args.length + 2))
  if s.store.scene.sound then pure ⟨s.store.scene, s.group, s.output⟩ else .ub

end Verif.Cli
