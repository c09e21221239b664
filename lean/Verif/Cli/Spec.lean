import Verif.Cli.Model
import Verif.Text.Spec

/-! # Specification of the command line (C90 to C94)

A command line is a list of items. What a setting applies to is determined by the items before it. -/

namespace Verif.Cli

/-! ## Definition files -/

/-- The members of an object. -/
def Fields.list : Fields → List (Str × Json)
  | .nil => []
  | .cons k v rest => (k, v) :: rest.list

/-- The elements of an array. -/
def Items.list : Items → List Json
  | .nil => []
  | .cons x xs => x :: xs.list

/-- The first member with a name. -/
def Member (fs : Fields) (name : String) (v : Json) : Prop := fs.list.lookup name.toList = some v

/-- There is no member with a name. -/
def NoMember (fs : Fields) (name : String) : Prop := fs.list.lookup name.toList = none

/-- The values that a list of settings gives, in order: settings with children stand for these, others for their default
value. What is not an object, has no default value or one that has no text is skipped. -/
inductive Gives : List (Str × Json) → List (Str × Str) → Prop
  | nil : Gives [] []
  | category {k fs cs rest a b} : Member fs "children" (.obj cs) → Gives cs.list a → Gives rest b → Gives ((k, .obj fs) :: rest) (a ++ b)
  | value {k fs v t rest b} : NoMember fs "children" → Member fs "default_value" v → toText v = some t → Gives rest b →
      Gives ((k, .obj fs) :: rest) ((k, t) :: b)
  | none {k fs rest b} : NoMember fs "children" → NoMember fs "default_value" → Gives rest b → Gives ((k, .obj fs) :: rest) b
  | strange {k fs v rest b} : NoMember fs "children" → Member fs "default_value" v → toText v = .none → Gives rest b →
      Gives ((k, .obj fs) :: rest) b
  | other {k v rest b} : (∀ fs, v ≠ .obj fs) → Gives rest b → Gives ((k, v) :: rest) b

/-- A part of a document, with the values it gives. There may be no such part. -/
inductive Section (fs : Fields) (name : String) : List (Str × Str) → Prop
  | here {o a} : Member fs name (.obj o) → Gives o.list a → Section fs name a
  | absent : (∀ o, ¬ Member fs name (.obj o)) → Section fs name []

/-- What a definition file does: a value for the container for which it is loaded (`none`) or for an extruder, or the need of
an extruder with that number. -/
inductive Effect where
  | set (extruder : Option Nat) (key value : Str)
  | need (extruder : Nat)

/-- What a file does if it is loaded for an extruder. -/
def Effect.inExtruder (n : Nat) : Effect → Effect
  | .set none k v => .set (some n) k v
  | e => e

/-- The file of a definition: the first that exists in the directories. -/
def Finds (w : World) (dirs : List Str) (id file : Str) : Prop :=
  ∃ before dir after, dirs = before ++ dir :: after ∧ file = w.join dir (id ++ ".def.json".toList) ∧ w.file file ≠ none ∧
    ∀ d ∈ before, w.file (w.join d (id ++ ".def.json".toList)) = none

/-- No directory has a file for the definition. -/
def FindsNone (w : World) (dirs : List Str) (id : Str) : Prop := ∀ d ∈ dirs, w.file (w.join d (id ++ ".def.json".toList)) = none

/-- The extruders of a document. -/
inductive TrainList (fs : Fields) : List (Str × Json) → Prop
  | here {md tr} : Member fs "metadata" (.obj md) → Member md "machine_extruder_trains" (.obj tr) → TrainList fs tr.list
  | noTrains {md} : Member fs "metadata" (.obj md) → (∀ tr, ¬ Member md "machine_extruder_trains" (.obj tr)) → TrainList fs []
  | noMetadata : (∀ md, ¬ Member fs "metadata" (.obj md)) → TrainList fs []

mutual
/-- What loading a file does, with the directories that are searched before and after: first what the file does from which it
inherits, then the files of its extruders, then its own settings, then its overrides. -/
inductive Loads (w : World) : List Str → Str → List Effect → List Str → Prop
  | file {dirs path fs e1 d1 trains e2 d2 a b} : w.file path = some (some (.obj fs)) →
      Inherits w (dirs ++ [w.parentPath path]) fs e1 d1 → TrainList fs trains → Trains w d1 trains e2 d2 →
      Section fs "settings" a → Section fs "overrides" b →
      Loads w dirs path (e1 ++ e2 ++ (a ++ b).map fun x => Effect.set none x.1 x.2) d2
/-- What the file does from which a document inherits, if there is one. -/
inductive Inherits (w : World) : List Str → Fields → List Effect → List Str → Prop
  | none {dirs fs} : (∀ id, ¬ Member fs "inherits" (.str id)) → Inherits w dirs fs [] dirs
  | some {dirs fs id p e d} : Member fs "inherits" (.str id) → Finds w dirs id p → Loads w dirs p e d → Inherits w dirs fs e d
/-- What the extruders of a document do. -/
inductive Trains (w : World) : List Str → List (Str × Json) → List Effect → List Str → Prop
  | nil {dirs} : Trains w dirs [] [] dirs
  | negative {dirs k v rest e d} : Settings.atoi k < 0 → Trains w dirs rest e d → Trains w dirs ((k, v) :: rest) e d
  | file {dirs k n id p e d rest e' d'} : Settings.atoi k = (n : Nat) → Finds w dirs id p → Loads w dirs p e d →
      Trains w d rest e' d' → Trains w dirs ((k, .str id) :: rest) (.need n :: e.map (Effect.inExtruder n) ++ e') d'
  | missing {dirs k n id rest e' d'} : Settings.atoi k = (n : Nat) → FindsNone w dirs id →
      Trains w dirs rest e' d' → Trains w dirs ((k, .str id) :: rest) (.need n :: e') d'
  | other {dirs k n v rest e' d'} : Settings.atoi k = (n : Nat) → (∀ id, v ≠ .str id) →
      Trains w dirs rest e' d' → Trains w dirs ((k, v) :: rest) (.need n :: e') d'
end

/-- The values of a file that has no extruders: those of the file from which it inherits, then its settings, then its overrides. -/
inductive Chain (w : World) : List Str → Str → List (Str × Str) → Prop
  | root {dirs path fs a b} : w.file path = some (some (.obj fs)) → (∀ id, ¬ Member fs "inherits" (.str id)) → TrainList fs [] →
      Section fs "settings" a → Section fs "overrides" b → Chain w dirs path (a ++ b)
  | child {dirs path fs id p base a b} : w.file path = some (some (.obj fs)) → Member fs "inherits" (.str id) →
      Finds w (dirs ++ [w.parentPath path]) id p → Chain w (dirs ++ [w.parentPath path]) p base → TrainList fs [] →
      Section fs "settings" a → Section fs "overrides" b → Chain w dirs path (base ++ a ++ b)

/-! ## Items -/

inductive Item where
  | setting (key value : Str)
  | extruder (n : Nat)
  | model (file : Str)
  | group
  | next
  | definition (file : Str)
  | output (file : Str)
  | verbose
  | search (paths : List Str)

/-- How an item is written. -/
def Item.write : Item → List Str
  | .setting k v => ["-s".toList, k ++ '=' :: v]
  | .extruder n => ["-e".toList ++ Text.digits n]
  | .model f => ["-l".toList, f]
  | .group => ["-g".toList]
  | .next => ["--next".toList]
  | .definition f => ["-j".toList, f]
  | .output f => ["-o".toList, f]
  | .verbose => ["-v".toList]
  | .search paths => ["-d".toList, List.intercalate ":".toList paths]

/-- What a setting can apply to: everything, an extruder, a group of models (numbered from 0), or a model of a group. -/
inductive Owner where
  | general
  | extruder (n : Nat)
  | group (g : Nat)
  | model (g j : Nat)
  deriving DecidableEq

def Item.isNext : Item → Bool
  | .next => true
  | _ => false

def Item.isModel : Item → Bool
  | .model _ => true
  | _ => false

/-- Items after which settings apply to something else. -/
def Item.selects : Item → Bool
  | .extruder _ | .model _ | .group | .next => true
  | _ => false

def Item.extruder? : Item → Option Nat
  | .extruder n => some n
  | _ => none

/-- The group that models belong to after the items. -/
def groupAfter (pre : List Item) : Nat := pre.countP Item.isNext

/-- How many models this group has so far. -/
def modelsAfter (pre : List Item) : Nat := (pre.reverse.takeWhile fun i => !i.isNext).countP Item.isModel

/-- What settings apply to after the items: it is determined by the last one that selects something. -/
def owner (pre : List Item) : Owner :=
  match pre.reverse.find? Item.selects with
  | some (.extruder n) => .extruder n
  | some (.model _) => .model (groupAfter pre) (modelsAfter pre - 1)
  | some .group => .group (groupAfter pre)
  | some .next => .group (groupAfter pre)
  | _ => .general

/-- The extruder for models after the items: the last one that was named. -/
def extruderAfter (pre : List Item) : Nat := (pre.reverse.findSome? Item.extruder?).getD 0

/-- A value for a setting of an owner. -/
abbrev Assignment := Owner × Str × Str

/-- What is collected from all items, each with the items before it. -/
def collect {α : Type} (f : List Item → Item → List α) : List Item → List Item → List α
  | _, [] => []
  | pre, i :: rest => f pre i ++ collect f (pre ++ [i]) rest

/-- A value from a definition file for an owner. -/
def Effect.assignment (o : Owner) : Effect → Option Assignment
  | .set none k v => some (o, k, v)
  | .set (some n) k v => some (.extruder n, k, v)
  | .need _ => none

/-- The values that an item gives; `defs` says what definition files do. An extruder knows its number. -/
def given (defs : Str → List Effect) (pre : List Item) : Item → List Assignment
  | .setting k v => [(owner pre, k, v)]
  | .extruder n => [(.extruder n, "extruder_nr".toList, Text.digits n)]
  | .definition f => (defs f).filterMap (Effect.assignment (owner pre)) ++
    match owner pre with
    | .extruder n => [(.extruder n, "extruder_nr".toList, Text.digits n)]
    | _ => []
  | _ => []

def assignments (defs : Str → List Effect) (items : List Item) : List Assignment := collect (given defs) [] items

/-- The value of a setting of an owner: the last one that was given. -/
def valueOf (asgs : List Assignment) (o : Owner) (k : Str) : Option Str :=
  (asgs.reverse.find? fun a => decide (a.1 = o ∧ a.2.1 = k)).map fun a => a.2.2

/-- The number at the beginning of a text. -/
def leadingNumber (t : Str) : Nat := (Text.Spec.natFrom 0 (t.takeWhile fun c => decide ('0' ≤ c ∧ c ≤ '9'))).getD 0

def Effect.needed : Effect → Option Nat
  | .need n => some (n + 1)
  | _ => none

/-- The text of the setting that says how many extruders the machine has, after an item. -/
def machineCount (defs : Str → List Effect) (pre : List Item) (i : Item) : Option Str :=
  valueOf (assignments defs (pre ++ [i])) .general "machine_extruder_count".toList

/-- How many extruders an item needs. -/
def needed (defs : Str → List Effect) (pre : List Item) : Item → List Nat
  | .extruder n => [n + 1]
  | .definition f => (defs f).filterMap Effect.needed ++
    match owner pre with
    | .general => [leadingNumber ((machineCount defs pre (.definition f)).getD [])]
    | _ => []
  | _ => []

/-- How many extruders there are. -/
def extruderCount (defs : Str → List Effect) (items : List Item) : Nat := (collect (needed defs) [] items).foldl max 1

/-- A model: its group, its file, its extruder and the rotation of its file. -/
structure ModelSpec where
  group : Nat
  file : Str
  extruder : Nat
  rotation : Option Str

/-- A value that is looked up before slicing: own values, then those of the extruder (for a model, given by `ex`), then the
general ones. -/
def lookedUp (asgs : List Assignment) (o : Owner) (ex : Nat) (k : Str) : Option Str :=
  match o with
  | .model _ _ => ((valueOf asgs o k).or (valueOf asgs (.extruder ex) k)).or (valueOf asgs .general k)
  | _ => (valueOf asgs o k).or (valueOf asgs .general k)

/-- Which rotation a model gets: that of what is selected when it is loaded. -/
def rotationAfter (defs : Str → List Effect) (pre : List Item) : Option Str :=
  lookedUp (assignments defs pre) (owner pre) (extruderAfter pre) "mesh_rotation_matrix".toList

/-- The model of an item. -/
def modelOf (defs : Str → List Effect) (pre : List Item) : Item → List ModelSpec
  | .model f => [⟨groupAfter pre, f, extruderAfter pre, rotationAfter defs pre⟩]
  | _ => []

def models (defs : Str → List Effect) (items : List Item) : List ModelSpec := collect (modelOf defs) [] items

/-- An item that makes sense behind the items before it, with the directories that are searched before and after. Extruders come
one after the other. -/
def ItemOk (w : World) (defs : Str → List Effect) (pre : List Item) (dirs dirs' : List Str) : Item → Prop
  | .setting k _ => '=' ∉ k ∧ dirs' = dirs
  | .extruder n => n < 2 ^ 64 ∧ n ≤ extruderCount defs pre ∧ dirs' = dirs
  | .model f => w.mesh f = true ∧ rotationAfter defs pre ≠ none ∧ dirs' = dirs
  | .definition f => Loads w dirs f (defs f) dirs' ∧
      (owner pre = .general → ∃ t, machineCount defs pre (.definition f) = some t ∧ (∃ c r, t = c :: r ∧ '0' ≤ c ∧ c ≤ '9') ∧
        leadingNumber t < 2 ^ 64)
  | .output f => w.writable f = true ∧ dirs' = dirs
  | .search paths => paths ≠ [] ∧ (∀ p ∈ paths, ':' ∉ p) ∧ dirs' = paths
  | _ => dirs' = dirs

/-- All items make sense; `dirs` and `dirs'` are searched before and after them. -/
def ItemsOk (w : World) (defs : Str → List Effect) (dirs' : List Str) : List Item → List Str → List Item → Prop
  | _, dirs, [] => dirs' = dirs
  | pre, dirs, i :: rest => ∃ d, ItemOk w defs pre dirs d i ∧ ItemsOk w defs dirs' (pre ++ [i]) d rest

/-- The directories in the environment of the program. -/
def SearchPath (env : Str) (dirs : List Str) : Prop :=
  (env = [] ∧ dirs = []) ∨ (env ≠ [] ∧ dirs ≠ [] ∧ (∀ p ∈ dirs, ':' ∉ p) ∧ env = List.intercalate ":".toList dirs)

/-- The file for the result after the items: the last that was named. -/
def outputAfter (items : List Item) : Option Str := items.reverse.findSome? fun
  | .output f => some f
  | _ => none

/-- The command line of the items. -/
def commandLine (items : List Item) : List Str := items.flatMap Item.write

/-- The scene is as the items say. -/
structure Describes (defs : Str → List Effect) (items : List Item) (s : Scene) : Prop where
  general : ∀ k, s.global k = valueOf (assignments defs items) .general k
  count : s.extruders.length = extruderCount defs items
  extruder : ∀ n e, s.extruders[n]? = some e → e.nr = n ∧ ∀ k, e.env k = valueOf (assignments defs items) (.extruder n) k
  groups : groupAfter items < s.groups.length
  group : ∀ g grp, s.groups[g]? = some grp → (∀ k, grp.env k = valueOf (assignments defs items) (.group g) k) ∧
    grp.meshes.map (fun m => (⟨g, m.file, m.parent.i, some m.rotation⟩ : ModelSpec)) =
      (models defs items).filter (fun m => m.group = g) ∧
    ∀ j m, grp.meshes[j]? = some m → ∀ k, m.env k = valueOf (assignments defs items) (.model g j) k

/-! ## Command lines that are refused -/

/-- Arguments that make no sense behind the items, where `dirs` are the directories that are searched: a value is missing, the
option does not exist, a file cannot be used. -/
inductive Refused (w : World) (defs : Str → List Effect) (items : List Item) (dirs : List Str) : List Str → Prop
  | missing {a} : a ∈ ["-d".toList, "-j".toList, "-l".toList, "-o".toList, "-s".toList, "-r".toList] → Refused w defs items dirs [a]
  | word {a rest} : a.head? ≠ some '-' → Refused w defs items dirs (a :: rest)
  | dash {rest} : Refused w defs items dirs (['-'] :: rest)
  | option {c r rest} : c ∉ "-vmpdjelogsr".toList → Refused w defs items dirs (('-' :: c :: r) :: rest)
  | noValue {t rest} : '=' ∉ t → Refused w defs items dirs ("-s".toList :: t :: rest)
  | model {f rest} : w.mesh f = false → Refused w defs items dirs ("-l".toList :: f :: rest)
  | rotation {f rest} : rotationAfter defs items = none → Refused w defs items dirs ("-l".toList :: f :: rest)
  | output {f rest} : w.writable f = false → Refused w defs items dirs ("-o".toList :: f :: rest)
  | definition {f rest} : w.file f = none ∨ w.file f = some none → Refused w defs items dirs ("-j".toList :: f :: rest)
  | parent {f rest fs id} : w.file f = some (some (.obj fs)) → Member fs "inherits" (.str id) →
      FindsNone w (dirs ++ [w.parentPath f]) id → Refused w defs items dirs ("-j".toList :: f :: rest)
  | resolved {f rest} : (∀ fs, w.file f ≠ some (some (.obj fs))) → Refused w defs items dirs ("-r".toList :: f :: rest)

/-! ## Resolved settings -/

/-- The value of a setting in a part of the file: the first that has a text. -/
def partValue (fs : Fields) (k : Str) : Option Str := fs.list.findSome? fun x => if x.1 = k then toText x.2 else none

/-- The value of a setting in the part with a name. -/
def resolved (fs : Fields) (part k : Str) : Option Str :=
  match fs.list.lookup part with
  | some (.obj p) => partValue p k
  | _ => none

/-- The file has parts for everything and for extruders only. -/
def PlainParts (fs : Fields) : Prop :=
  ∀ x ∈ fs.list, (∃ p, x.2 = .obj p) ∧ (x.1 = "global".toList ∨ ∃ n < 2 ^ 31, x.1 = "extruder.".toList ++ Text.digits n)

end Verif.Cli
