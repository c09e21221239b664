import Verif.Basic

/-! # Model of setting containers (src/settings/Settings.cpp, include/settings/Settings.h)

Containers are numbered; a container holds its own values and optionally a pointer to a parent container.
`limit_to_extruder` maps a key to the container of an extruder train. Keys and values are strings.
The recursion of `get`/`getWithoutLimiting`/`has` is not structurally bounded: it runs with fuel, and `diverge` is the
result of running out (C++: stack overflow). -/

namespace Verif.Settings
open Verif

/-- `Settings`, Settings.h:41-180: the fields `settings` and `parent`. -/
structure Container where
  own : String → Option String
  parent : Option Nat

/-- The containers of a slice together with `Scene::limit_to_extruder`, Scene.h:29. -/
structure World where
  box : Nat → Container
  limit : String → Option Nat

/-- What a lookup ends with: a value, or `std::exit(2)` (Settings.cpp:86, 911). -/
inductive Answer where
  | value (v : String)
  | exit2
  deriving DecidableEq, Repr

mutual
/-- `Settings::get<std::string>`, Settings.cpp:65-87. -/
def get (w : World) : Nat → Nat → String → Outcome Answer
  | 0, _, _ => .diverge
  | fuel + 1, c, key =>
    match (w.box c).own key with
    | some v => .ok (.value v)
    | none =>
      match w.limit key with
      | some e => getWithoutLimiting w fuel e key
      | none =>
        match (w.box c).parent with
        | some p => get w fuel p key
        | none => .ok .exit2

/-- `Settings::getWithoutLimiting`, Settings.cpp:899-914. Note that the parent is asked with `get`, which limits
again. -/
def getWithoutLimiting (w : World) : Nat → Nat → String → Outcome Answer
  | 0, _, _ => .diverge
  | fuel + 1, c, key =>
    match (w.box c).own key with
    | some v => .ok (.value v)
    | none =>
      match (w.box c).parent with
      | some p => get w fuel p key
      | none => .ok .exit2
end

/-- `Settings::has`, Settings.cpp:872-892. -/
def has (w : World) : Nat → Nat → String → Bool → Outcome Bool
  | 0, _, _, _ => .diverge
  | fuel + 1, c, key, parentLookup =>
    if ((w.box c).own key).isSome || !parentLookup then .ok ((w.box c).own key).isSome
    else
      match w.limit key with
      | some e => has w fuel e key parentLookup
      | none =>
        match (w.box c).parent with
        | some p => has w fuel p key parentLookup
        | none => .ok false

/-- `Settings::add`, Settings.cpp:43-53. -/
def World.add (w : World) (c : Nat) (key value : String) : World :=
  { w with box := fun i => if i = c then { w.box i with own := fun k => if k = key then some value else (w.box i).own k }
                           else w.box i }

/-- `Settings::remove`, Settings.cpp:55-62. -/
def World.remove (w : World) (c : Nat) (key : String) : World :=
  { w with box := fun i => if i = c then { w.box i with own := fun k => if k = key then none else (w.box i).own k }
                           else w.box i }

/-! ## Reading numbers and flags from the text of a setting -/

/-- White space of `atoi` (`isspace` in the C locale). -/
def isSpace (c : Char) : Bool :=
  c = ' ' || c = '\t' || c = '\n' || c = '\x0b' || c = '\x0c' || c = '\r'

/-- Digits of `atoi`. -/
def digitsVal (acc : Nat) : List Char → Nat
  | [] => acc
  | c :: cs => if '0' ≤ c ∧ c ≤ '9' then digitsVal (acc * 10 + (c.toNat - 48)) cs else acc

/-- `atoi` (values outside `int` are undefined in C and not considered here). -/
def atoi (s : List Char) : Int :=
  match s.dropWhile isSpace with
  | '-' :: cs => -(digitsVal 0 cs : Int)
  | '+' :: cs => digitsVal 0 cs
  | cs => digitsVal 0 cs

/-- `Settings::get<bool>` from the text on, Settings.cpp:107-116. -/
def asBool (s : String) : Bool :=
  if s = "on" ∨ s = "yes" ∨ s = "true" ∨ s = "True" then true else atoi s.toList ≠ 0

/-- `Settings::get<LayerIndex>` from the text on, Settings.cpp:148-152. -/
def asLayerIndex (s : String) : Int := atoi s.toList - 1

end Verif.Settings
