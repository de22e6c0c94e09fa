import Verif.Model.Base
/-!
The geometer of an instrument made with pyre: `packages/mcni/python/mcni/pyre_support/_geometer_utils.py` and `packages/mcni/python/mcni/pyre_support/Geometer.py`.

A record is any value (position and orientation).  How positions are computed from records is C18 (`Model/Geometer.lean`).
-/

namespace Verif.PyreGeo

/-- the body of `class Inventory`, `_geometer_utils.py:22-26`: the names that have a `Register`, with the name of the setting -/
abbrev Ns := String → Option String

/-- the lines `name = Register("name")`, `_geometer_utils.py:17-18`, when they are run one after the other: `Register` is looked up in the body of the class first, and a `Register` cannot be called -/
def body : Ns → List String → Except Err Ns
  | ns, [] => .ok ns
  | ns, n :: l => if (ns "Register").isSome then .error .typeError else body (fun m => if m = n then some n else ns m) l

/-- `exec(code, g)`, `_geometer_utils.py:30`: a class without a body is a syntax error (written as `runtimeError`). Simplified: names are identifiers of python, as those of `dir` are. -/
def buildInventory (names : List String) : Except Err Ns := if names = [] then .error .runtimeError else body (fun _ => none) names

/-- a geometer after `_configure`: the records, whether its `transformer` can be called, and whether `_init` prints the report, `Geometer.py:161-179` -/
structure Geo (R : Type) where
  reg : String → Option R
  callable : Bool
  dumps : Bool

variable {R : Type}

/-- `buildGeometer`, then `_configure` and `_init`, `_geometer_utils.py:15-32`, `Geometer.py:82-89, 161-179`: `user` are the settings by the user, `origin` is `default_record` (line 73), `dump` is the setting of
that name of the base class, whose transformer can be called. A name in the body hides that of the base class; a record is a pair, which cannot be called and counts as true. -/
def makeGeometer (origin : R) (names : List String) (user : String → Option R) (dump : Bool) : Except Err (Geo R) :=
  (buildInventory names).map fun ns =>
    ⟨fun n => (ns n).map fun s => (user s).getD origin, (ns "transformer").isNone, if (ns "dump").isSome then true else dump⟩

/-- a component of pyre: an identity, its name and its other names, `Geometer.py:105-115` -/
structure Comp where
  id : Nat
  name : String
  aliases : Option (List String)
  deriving DecidableEq

/-- the loop over aliases, `Geometer.py:117-122`; raising a text is a `TypeError` -/
def tryAliases (reg : String → Option R) : List String → Except Err R
  | [] => .error .typeError
  | a :: l => match reg a with
    | some r => .ok r
    | none => tryAliases reg l

/-- `_positionRecord` and `_orientationRecord` of a component, `Geometer.py:105-142`: components themselves are never keys of the registry, see line 170 -/
def record (reg : String → Option R) (c : Comp) : Except Err R :=
  match reg c.name with
  | some r => .ok r
  | none => match c.aliases with
    | none => .error .runtimeError
    | some l => tryAliases reg l

/-- `seq.index(x)`, `Geometer.py:149, 154` -/
def index {α : Type} [DecidableEq α] (x : α) : List α → Option Nat
  | [] => none
  | a :: l => if a = x then some 0 else (index x l).map (· + 1)

/-- `_findReference('previous', element)` where the element is a component, `Geometer.py:145-157`: the component before it, or, if it is not in the sequence, the name before its name -/
def previous (seq : List Comp) (c : Comp) : Except Err (Comp ⊕ String) :=
  match index c seq with
  | some 0 => .error .runtimeError
  | some (i + 1) => match seq[i]? with
    | some d => .ok (.inl d)
    | none => .error .indexError
  | none => match index c.name (seq.map (·.name)) with
    | none => .error .valueError
    | some 0 => .error .runtimeError
    | some (i + 1) => match seq[i]? with
      | some d => .ok (.inr d.name)
      | none => .error .indexError

/-- the same where the element is given by a name, as in `relative(..., to='name')`, `Geometer.py:145-157` -/
def previousOfName (seq : List Comp) (n : String) : Except Err String :=
  match index n (seq.map (·.name)) with
  | none => .error .valueError
  | some 0 => .error .runtimeError
  | some (i + 1) => match seq[i]? with
    | some d => .ok d.name
    | none => .error .indexError

end Verif.PyreGeo
