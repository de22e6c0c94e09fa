import Mathlib.Data.List.Dedup
import Verif.Model.Base
/-!
Registries of components: `packages/legacycomponents/mcstas2/python/mcstas2/components/Registry.py` and
`packages/mcni/python/mcni/components/RegistryBase.py`.

Dictionaries are functions to `Option`; the order of their keys is not modelled.
-/

namespace Verif.Registry

/-- the pair of category and type, `Registry.py:30` -/
abbrev Key := String × String

/-- what is used of the module of a component, `Registry.py:34-36, 109`, `_proxies/__init__.py:1-20`: the attributes `info` and
`factory` may be missing.  Without `factory` the function `createFactory` raises an exception; it raises no other one. -/
structure Mod where
  id : Nat
  info : Option Nat
  factory : Bool
  deriving DecidableEq

/-- the members of `Registry`, `Registry.py:20-23` -/
structure Reg where
  factories : Key → Option Nat
  infos : Key → Option Nat
  types : String → Option (List String)

/-- `Registry()`, `Registry.py:19-23` -/
def empty : Reg := ⟨fun _ => none, fun _ => none, fun _ => none⟩

/-- assignment to an element of a dictionary (`Registry.py:35, 36, 152`) -/
def put {K V : Type} [DecidableEq K] (f : K → Option V) (k : K) (v : V) : K → Option V := fun x => if x = k then some v else f x

/-- `_addType`, `Registry.py:143-156` -/
def addType (r : Reg) (k : Key) : Reg :=
  match r.types k.1 with
  | some ts => if k.2 ∈ ts then r else { r with types := put r.types k.1 (ts ++ [k.2]) }
  | none => { r with types := put r.types k.1 [k.2] }

/-- `register`, `Registry.py:31-37`; what has been changed before the exception stays -/
def register (r : Reg) (k : Key) (m : Mod) : Reg × Except Err Unit :=
  let r := addType r k
  if !m.factory then (r, .error .attributeError)
  else
    let r := { r with factories := put r.factories k m.id }
    match m.info with
    | none => (r, .error .attributeError)
    | some i => ({ r with infos := put r.infos k i }, .ok ())

/-- the file system as seen by the interpreter: the repositories (`repositories.py:16-23`), what the import of a module gives
(`none`: it fails with any exception), and the modules listed in the categories of a repository (`Registry.py:68-95`) -/
structure World where
  repos : List String
  load : String → Key → Option Mod
  contents : String → List Key

/-- the module of the last repository that has it, `Registry.py:118-133` -/
def find (W : World) (k : Key) : Option Mod := W.repos.reverse.findSome? fun repo => W.load repo k

/-- `_importComponent`, `Registry.py:117-140` -/
def importComponent (W : World) (r : Reg) (k : Key) : Reg × Except Err Mod :=
  match find W k with
  | none => (r, .error .notRegistered)
  | some m => let (r, e) := register r k m; (r, do e; .ok m)

/-- `getFactory`, `Registry.py:40-45`: the result is the module it was made from -/
def getFactory (W : World) (r : Reg) (k : Key) : Reg × Except Err Nat :=
  match r.factories k with
  | some f => (r, .ok f)
  | none =>
    let (r, e) := importComponent W r k
    (r, do
      let _ ← e
      match r.factories k with
      | some f => .ok f
      | none => .error .keyError)

/-- `getInfo`, `Registry.py:48-53` -/
def getInfo (W : World) (r : Reg) (k : Key) : Reg × Except Err Nat :=
  match r.infos k with
  | some i => (r, .ok i)
  | none =>
    let (r, e) := importComponent W r k
    (r, do
      let m ← e
      match m.info with
      | some i => .ok i
      | none => .error .attributeError)

/-- one entry of `_importComponentsInCategory`, `Registry.py:94-114`; an exception of `register` ends the call -/
def importEntry (W : World) (repo : String) (s : Reg × Except Err Unit) (k : Key) : Reg × Except Err Unit :=
  match s.2 with
  | .error e => (s.1, .error e)
  | .ok () => match W.load repo k with
    | none => s
    | some m => if m.factory then register s.1 k m else s

/-- `importAllComponents`, `Registry.py:56-65` -/
def importAll (W : World) (r : Reg) : Reg × Except Err Unit :=
  W.repos.foldl (fun s repo => (W.contents repo).foldl (importEntry W repo) s) (r, .ok ())

/-- the calls of a program, `Registry.py:31-65` -/
inductive Op where
  | register (k : Key) (m : Mod)
  | getFactory (k : Key)
  | getInfo (k : Key)
  | importAll

/-- the state after a call, `Registry.py:31-65` -/
def step (W : World) (r : Reg) : Op → Reg
  | .register k m => (register r k m).1
  | .getFactory k => (getFactory W r k).1
  | .getInfo k => (getInfo W r k).1
  | .importAll => (importAll W r).1

/-- the state after a sequence of calls, `Registry.py:31-65` -/
def run (W : World) (ops : List Op) : Reg := ops.foldl (step W) empty

/-! ### RegistryBase -/

/-- what is used of a module in a repository of mcni, `RegistryBase.py:92-96, 117-122`: its attribute `category` and whether it
has an attribute of its own name -/
structure Mod' where
  id : Nat
  category : Option String
  hasType : Bool
  deriving DecidableEq

/-- repositories of mcni, `RegistryBase.py:82-100`: names of the modules and their content.  All files of a repository are
modules that can be imported; one that cannot makes the listing fail in the code. -/
structure World' where
  repos : List String
  load : String → String → Option Mod'
  files : String → List String

/-- `_getStaticComponentList`, `RegistryBase.py:77-100` -/
def staticList (W : World') : List Key :=
  (W.repos.flatMap fun repo => (W.files repo).filterMap fun t =>
    (W.load repo t).bind fun m => m.category.map fun c => (c, t)).dedup

/-- the module found by the loop of `_getStaticComponent`, `RegistryBase.py:108-115`; the loop is not left -/
def lastModule (W : World') (t : String) : Option Mod' :=
  W.repos.foldl (fun m repo => match W.load repo t with | none => m | some m' => some m') none

/-- the dictionary `factories` of `RegistryBase.py:23` -/
abbrev Reg' := Key → Option Nat

/-- `getFactory` with `_getStaticComponent`, `RegistryBase.py:65-70, 103-127` -/
def getFactory' (W : World') (r : Reg') (k : Key) : Reg' × Except Err Nat :=
  match r k with
  | some f => (r, .ok f)
  | none => match lastModule W k.2 with
    | none => (r, .error .notRegistered)
    | some m => match m.category with
      | none => (r, .error .attributeError)
      | some c => if k.1 ≠ c then (r, .error .runtimeError)
        else if m.hasType then (put r k m.id, .ok m.id)
        else (r, .error .attributeError)

/-- whether a component is in `listallcomponents`, `RegistryBase.py:41-46` (a list without order) -/
def listed (W : World') (r : Reg') (k : Key) : Prop := k ∈ staticList W ∨ (r k).isSome

end Verif.Registry
