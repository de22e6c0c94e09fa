import Verif.Model.Base
/-!
The pyre component that is made for a component of McStas:
`packages/legacycomponents/mcstas2/python/mcstas2/utils/pyre_support/ElementaryComponentGenerator.py`.

Names and types are texts; names are identifiers of python.
-/

namespace Verif.Elementary

/-- `Argument`, `ElementaryComponentGenerator.py:24-30` -/
structure Arg (V : Type) where
  (name type : String)
  default : V
  description : String

/-- what a name in the body of `class Inventory` stands for, `ElementaryComponentGenerator.py:61-64`: the imported module, the variable of the loop, or a trait with its type, the
name of the setting, its default and its tip -/
inductive Obj (V : Type) where
  | pinv
  | loop (a : Arg V)
  | trait (type name : String) (default : V) (tip : String)

variable {V : Type}

/-- the names in the body of the class, `ElementaryComponentGenerator.py:61-67`; those of the base class are not modelled -/
abbrev Ns (V : Type) := String → Option (Obj V)

/-- assignment in the body of the class, `ElementaryComponentGenerator.py:63-64` -/
def put (ns : Ns V) (n : String) (o : Option (Obj V)) : Ns V := fun m => if m = n then o else ns m

/-- `_trait_type_str`, `ElementaryComponentGenerator.py:166-174` -/
def traitType (type : String) : Except Err String :=
  if type = "const char *" ∨ type = "char *" then .ok "str"
  else if type = "float" ∨ type = "double" then .ok "float"
  else if type = "int" then .ok "int"
  else .error .keyError

/-- the lines of `_trait_str` when they are run, `ElementaryComponentGenerator.py:153-164`: `name = pinv.type( "name", default = ... )` and the tip -/
def execTrait (ns : Ns V) (a : Arg V) (type : String) : Except Err (Ns V) :=
  match ns "pinv" with
  | some .pinv => .ok (put ns a.name (some (.trait type a.name a.default a.description)))
  | some _ => .error .attributeError
  | none => .error .nameError

/-- one turn of the loop, `ElementaryComponentGenerator.py:63-65`: the functions are looked up in the body of the class first, and a trait cannot be called -/
def turn (ns : Ns V) (a : Arg V) : Except Err (Ns V) :=
  let ns := put ns "arg" (some (.loop a))
  if (ns "_trait_str").isSome then .error .typeError
  else
    match traitType a.type with
    | .error e => .error e
    | .ok t =>
      if (ns "locals").isSome then .error .typeError
      else if (ns "exec").isSome then .error .typeError
      else execTrait ns a t

/-- the loop, `ElementaryComponentGenerator.py:63-65` -/
def turns : Ns V → List (Arg V) → Except Err (Ns V)
  | ns, [] => .ok ns
  | ns, a :: as =>
    match turn ns a with
    | .error e => .error e
    | .ok ns' => turns ns' as

/-- the body of `class Inventory`, `ElementaryComponentGenerator.py:61-68` -/
def inventory (args : List (Arg V)) : Except Err (Ns V) :=
  match turns (put (fun _ => none) "pinv" (some .pinv)) args with
  | .error e => .error e
  | .ok ns => if (ns "locals").isSome then .error .typeError else .ok (put ns "arg" none)

/-- `self.inventory.<name>`, `ElementaryComponentGenerator.py:125, 136`: the value of the user under the name of the setting, or the default -/
def setting (ns : Ns V) (user : String → Option V) (n : String) : Except Err V :=
  match ns n with
  | some (.trait _ s d _) => .ok ((user s).getD d)
  | _ => .error .attributeError

/-- the loop of `_argumentsFromInventory`, `ElementaryComponentGenerator.py:121-126, 132-137` -/
def kwdsOf (ns : Ns V) (user : String → Option V) : List (Arg V) → Except Err (List (String × V))
  | [] => .ok []
  | a :: as =>
    match setting ns user a.name with
    | .error e => .error e
    | .ok v =>
      match kwdsOf ns user as with
      | .error e => .error e
      | .ok r => .ok ((a.name, v) :: r)

/-- `kwds['name'] = self.name`, `ElementaryComponentGenerator.py:127` -/
def putName (name : V) : List (String × V) → List (String × V)
  | [] => [("name", name)]
  | p :: ps => if p.1 = "name" then ("name", name) :: ps else p :: putName name ps

/-- the keywords for the constructor of a component; `takesName` is `ctor_takes_name`, `ElementaryComponentGenerator.py:88-98, 119-138` -/
def kwds (takesName : Bool) (args : List (Arg V)) (user : String → Option V) (name : V) : Except Err (List (String × V)) :=
  match inventory args with
  | .error e => .error e
  | .ok ns =>
    match kwdsOf ns user args with
    | .error e => .error e
    | .ok r => .ok (if takesName then putName name r else r)

end Verif.Elementary
