import Verif.Model.Facility
/-!
The class that is made for a component of McStas:
`packages/legacycomponents/mcstas2/python/mcstas2/wrappers/component2cppClass/component2cppClass.py`.

Text is a list of characters.  White space is that of ascii.  Not modelled: the bodies of the methods, which are copied.
-/

namespace Verif.CppClass

open Verif.Facility (strip splitAll)

/-- text, `component2cppClass.py:189` -/
abbrev Text := List Char

/-- `Member`, `component2cppClass.py:218` -/
structure Member where
  (type name : Text)
  deriving DecidableEq

/-- `var[ : var.rfind( '*' ) + 1 ]`, `component2cppClass.py:211` -/
def upToStar (var : Text) : Text := (var.reverse.dropWhile (· ≠ '*')).reverse

/-- one turn of the loop `component2cppClass.py:208-220`; `var` is already stripped -/
def parseVar (typestr var : Text) : Except Err Member :=
  if var.head? = some '*' then
    if (upToStar var).all (· = '*') then .ok ⟨typestr ++ upToStar var, strip (var.drop (upToStar var).length)⟩ else .error .assertionError
  else .ok ⟨typestr, var⟩

/-- the loop `component2cppClass.py:208-220` -/
def parseVars (typestr : Text) : List Text → Except Err (List Member)
  | [] => .ok []
  | v :: vs =>
    match parseVar typestr (strip v) with
    | .error e => .error e
    | .ok m =>
      match parseVars typestr vs with
      | .error e => .error e
      | .ok ms => .ok (m :: ms)

/-- `_parse_declaration`, `component2cppClass.py:198-221` -/
def parseDeclaration (d : Text) : Except Err (List Member) :=
  if d = [] then .ok []
  else if ' ' ∉ d then .error .runtimeError
  else parseVars (strip (d.takeWhile (· ≠ ' '))) (splitAll ',' (d.dropWhile (· ≠ ' ')).tail)

/-- the loop `component2cppClass.py:192-194` -/
def parseAll : List Text → Except Err (List Member)
  | [] => .ok []
  | d :: ds =>
    match parseDeclaration (strip d) with
    | .error e => .error e
    | .ok ms =>
      match parseAll ds with
      | .error e => .error e
      | .ok ms' => .ok (ms ++ ms')

/-- `_parse`, `component2cppClass.py:189-195` -/
def parse (declarations : Text) : Except Err (List Member) := parseAll (splitAll ';' declarations)

/-- `additional_public_members`, `component2cppClass.py:45-48` -/
def publicMembers (outputs : List Text) (ms : List Member) : List Member := ms.filter fun m => m.name ∈ outputs

/-- `additional_private_members`, `component2cppClass.py:50-54` -/
def privateMembers (outputs : List Text) (ms : List Member) : List Member :=
  ms.filter fun m => m.name ∉ (publicMembers outputs ms).map Member.name

/-! ### the constructor -/

/-- the name of the argument for a parameter, `component2cppClass.py:125` -/
def argName (p : Text) : Text := "in_".toList ++ p

/-- `ctor_getInputs`, `component2cppClass.py:128-129`: assignments to the left name from the right name -/
def transfers (params : List Text) : List (Text × Text) := params.map fun p => (p, argName p)

/-- the constructor, `component2cppClass.py:111-136`, for a list of parameters: the names of its arguments and the assignments before
the text of `INITIALIZE` -/
def ctor (params : List Text) : Except Err (List Text × List (Text × Text)) :=
  match params with
  | [] => .error .indexError
  | n :: ps => if n ≠ "name".toList then .error .assertionError else .ok (n :: ps.map argName, transfers ps)

/-- the variables in a constructor of C++ that runs, `component2cppClass.py:128-129`: arguments and members; `none` is a name that is not there, or a
member without a value -/
structure State (V : Type) where
  args : Text → Option V
  members : Text → Option V

/-- an assignment in the constructor, `component2cppClass.py:128-129`: the name of an argument hides the member of that name -/
def assign {V : Type} (s : State V) (a : Text × Text) : State V :=
  let v := if (s.args a.2).isSome then s.args a.2 else s.members a.2
  if (s.args a.1).isSome then { s with args := fun n => if n = a.1 then v else s.args n }
  else { s with members := fun n => if n = a.1 then v else s.members n }

/-- the assignments one after the other, `component2cppClass.py:132` -/
def assignAll {V : Type} (s : State V) (as : List (Text × Text)) : State V := as.foldl assign s

end Verif.CppClass
