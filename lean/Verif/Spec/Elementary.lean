import Verif.Model.Elementary
/-!
What a pyre component made for a component of McStas should have for settings, and what it should hand over.
-/

namespace Verif.Elementary.Spec

variable {V : Type}

/-- the type of setting for each type of C (see `ElementaryComponentGenerator.py:166-172`) -/
inductive TypeOf : String → String → Prop
  | constText : TypeOf "const char *" "str"
  | text : TypeOf "char *" "str"
  | float : TypeOf "float" "float"
  | double : TypeOf "double" "float"
  | int : TypeOf "int" "int"

/-- every parameter is a setting of its own name, of its own type, with its own default and description, and there is no other setting (see
`ElementaryComponentGenerator.py:61-68`) -/
def Settings (args : List (Arg V)) (ns : Ns V) : Prop :=
  (∀ a ∈ args, ∃ t, TypeOf a.type t ∧ ns a.name = some (.trait t a.name a.default a.description)) ∧
    ∀ n t s d tip, ns n = some (.trait t s d tip) → ∃ a ∈ args, a.name = n

/-- names that mean something in the body of the class (see `ElementaryComponentGenerator.py:62-67`) -/
def Free (n : String) : Prop := n ≠ "arg" ∧ n ≠ "pinv" ∧ n ≠ "exec" ∧ n ≠ "locals" ∧ n ≠ "_trait_str"

end Verif.Elementary.Spec
