import Verif.Model.WrapCc
/-!
What is meant by the properties of the bindings of components (C355, C356).
-/

namespace Verif.WrapCc.Spec

open CppClass (Text Member)

/-- the policies of C++ that keep the arguments with the given numbers alive, one inside the other -/
def Nested : List Nat → Text → Prop
  | [], _ => False
  | [i], t => t = "with_custodian_and_ward<1, ".toList ++ (Nat.repr i).toList ++ "> ".toList
  | i :: j :: l, t => ∃ u, Nested (j :: l) u ∧ t = "with_custodian_and_ward<1, ".toList ++ (Nat.repr i).toList ++ ",\n".toList ++ u ++ "> ".toList

/-- the numbers of boost python of the arguments that are texts: the object itself is 1, the first argument is 2 -/
def IsText (args : List Member) (i : Nat) : Prop :=
  ∃ k a, i = k + 2 ∧ args[k]? = some a ∧ (a.type = "char *".toList ∨ a.type = "const char *".toList)

/-- the types of arguments that are known -/
def Known (t : Text) : Prop :=
  t = "int".toList ∨ t = "float".toList ∨ t = "double".toList ∨ t = "char *".toList ∨ t = "const char *".toList

/-- `l` is a line of the text `t` -/
def IsLine (l t : Text) : Prop := ∃ u v, t = u ++ l ++ v ∧ (u = [] ∨ u.getLast? = some '\n') ∧ (v = [] ∨ v.head? = some '\n')

/-- the line that makes a member an attribute of the python class -/
def attributeLine (m : Member) : Text := ("    .def_readonly( \"" ++ String.ofList m.name ++ "\", &w_t::" ++ String.ofList m.name ++ " )").toList

/-- the line that makes the address of a member the result of a method of the python class -/
def methodLine (m : Member) : Text := ("    .def( \"get" ++ String.ofList m.name ++ "\", get" ++ String.ofList m.name ++ ")").toList

/-- that function -/
def functionLine (klass : Text) (m : Member) : Text :=
  ("WrappedPointer get" ++ String.ofList m.name ++ "( " ++ String.ofList klass ++ " & obj ) { void *ptr = (void *)(obj." ++ String.ofList m.name ++ "); WrappedPointer ret = {ptr}; return ret; }").toList

end Verif.WrapCc.Spec
