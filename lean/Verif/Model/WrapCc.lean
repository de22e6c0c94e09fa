import Verif.Model.CppClass
/-!
The binding of a component of McStas to python: `packages/legacycomponents/mcstas2/python/mcstas2/wrappers/binding/boostpython/wrap_cc.py`.

The classes are those of C337-C339 (`CppClass.Member`).
-/

namespace Verif.WrapCc

open CppClass (Text Member)

/-- `sep.join(l)`, `wrap_cc.py:94, 106, 132` -/
def join (sep : Text) : List Text → Text
  | [] => []
  | [t] => t
  | t :: l => t ++ sep ++ join sep l

/-- `_ispointer`, `wrap_cc.py:83-85`, of a type that is not empty -/
def ispointer (m : Member) : Bool := m.type.getLast? = some '*' && !("char".toList.isPrefixOf m.type)

/-- `_isofbasictype`, `wrap_cc.py:88-90` -/
def isofbasictype (m : Member) : Bool := m.type ∈ ["double".toList, "int".toList, "float".toList, "char".toList]

/-- one line of `_build_expose_datamembers`, `wrap_cc.py:107` -/
def readonlyLine (m : Member) : Text := "    .def_readonly( \"".toList ++ m.name ++ "\", &w_t::".toList ++ m.name ++ " )".toList

/-- `_build_ptrmethod`, `wrap_cc.py:148-150` -/
def ptrmethod (klass : Text) (m : Member) : Text :=
  "WrappedPointer get".toList ++ m.name ++ "( ".toList ++ klass ++ " & obj ) { void *ptr = (void *)(obj.".toList ++ m.name ++
    "); WrappedPointer ret = {ptr}; return ret; }".toList

/-- `_build_expose_ptrmethod`, `wrap_cc.py:158-160` -/
def exposePtrmethod (m : Member) : Text := "    .def( \"get".toList ++ m.name ++ "\", get".toList ++ m.name ++ ")".toList

/-- `_ptrs_having_accessor_methods`, `wrap_cc.py:164-169` -/
def ptrsHavingAccessor (ms : List Member) : List Member := ms.filter fun m => m.type.reverse.take 2 ≠ ['*', '*']

/-- the types of `wrap_cc.py:118` -/
def types : List Text := ["int".toList, "float".toList, "double".toList, "char *".toList, "const char *".toList]

/-- the types of `wrap_cc.py:119` -/
def pointertypes : List Text := ["char *".toList, "const char *".toList]

/-- the loop `wrap_cc.py:121-127`; `index` is that of the first of the arguments that are left -/
def needWards : Nat → List Member → Except Err (List Nat)
  | _, [] => .ok []
  | index, arg :: args =>
    if arg.type ∉ types then .error .notImplemented
    else
      (needWards (index + 1) args).map fun l => if arg.type ∈ pointertypes then (index + 2) :: l else l

/-- `_build_policies`, `wrap_cc.py:111-136`; the digits of a number are those of `Nat.repr` -/
def policies (args : List Member) : Except Err Text :=
  (needWards 0 args).map fun l =>
    if l.length = 0 then []
    else
      ['['] ++ (join ",\n".toList (l.map fun i => "with_custodian_and_ward<1, ".toList ++ (Nat.repr i).toList) ++
        (List.replicate l.length "> ".toList).flatten ++ "()".toList) ++ [']']

/-- what `generate` puts into the template, `wrap_cc.py:67-76` -/
structure Content where
  (ctorArgs ctorPolicies exposeDatamembers ptrmethods exposePtrmethods : Text)
  deriving DecidableEq

/-- `generate`, `wrap_cc.py:49-76`: the arguments of the constructor and the public members. An empty type has no last character (line 85). Simplified: the names of the header and of the method are left
out. -/
def generate (klass : Text) (args members : List Member) : Except Err Content :=
  (policies args).bind fun pol =>
    if members.any fun m => m.type = [] then .error .indexError
    else
      let datamembers := members.filter fun m => !ispointer m && isofbasictype m
      let ptrs := ptrsHavingAccessor (members.filter ispointer)
      .ok ⟨join [','] (args.map (·.type)), pol, join ['\n'] (datamembers.map readonlyLine), join ['\n'] (ptrs.map (ptrmethod klass)),
        join ['\n'] (ptrs.map exposePtrmethod)⟩

end Verif.WrapCc
