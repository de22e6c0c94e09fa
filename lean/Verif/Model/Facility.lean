import Verif.Model.Base
/-!
Names of component facilities: `packages/mcni/python/mcni/pyre_support/NeutronComponentFacility.py`.

Strings are lists of characters.
-/

namespace Verif.Facility

/-- what is before and after the first occurrence of `sep`; `none` if there is none (`str.find` of python returns -1), as used
in `NeutronComponentFacility.py:154, 160, 166` -/
def cut (sep : List Char) : List Char → Option (List Char × List Char)
  | [] => if sep.isPrefixOf [] then some ([], []) else none
  | c :: s => if sep.isPrefixOf (c :: s) then some ([], (c :: s).drop sep.length) else (cut sep s).map fun r => (c :: r.1, r.2)

/-- `a, b = s.split(sep)` (`NeutronComponentFacility.py:158, 164, 170`): the number of parts must be two -/
def split2 (sep s : List Char) : Except Err (List Char × List Char) :=
  match cut sep s with
  | none => .error .valueError
  | some (a, b) => if (cut sep b).isSome then .error .valueError else .ok (a, b)

/-- `s.split(',')` (`NeutronComponentFacility.py:175`): all parts -/
def splitAll (c : Char) : List Char → List (List Char)
  | [] => [[]]
  | d :: s => if d = c then [] :: splitAll c s else
    match splitAll c s with
    | [] => [[d]]
    | p :: ps => (d :: p) :: ps

/-- `s.lstrip()`; only the white space of ascii is modelled (`NeutronComponentFacility.py:170-176`) -/
def lstrip (s : List Char) : List Char := s.dropWhile Char.isWhitespace

/-- `s.strip()` (`NeutronComponentFacility.py:170, 173, 176`) -/
def strip (s : List Char) : List Char := (lstrip (lstrip s).reverse).reverse

/-- `','.join(args)` (`NeutronComponentFacility.py:143`) -/
def join : List (List Char) → List Char
  | [] => []
  | [a] => a
  | a :: as => a ++ ',' :: join as

/-- `_encode`, `NeutronComponentFacility.py:141-150`; `args` is `None` or a list of strings -/
def encode (_supplier : List Char) (category type : List Char) (args : Option (List (List Char))) : List Char :=
  let argsstr := match args with
    | none => []
    | some [] => []
    | some as => '(' :: (join as ++ [')'])
  category ++ '/' :: (type ++ argsstr)

/-- what `_decode` returns, `NeutronComponentFacility.py:177` -/
structure Spec where
  (supplier category : Option (List Char))
  type : List Char
  args : Option (List (List Char))
  deriving DecidableEq

/-- supplier and rest, `NeutronComponentFacility.py:154-158` -/
def supplierOf (s : List Char) : Except Err (Option (List Char) × List Char) :=
  match cut [':', '/', '/'] s with
  | none => .ok (none, s)
  | some _ => do
    let (a, b) ← split2 [':', '/', '/'] s
    .ok (some a, b)

/-- category and rest, `NeutronComponentFacility.py:160-164` -/
def categoryOf (s : List Char) : Except Err (Option (List Char) × List Char) :=
  match cut ['/'] s with
  | none => .ok (none, s)
  | some _ => do
    let (a, b) ← split2 ['/'] s
    .ok (some a, b)

/-- type and arguments, `NeutronComponentFacility.py:166-176` -/
def typeOf (s : List Char) : Except Err (List Char × Option (List (List Char))) := do
  let (type, argsstr) ← match cut ['('] s with
    | none => .ok (s, [])
    | some _ => split2 ['('] (strip s).dropLast
  if strip argsstr = [] then .ok (type, none)
  else .ok (type, some ((splitAll ',' (strip argsstr)).map strip))

/-- `_decode`, `NeutronComponentFacility.py:153-177` -/
def decode (s : List Char) : Except Err Spec := do
  let (supplier, t1) ← supplierOf s
  let (category, t2) ← categoryOf t1
  let (type, args) ← typeOf t2
  .ok ⟨supplier, category, type, args⟩

end Verif.Facility
