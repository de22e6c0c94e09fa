import Verif.Model.Base
/-!
The python module that is made for a component of McStas:
`packages/legacycomponents/mcstas2/python/mcstas2/wrappers/pymodule/factorymethod_py.py`.

Text is a list of characters.  The lines of the module are modelled as statements; only literals of texts are read character by character.
-/

namespace Verif.FactoryPy

/-- text, `factorymethod_py.py:20-31` -/
abbrev Text := List Char

/-- the values that are written, `factorymethod_py.py:74-97`.  Simplified: a number is an integer, a tuple is a list, the attributes of an object are
those of `dir` in their order. -/
inductive Val where
  | num (n : Int)
  | str (s : Text)
  | none
  | list (xs : List Val)
  | obj (cls : Text) (attrs : List (Text × Val))

/-- a line of the module, `factorymethod_py.py:75-96` -/
inductive Stmt where
  /-- `x = 5` -/
  | num (x : Text) (n : Int)
  /-- `x = """s"""` -/
  | str (x s : Text)
  /-- `x = [ y, ... ]` -/
  | list (x : Text) (ys : List Text)
  /-- `x = C()` -/
  | new (x cls : Text)
  /-- `x.a = y` -/
  | set (x a y : Text)

/-- `'item%s' % index`, `factorymethod_py.py:80` -/
def item (i : Nat) : Text := "item".toList ++ Nat.toDigits 10 i

mutual
/-- `inst2str`, `factorymethod_py.py:57-98` -/
def inst2str (name : Text) : Val → List Stmt
  | .num n => [.num name n]
  | .str s => [.str name s]
  | .none => [.new name "NoneType".toList]
  | .list xs => items 0 xs ++ [.list name ((List.range' 0 xs.length).map item)]
  | .obj cls attrs => .new name cls :: attributes name attrs
/-- the loop over a list, `factorymethod_py.py:79-81` -/
def items (k : Nat) : List Val → List Stmt
  | [] => []
  | x :: xs => inst2str (item k) x ++ items (k + 1) xs
/-- the loop over the attributes, `factorymethod_py.py:88-96` -/
def attributes (name : Text) : List (Text × Val) → List Stmt
  | [] => []
  | (a, v) :: as =>
    if a.head? = some '_' then attributes name as
    else inst2str (name ++ '_' :: a) v ++ .set name a (name ++ '_' :: a) :: attributes name as
end

/-! ### what python does with the module -/

/-- what a character behind a backslash means in a literal of python (`factorymethod_py.py:78`).  Simplified: octal and hexadecimal numbers and names of
characters are not modelled. -/
def escape (c : Char) : Text :=
  if c = 'n' then ['\n'] else if c = 't' then ['\t'] else if c = 'r' then ['\r'] else if c = '\n' then []
  else if c = '\\' ∨ c = '"' ∨ c = '\'' then [c] else ['\\', c]

/-- the text of a literal that was opened by three quotes, and what is behind it (`factorymethod_py.py:78`) -/
def readLiteral : Text → Option (Text × Text)
  | '"' :: '"' :: '"' :: r => some ([], r)
  | '\\' :: c :: r => (readLiteral r).map fun p => (escape c ++ p.1, p.2)
  | c :: r => (readLiteral r).map fun p => (c :: p.1, p.2)
  | [] => none

/-- the value of `"""s"""`, `factorymethod_py.py:78`; a text that is not one literal is a `SyntaxError`, here `valueError` -/
def literal (s : Text) : Except Err Text :=
  match readLiteral (s ++ ['"', '"', '"']) with
  | some (t, []) => .ok t
  | _ => .error .valueError

/-- the variables of the module, `factorymethod_py.py:27-28` -/
abbrev Env := Text → Option Val

/-- `x = v`, `factorymethod_py.py:75-96` -/
def Env.put (env : Env) (x : Text) (v : Val) : Env := fun n => if n = x then some v else env n

/-- the values of the names in a list, `factorymethod_py.py:82` -/
def lookups (env : Env) : List Text → Option (List Val)
  | [] => some []
  | x :: xs =>
    match env x, lookups env xs with
    | some v, some vs => some (v :: vs)
    | _, _ => none

/-- `x.a = v` for the attributes of an object, `factorymethod_py.py:95` -/
def setAttr (a : Text) (v : Val) : List (Text × Val) → List (Text × Val)
  | [] => [(a, v)]
  | p :: ps => if p.1 = a then (a, v) :: ps else p :: setAttr a v ps

/-- the classes that the module knows, `factorymethod_py.py:27` -/
def known : List Text := ["ComponentInfo".toList, "Parameter".toList]

/-- one line of the module, `factorymethod_py.py:75-96`.  Simplified: a new object has no attributes (the ones that the constructors of the two classes make
are all written again), and an object is copied when it is stored (none is changed later). -/
def step (env : Env) : Stmt → Except Err Env
  | .num x n => .ok (env.put x (.num n))
  | .str x s =>
    match literal s with
    | .error e => .error e
    | .ok t => .ok (env.put x (.str t))
  | .list x ys =>
    match lookups env ys with
    | none => .error .nameError
    | some vs => .ok (env.put x (.list vs))
  | .new x cls => if cls ∈ known then .ok (env.put x (.obj cls [])) else .error .nameError
  | .set x a y =>
    match env y, env x with
    | some v, some (.obj cls attrs) => .ok (env.put x (.obj cls (setAttr a v attrs)))
    | some _, some _ => .error .attributeError
    | _, _ => .error .nameError

/-- the lines one after the other, `factorymethod_py.py:28` -/
def run (env : Env) : List Stmt → Except Err Env
  | [] => .ok env
  | s :: ss =>
    match step env s with
    | .error e => .error e
    | .ok env' => run env' ss

/-! ### the factory -/

/-- the words that python does not allow as names, of those that C allows (`factorymethod_py.py:21`) -/
def keywords : List Text := ["lambda", "def", "in", "is", "not", "and", "or", "None", "True", "False", "pass", "from", "import", "as", "with", "del",
  "global", "yield", "assert", "raise", "except", "finally", "elif"].map String.toList

variable {V : Type}

/-- the values of the arguments of a call with positional and keyword arguments, `factorymethod_py.py:21`: names and defaults are those of `ctor_kwds` -/
def bind : List (Text × V) → List V → List (Text × V) → Except Err (List (Text × V))
  | [], [], _ => .ok []
  | [], _ :: _, _ => .error .typeError
  | (n, _) :: ps, v :: vs, kw =>
    if n ∈ kw.map Prod.fst then .error .typeError
    else
      match bind ps vs kw with
      | .error e => .error e
      | .ok r => .ok ((n, v) :: r)
  | (n, d) :: ps, [], kw =>
    match bind ps [] kw with
    | .error e => .error e
    | .ok r => .ok ((n, (kw.lookup n).getD d) :: r)

/-- the imports in the body of the factory, `factorymethod_py.py:22-24`, which bind local names -/
def imports (other : Text → V) (locals : Text → Option V) : Text → Option V := fun n =>
  if n = "boostpython".toList ∨ n = "component".toList ∨ n = "_factory_mcvine".toList then some (other n) else locals n

/-- the values given to the constructor by `factory( ... )`, `factorymethod_py.py:20-25`; `other` are the values of the imported names -/
def factory (other : Text → V) (params : List (Text × V)) (args : List V) (kw : List (Text × V)) : Except Err (List (Option V)) :=
  if ¬ (params.map Prod.fst).Nodup then .error .valueError
  else if ∃ p ∈ params, p.1 ∈ keywords then .error .valueError
  else if ∃ k ∈ kw, k.1 ∉ params.map Prod.fst then .error .typeError
  else
    match bind params args kw with
    | .error e => .error e
    | .ok locals => .ok (params.map fun p => imports other (fun n => locals.lookup n) p.1)

end Verif.FactoryPy
