import Verif.Model.Base
/-!
Comparison of the settings of two applications: `packages/mcni/python/mcni/pyre_support/compareRegistry.py`.

Texts of lines are modelled by their parts (class `Line`).
-/

namespace Verif.RegCmp

/-- a value: text or `None`, `compareRegistry.py:32-34` -/
abbrev Val := Option String

/-- a registry, a dictionary made by `RegistryToDict.py:32-59`: the entries besides `components`, among them `name`, and the components.  The key
`components` is only there for a registry with components (`RegistryToDict.py:57-58`).  `None` is modelled by the empty dictionary; the code
(`compareRegistry.py:20-25`) treats them alike. -/
inductive Reg
  | mk (entries : List (String × Val)) (components : List (String × Reg))

/-- `{}` or `None`, `compareRegistry.py:20-25` -/
def Reg.empty : Reg := .mk [] []

/-- the entries without the components, `compareRegistry.py:29-31` -/
def Reg.entries : Reg → List (String × Val)
  | .mk e _ => e

/-- the components, `compareRegistry.py:43-44` -/
def Reg.components : Reg → List (String × Reg)
  | .mk _ c => c

/-- `not reg`, `compareRegistry.py:20-24` -/
def Reg.isEmpty (r : Reg) : Bool := r.entries.isEmpty && r.components.isEmpty

/-- `reg.get(k)`, `compareRegistry.py:32, 39`: `None` if there is no such key -/
def get (e : List (String × Val)) (k : String) : Val := (e.lookup k).getD none

/-- `reg['name']`, `compareRegistry.py:23, 25, 28` -/
def nameOf (e : List (String × Val)) : Except Err Val :=
  match e.lookup "name" with
  | none => .error .keyError
  | some v => .ok v

/-- an entry of a difference, `compareRegistry.py:28, 34, 41`: the name, or the two values -/
inductive Entry
  | title (v : Val)
  | pair (v1 v2 : Val)

/-- what `compare` returns, `compareRegistry.py:21, 23, 25, 58`: `None`, a tuple, or a dictionary -/
inductive Diff
  | nothing
  | tuple (v1 v2 : Val)
  | dict (entries : List (String × Entry)) (components : List (String × Diff))

/-- `diff[k] = v`, `compareRegistry.py:28, 34, 41`: a key that is there keeps its place -/
def put (d : List (String × Entry)) (k : String) (v : Entry) : List (String × Entry) :=
  if (d.lookup k).isSome then d.map fun x => if x.1 = k then (k, v) else x else d ++ [(k, v)]

/-- the loop `compareRegistry.py:29-35` -/
def first (e2 : List (String × Val)) : List (String × Val) → List (String × Entry) → List (String × Entry)
  | [], d => d
  | (k, v1) :: e1, d => first e2 e1 (if v1 ≠ get e2 k then put d k (.pair v1 (get e2 k)) else d)

/-- the loop `compareRegistry.py:37-41` -/
def second (e1 : List (String × Val)) : List (String × Val) → List (String × Entry) → List (String × Entry)
  | [], d => d
  | (k, v2) :: e2, d => second e1 e2 (if (e1.lookup k).isSome then d else if get e1 k ≠ v2 then put d k (.pair (get e1 k) v2) else d)

/-- `compare(None, comp2)`, `compareRegistry.py:20-23, 56` -/
def onlySecond (r2 : Reg) : Except Err Diff :=
  if r2.isEmpty then .ok .nothing
  else match nameOf r2.entries with
    | .error e => .error e
    | .ok v => .ok (.tuple none v)

/-- the loop `compareRegistry.py:54-56` -/
def rest (c1 : List (String × Reg)) : List (String × Reg) → Except Err (List (String × Diff))
  | [] => .ok []
  | (n, r) :: c2 =>
    if (c1.lookup n).isSome then rest c1 c2
    else match onlySecond r with
      | .error e => .error e
      | .ok d => match rest c1 c2 with
        | .error e => .error e
        | .ok ds => .ok ((n, d) :: ds)

/-- `name or reg1['name']`, `compareRegistry.py:28` -/
def titleOf (name : Option String) (n1 : Val) : Val :=
  match name with
  | some n => if n = "" then n1 else some n
  | none => n1

mutual

/-- `compare`, `compareRegistry.py:19-58` -/
def compare : Reg → Reg → Option String → Except Err Diff
  | .mk e1 c1, r2, name =>
    if e1 = [] ∧ c1.isEmpty then onlySecond r2
    else match nameOf e1 with
    | .error e => .error e
    | .ok n1 =>
      if r2.isEmpty then .ok (.tuple n1 none)
      else
        let d := second e1 r2.entries (first r2.entries e1 [("name", .title (titleOf name n1))])
        if c1.isEmpty ∧ r2.components.isEmpty then .ok (.dict d [])
        else match compareAll c1 r2.components with
          | .error e => .error e
          | .ok ds => match rest c1 r2.components with
            | .error e => .error e
            | .ok ds' => .ok (.dict d (ds ++ ds'))

/-- the loop `compareRegistry.py:49-52` -/
def compareAll : List (String × Reg) → List (String × Reg) → Except Err (List (String × Diff))
  | [], _ => .ok []
  | (n, r) :: c1, c2 =>
    match compare r ((c2.lookup n).getD .empty) (some n) with
    | .error e => .error e
    | .ok d => match compareAll c1 c2 with
      | .error e => .error e
      | .ok ds => .ok ((n, d) :: ds)

end

/-- the lines of a report, `compareRegistry.py:65, 69-71, 76, 80-82`; a number of spaces comes first.  What is printed in three lines (`- k`,
`< v1`, `> v2`) is one here. -/
inductive Line
  | title (indent : Nat) (name : Entry)
  | changed (indent : Nat) (k : String) (v1 v2 : Val)
  | components (indent : Nat)
  | only (indent : Nat) (name : String) (v1 v2 : Val)

/-- the loop `compareRegistry.py:66-72`; `v1, v2 = v` for text is not modelled (refused here) -/
def changes (indent : Nat) : List (String × Entry) → Except Err (List Line)
  | [] => .ok []
  | (k, v) :: d =>
    if k = "name" ∨ k = "components" then changes indent d
    else match v with
      | .title _ => .error .valueError
      | .pair v1 v2 => match changes indent d with
        | .error e => .error e
        | .ok ls => .ok (.changed indent k v1 v2 :: ls)

/-- `name or diff['name']`, `compareRegistry.py:64` -/
def heading (d : List (String × Entry)) (name : Option String) : Except Err Entry :=
  if name = none ∨ name = some "" then
    match d.lookup "name" with
    | none => .error .keyError
    | some v => .ok v
  else .ok (.title name)

mutual

/-- `createReport`, `compareRegistry.py:61-87` -/
def report : Diff → Nat → Option String → Except Err (List Line)
  | .nothing, _, name => .error (if name = none ∨ name = some "" then .typeError else .attributeError)
  | .tuple _ _, _, name => .error (if name = none ∨ name = some "" then .typeError else .attributeError)
  | .dict d c, indent, name =>
    match heading d name with
    | .error e => .error e
    | .ok t => match changes indent d with
      | .error e => .error e
      | .ok ls =>
        if c.isEmpty then .ok (.title indent t :: ls)
        else match reportAll c indent with
          | .error e => .error e
          | .ok ls' => .ok (.title indent t :: ls ++ .components indent :: ls')

/-- the loop `compareRegistry.py:77-85` -/
def reportAll : List (String × Diff) → Nat → Except Err (List Line)
  | [], _ => .ok []
  | (n, .tuple v1 v2) :: c, indent => match reportAll c indent with
    | .error e => .error e
    | .ok ls => .ok (.only (indent + 2) n v1 v2 :: ls)
  | (n, d) :: c, indent => match report d (indent + 2) (some n) with
    | .error e => .error e
    | .ok ls => match reportAll c indent with
      | .error e => .error e
      | .ok ls' => .ok (ls ++ ls')

end

/-- the report about two registries, `compareRegistry.py:128-129` -/
def compareReport (r1 r2 : Reg) : Except Err (List Line) :=
  match compare r1 r2 none with
  | .error e => .error e
  | .ok d => report d 0 none

end Verif.RegCmp
