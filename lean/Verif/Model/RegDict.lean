import Verif.Model.Base
/-!
The dictionary that is made of the registry of an application: `packages/mcni/python/mcni/pyre_support/RegistryToDict.py`; lines
without a file are lines of it.
-/

namespace Verif.RegDict

/-- a registry of pyre, as it is used in lines 32-55: name, properties with values, facilities with registries. Keys are
different, as they are in a dictionary. Simplifications: values are strings; facilities without a component (line 51) are left out -/
inductive Reg where
  | mk (name : String) (props : List (String × String)) (facs : List (String × Reg))

/-- a value in the dictionary, lines 34-47, 55 -/
inductive Val where
  | str (s : String)
  | dict (d : List (String × Val))

/-- a dictionary; of entries with the same key the first counts, line 33 -/
abbrev Dict := List (String × Val)

/-- a key is removed, line 58 -/
def del (d : Dict) (k : String) : Dict := d.filter fun e => e.1 != k

/-- lines 49-58: the components go into the entry `components`, which is removed if it is empty. It is a string if there is a
property of this name: it cannot take components, and is removed if it is the empty string -/
def finish (d : Dict) (comps : Dict) : Except Err Dict :=
  match d.lookup "components" with
  | some (.dict _) => if comps.isEmpty then .ok (del d "components") else .ok (("components", .dict comps) :: d)
  | some (.str s) => if comps.isEmpty then (if s = "" then .ok (del d "components") else .ok d) else .error .typeError
  | none => .error .keyError

/-- the entries before the components, lines 34, 40-47: properties replace what was there -/
def entries (name : String) (props : List (String × String)) : Dict :=
  props.map (fun p => (p.1, Val.str p.2)) ++ [("components", .dict []), ("name", .str name)]

mutual
/-- `onRegistry`, lines 32-59 -/
def render : Reg → Except Err Dict
  | .mk name props facs =>
    if props.isEmpty && facs.isEmpty then .ok [("name", .str name)]
    else match renderFacs facs with
      | .error e => .error e
      | .ok comps => finish (entries name props) comps

/-- the loop of lines 49-55 -/
def renderFacs : List (String × Reg) → Except Err Dict
  | [] => .ok []
  | (f, r) :: fs =>
    match render r with
    | .error e => .error e
    | .ok d =>
      match renderFacs fs with
      | .error e => .error e
      | .ok ds => .ok ((f, .dict d) :: ds)
end

end Verif.RegDict
