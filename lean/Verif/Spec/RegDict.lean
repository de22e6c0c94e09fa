import Verif.Model.RegDict
/-!
Words for the property of the dictionary of a registry (C367).
-/

namespace Verif.RegDict.Spec

/-- the properties of a registry; see `RegistryToDict.py:42` -/
def props : Reg → List (String × String)
  | .mk _ ps _ => ps

/-- the registry at a path of facilities; see `RegistryToDict.py:49-50` -/
def at_ : Reg → List String → Option Reg
  | r, [] => some r
  | .mk _ _ fs, f :: path => (fs.lookup f).bind fun r => at_ r path

/-- the dictionary at a path of components; see `RegistryToDict.py:55` -/
def look : Dict → List String → Option Dict
  | d, [] => some d
  | d, f :: path =>
    match d.lookup "components" with
    | some (.dict c) =>
      match c.lookup f with
      | some (.dict d') => look d' path
      | _ => none
    | _ => none

/-- no property has the name of one of the two entries that are made; see `RegistryToDict.py:34,40` -/
def Proper (r : Reg) : Prop := (props r).lookup "name" = none ∧ (props r).lookup "components" = none

/-- a dictionary has the name and the properties of a registry; see `RegistryToDict.py:34,42-47` -/
def Shows : Reg → Dict → Prop
  | .mk name ps _, d => d.lookup "name" = some (.str name) ∧
      ∀ k, k ≠ "name" → k ≠ "components" → d.lookup k = (ps.lookup k).map Val.str

end Verif.RegDict.Spec
