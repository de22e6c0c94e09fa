import Verif.Model.VitessRun
/-!
Words for the property of components of vitess (C368).
-/

namespace Verif.VitessRun.Spec

/-- a place for modules is set; see `Component.py:51-52` -/
def IsSet {ν} (w : World ν) : Prop := ∃ d, w.dir = some d ∧ d ≠ []

/-- every program exists, succeeds and writes the same neutrons; see `Component.py:39-41` -/
def Fine {ν} (w : World ν) (ns : List ν) : Prop := IsSet w ∧ ∀ c, w.run c = some (0, ns)

end Verif.VitessRun.Spec
