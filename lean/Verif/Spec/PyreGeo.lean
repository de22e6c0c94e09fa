import Verif.Model.PyreGeo
/-!
What is meant by the properties of the geometer of pyre (C357-C359).
-/

namespace Verif.PyreGeo.Spec

variable {R : Type}

/-- the geometer has for each of the components what the user says, or the origin, and for nothing else; it can transform, and prints a report only when asked -/
structure Right (origin : R) (names : List String) (user : String → Option R) (dump : Bool) (g : Geo R) : Prop where
  known : ∀ n ∈ names, (∀ r, user n = some r → g.reg n = some r) ∧ (user n = none → g.reg n = some origin)
  unknown : ∀ n, n ∉ names → g.reg n = none
  transforms : g.callable = true
  report : g.dumps = dump

/-- a component that is known by the name of the place it is used for, as pyre does it: the name is its own one, or one of the other names -/
def BelongsTo (c : Comp) (place : String) : Prop := c.name = place ∨ ∃ l, c.aliases = some l ∧ place ∈ l

/-- the names by which a component is known -/
def knownAs (c : Comp) : List String := c.name :: c.aliases.getD []

end Verif.PyreGeo.Spec
