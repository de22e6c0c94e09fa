import Verif.Model.Listing
import Verif.Spec.Launch
import Verif.Spec.Facility
/-!
What is expected of the lists of components and of the command `mcvine component`.
-/

namespace Verif.Listing.Spec

open Launch

/-- a component of McStas: there is a file for it in a directory of the library that is not hidden and not one of the excluded ones (see `mcstas2/__init__.py:147-166`) -/
def InLibrary (L : Library) (category type : String) : Prop :=
  (category, true) ∈ L.items ∧ ¬ hidden category ∧ category ≠ "CVS" ∧ category ≠ "data" ∧ (type ++ ".comp", true) ∈ L.files category ∧ ¬ hidden (type ++ ".comp")

/-- a component that a program or a repository has registered -/
def Registered (r : List (String × List String)) (category type : String) : Prop := ∃ l, r.lookup category = some l ∧ type ∈ l

/-- what is printed -/
def Printed (out : List (String × List (String × String))) (category type supplier : String) : Prop :=
  ∃ l, (category, l) ∈ out ∧ (type, supplier) ∈ l

/-- an option that is empty leaves everything -/
def Matches (option value : String) : Prop := option = "" ∨ option = value

end Verif.Listing.Spec
