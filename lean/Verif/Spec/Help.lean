import Verif.Model.Help
/-!
Words for the property of asking for help (C362).
-/

namespace Verif.Help.Spec

/-- a component is the other one or within it; see `AppInitMixin.py:36-53` -/
inductive Within : Comp → Comp → Prop where
  | here (c : Comp) : Within c c
  | sub {c d e : Comp} (hd : d ∈ e.subs) (h : Within c d) : Within c e

mutual

/-- the same component without any flags; see `AppInitMixin.py:36-42` -/
def bare : Comp → Comp
  | .mk a _ n s => .mk a false n (bareList s)

/-- components without flags; see `AppInitMixin.py:36-42` -/
def bareList : List Comp → List Comp
  | [] => []
  | c :: cs => bare c :: bareList cs

end

end Verif.Help.Spec
