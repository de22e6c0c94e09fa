import Verif.Model.CmakeSrc
/-!
Words for the properties of the sources of components (C364, C365).
-/

namespace Verif.CmakeSrc.Spec

/-- a name without parentheses; see `cmake_utils.py:74` -/
def Clean (t : Text) : Prop := '(' ∉ t ∧ ')' ∉ t

/-- components whose categories have no underscore and whose names have no parentheses; see `cmake_utils.py:39-42` -/
def Simple (c : Comp) : Prop := '_' ∉ c.category ∧ Clean c.category ∧ Clean c.type

/-- different components; see `mcstas2/__init__.py:194-204` -/
def Different (a b : Comp) : Prop := ¬ (a.category = b.category ∧ a.type = b.type)

end Verif.CmakeSrc.Spec
