import Verif.Model.Lattice
/-!
Specification vocabulary for lattices.
-/

namespace Verif.Lattice
noncomputable section

/-- the three vectors do not lie in a plane -/
def Independent (x y z : V3 ℝ) : Prop :=
  ∀ a b c : ℝ, a • x + b • y + c • z = 0 → a = 0 ∧ b = 0 ∧ c = 0

/-- the vector with these coordinates in the basis of the cell -/
def Cell.at (rc : Cell) (c1 c2 c3 : ℝ) : V3 ℝ := c1 • rc.b1 + c2 • rc.b2 + c3 • rc.b3

/-- a vector of the lattice spanned by the cell -/
def Cell.node (rc : Cell) (n1 n2 n3 : ℤ) : V3 ℝ := rc.at n1 n2 n3

/-- each vector of the second triple is orthogonal to the other two of the first and has the projection 1 -/
def Dual (x y z a b c : V3 ℝ) : Prop :=
  a.dot x = 1 ∧ a.dot y = 0 ∧ a.dot z = 0 ∧
  b.dot x = 0 ∧ b.dot y = 1 ∧ b.dot z = 0 ∧
  c.dot x = 0 ∧ c.dot y = 0 ∧ c.dot z = 1

end
end Verif.Lattice
