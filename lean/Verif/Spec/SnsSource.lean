import Mathlib.Data.Real.Basic
import Mathlib.Algebra.BigOperators.Intervals
import Mathlib.Algebra.Order.BigOperators.Group.Finset
/-!
Specification for the SNS sources: tables, polygons.  Independent of the model.
-/

namespace Verif.SnsSource

/-- the value of a table -/
noncomputable def nth (v : List ℝ) (i : ℕ) : ℝ := v.getD i 0

/-- a table of increasing places -/
def Increasing (v : List ℝ) : Prop := ∀ i j, i < j → j < v.length → nth v i < nth v j

/-- the point of the straight line through two points -/
noncomputable def line (x1 x2 y1 y2 x : ℝ) : ℝ := y1 + (y2 - y1) * (x - x1) / (x2 - x1)

/-- the area under the polygon through the points of a table from number `i` to number `j` -/
noncomputable def area (xs ys : List ℝ) (i j : ℕ) : ℝ :=
  ∑ k ∈ Finset.Ico i j, (nth xs (k + 1) - nth xs k) * (nth ys k + nth ys (k + 1)) / 2

end Verif.SnsSource
