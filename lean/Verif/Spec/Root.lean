import Mathlib.Data.Real.Basic
/-!
Specification for root finding: a regular grid on an interval.
-/

namespace Verif.Root

/-- the `i`-th of the points that divide `[x1,x2]` into `n` equal parts -/
noncomputable def gridPt (x1 x2 : ℝ) (n i : Nat) : ℝ := x1 + (x2 - x1) / n * i

end Verif.Root
