import Verif.Model.Rounding
import Verif.Spec.Proxy
/-!
What a user expects of axes computed with rounded numbers.
-/

namespace Verif.Rounding
open Proxy

noncomputable section

/-- `xs` are `m` numbers, number `k` differs from `lo + k d` by at most `ε` -/
def Near (xs : List ℝ) (m : Nat) (lo d ε : ℝ) : Prop :=
  xs.length = m ∧ ∀ k < m, ∃ x, xs[k]? = some x ∧ |x - (lo + k * d)| ≤ ε

/-- an axis with bins that are wide compared with the rounding of its ends -/
def Fine (u : ℝ) (a : ℝ × ℝ × Nat) : Prop :=
  a.1 < a.2.1 ∧ 0 < a.2.2 ∧ a.2.2 * (|a.1| + |a.2.1|) * u ≤ (a.2.1 - a.1) / 1000

end
end Verif.Rounding
