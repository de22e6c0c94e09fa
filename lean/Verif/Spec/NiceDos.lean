import Verif.Model.NiceDos
import Mathlib.Algebra.BigOperators.Group.Finset.Basic
/-!
What a user expects of the preparation of a density of states.
-/

namespace Verif.NiceDos

noncomputable section

/-- the sum of the squares of the differences of the first `N` values from `c E²` -/
def misfit (E g : List ℝ) (N : Nat) (c : ℝ) : ℝ := ∑ i ∈ Finset.range N, (g.getD i 0 - c * E.getD i 0 ^ 2) ^ 2

/-- the mean of the first `N` values -/
def mean (g : List ℝ) (N : Nat) : ℝ := (∑ i ∈ Finset.range N, g.getD i 0) / N

/-- the sum of the squares of the differences of the first `N` values from their mean -/
def spread (g : List ℝ) (N : Nat) : ℝ := ∑ i ∈ Finset.range N, (g.getD i 0 - mean g N) ^ 2

/-- `c E²` is the best parabola for the first `N` values -/
def Best (E g : List ℝ) (N : Nat) (c : ℝ) : Prop := ∀ c', misfit E g N c ≤ misfit E g N c'

/-- the parabola explains nine tenths of the differences from the mean -/
def Explains (E g : List ℝ) (N : Nat) (c : ℝ) : Prop := misfit E g N c ≤ spread g N / 10

/-- `g'` is `c E²` for the first `N` points, and the same as `g` for the others -/
def Starts (E g g' : List ℝ) (N : Nat) (c : ℝ) : Prop :=
  g'.length = g.length ∧ ∀ i < g.length, g'.getD i 0 = if i < N then c * E.getD i 0 ^ 2 else g.getD i 0

/-- energies `e0 + i de` -/
def Even (E : List ℝ) (e0 de : ℝ) : Prop := ∀ i < E.length, E.getD i 0 = e0 + de * i

/-- the energies ascend -/
def Ascending (E : List ℝ) : Prop := ∀ i, i + 1 < E.length → E.getD i 0 < E.getD (i + 1) 0

end
end Verif.NiceDos
