import Verif.Model.Table
/-!
Specification vocabulary for tables and interpolation.
-/

namespace Verif.Table
noncomputable section

/-- the entries 0, …, n-1 increase -/
def Increasing {α : Type} [LT α] (f : Nat → α) (n : Nat) : Prop := ∀ i j, i < j → j < n → f i < f j

/-- `i` is the first index whose entry is at least `x`; `n` if there is none -/
def IsFirst {α : Type} [LE α] [LT α] (f : Nat → α) (n : Nat) (x : α) (i : Nat) : Prop :=
  i ≤ n ∧ (∀ j, j < i → f j < x) ∧ (i < n → x ≤ f i)

/-- place of tick `i` -/
def Axis.tick (a : Axis) (i : Nat) : ℝ := a.start + i * a.step

/-- `x` is in the cell of the axis that starts at tick `i` -/
def Axis.In (a : Axis) (x : ℝ) (i : Nat) : Prop := i < a.n ∧ a.tick i ≤ x ∧ x < a.tick (i + 1)

/-- a function of three variables that is linear in each of them -/
def tri (c : Fin 8 → ℝ) (x y z : ℝ) : ℝ :=
  c 0 + c 1 * x + c 2 * y + c 3 * z + c 4 * (x * y) + c 5 * (y * z) + c 6 * (x * z) + c 7 * (x * y * z)

end
end Verif.Table
