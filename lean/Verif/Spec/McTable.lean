import Verif.Model.McTable
/-!
Specification for the tables of the McStas components.
-/

namespace Verif.McTable
noncomputable section

/-- the element of a table in a row and a column -/
def Table.cell (t : Table) (i j : Nat) : ℝ := t.data (i * t.columns + j)

/-- a table with at least two rows and columns and an increasing first column of numbers in the range of a float -/
def Table.Increasing (t : Table) : Prop :=
  2 ≤ t.rows ∧ 2 ≤ t.columns ∧ (∀ i, i + 1 < t.rows → t.cell i 0 < t.cell (i + 1) 0) ∧ -fltMax ≤ t.cell 0 0 ∧
    t.cell (t.rows - 1) 0 ≤ fltMax

/-- `v` is the value at `X` of the function with the points in the first and the `j`-th column, linear between them and constant outside -/
def Table.Linear (t : Table) (j : Nat) (X v : ℝ) : Prop :=
  (X ≤ t.cell 0 0 → v = t.cell 0 j) ∧ (t.cell (t.rows - 1) 0 ≤ X → v = t.cell (t.rows - 1) j) ∧
  ∀ i, i + 1 < t.rows → t.cell i 0 ≤ X → X ≤ t.cell (i + 1) 0 →
    v = t.cell i j + (t.cell (i + 1) j - t.cell i j) * ((X - t.cell i 0) / (t.cell (i + 1) 0 - t.cell i 0))

end
end Verif.McTable
