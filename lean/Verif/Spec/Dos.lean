import Verif.Model.Dos
import Mathlib.Analysis.SpecialFunctions.Trigonometric.DerivHyp
import Mathlib.MeasureTheory.Integral.IntervalIntegral.Basic
/-!
Specification vocabulary for densities of states.
-/

namespace Verif.Dos
noncomputable section

/-- value of the density of states; 0 if an exception is raised -/
def Density.val (d : Density) (e : ℝ) : ℝ := match d.at e with
  | .ok x => x
  | .error _ => 0

/-- temperature in energy units -/
def kT (T : ℝ) : ℝ := T * kelvin2meV

/-- hyperbolic cotangent -/
def coth (x : ℝ) : ℝ := Real.cosh x / Real.sinh x

/-- the integrand of the Debye-Waller factor: `Z(w) coth(w / 2kT) / w` -/
def dwIntegrand (Z : ℝ → ℝ) (T w : ℝ) : ℝ := Z w * coth (w / (2 * kT T)) / w

/-- ħ²/2M in meV Å², for the mass in atomic mass units, constants of `constants.h` -/
def recoil (mass : ℝ) : ℝ :=
  (1.05457148e-34) ^ 2 * 1e20 / (2 * (mass * 1.66053886e-27)) / (1.60217653e-19 / 1000)

/-- data points of the table that are valid for a density of states -/
structure Valid (e0 de : ℝ) (Z : List ℝ) : Prop where
  start : 0 ≤ e0
  step : 0 < de
  two : 2 ≤ Z.length
  nonneg : ∀ z ∈ Z, 0 ≤ z
  pos : 0 < Z.sum

end
end Verif.Dos
