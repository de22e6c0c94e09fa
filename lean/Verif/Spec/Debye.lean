import Verif.Model.Debye
import Mathlib.MeasureTheory.Integral.IntervalIntegral.Basic
import Mathlib.Analysis.SpecialFunctions.Trigonometric.DerivHyp
/-!
Specification for the thermal motion of atoms.
-/

namespace Verif.Debye
noncomputable section

/-- the Debye function of order one with the zero point: 1/2 + 2 θ^2 ∫ x / (e^x - 1) from 0 to 1/θ -/
def debye1 (θ : ℝ) : ℝ := 1 / 2 + 2 * θ ^ 2 * ∫ x in (0 : ℝ)..1 / θ, x / (Real.exp x - 1)

/-- the Debye function of order three with the zero point: 1/4 + 2 θ^4 ∫ x^3 / (e^x - 1) from 0 to 1/θ -/
def debye3 (θ : ℝ) : ℝ := 1 / 4 + 2 * θ ^ 4 * ∫ x in (0 : ℝ)..1 / θ, x ^ 3 / (Real.exp x - 1)

/-- Mean square displacement in one direction of an atom of the mass `m`, if the modes have frequencies with the density 3 ω^2 / ωD^3 up to ωD = k TD / ħ
and the temperature is `T`: ħ / (2 m) times the mean of coth (ħ ω / (2 k T)) / ω. -/
def displacement (hbar k m TD T : ℝ) : ℝ :=
  hbar / (2 * m) * ∫ ω in (0 : ℝ)..k * TD / hbar,
    3 * ω ^ 2 / (k * TD / hbar) ^ 3 * (Real.cosh (hbar * ω / (2 * k * T)) / Real.sinh (hbar * ω / (2 * k * T)) / ω)

end
end Verif.Debye
