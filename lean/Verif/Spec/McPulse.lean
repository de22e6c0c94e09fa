import Verif.Model.McPulse
import Verif.Spec.McSource
import Mathlib.Analysis.SpecialFunctions.ExpDeriv
/-!
Specification for the pulsed sources of McStas: the shapes of the pulses are those in the descriptions of the components
(`ESS_moderator_short.comp:36`, `ESS_moderator_long.comp:35-40`, after F. Mezei).
-/

namespace Verif.McPulse
noncomputable section
open Classical

/-- the short pulse F(t, tau, n) -/
def shortPulse (t tau n : ℝ) : ℝ := (Real.exp (-t / tau) - Real.exp (-n * t / tau)) * n / (n - 1) / tau

/-- the "pulse integral" function -/
def iexp (t tau d : ℝ) : ℝ :=
  if t < 0 then 0 else if t < d then tau * (1 - Real.exp (-t / tau)) else tau * (Real.exp (d / tau) - 1) * Real.exp (-t / tau)

/-- the long pulse I(t, tau, n, d) -/
def longPulse (t tau n d : ℝ) : ℝ := (iexp t tau d - iexp t (tau / n) d) * n / (n - 1) / tau / d

/-- the second spectrum, per wave length -/
def epithermal (I2 chi2 lambda : ℝ) : ℝ := I2 / (1 + Real.exp (chi2 * lambda - 2.2)) / lambda

/-- what a detector with the efficiency `f` of the time counts of a pulse with the shape `F`; because of the `1e-12` in the sampling of the
times they are between `-tau log (1 + 1e-12)` and `-tau log 1e-12` (27.6 tau) -/
def counts (tau : ℝ) (F f : ℝ → ℝ) : ℝ := ∫ t in (-(tau * Real.log (1 + 1e-12)))..(-(tau * Real.log 1e-12)), F t * f t

/-- the frames that are simulated: the pulse itself, and the pulses before and after it unless only one is wanted -/
def frames (branchframe dt : ℝ) (f : ℝ → ℝ) (t : ℝ) : ℝ := f t + if branchframe < 1 then f (t + dt) + f (t - dt) else 0

/-- times `time u`, of a uniform random number `u`, with the weights `weight u` represent the density `F` at `u`: weight = density * |dt/du| -/
def Represents (time weight F : ℝ → ℝ) (u : ℝ) : Prop := ∃ D, HasDerivAt time D u ∧ weight u = F (time u) * |D|

end
end Verif.McPulse
