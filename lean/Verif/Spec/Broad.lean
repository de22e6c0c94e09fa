import Verif.Model.Broad
import Verif.Spec.Sampling
import Mathlib.MeasureTheory.Integral.Prod
import Mathlib.Probability.Distributions.Gaussian.Real
import Mathlib.Probability.Distributions.Cauchy
/-!
Specification of broadened dispersion curves and of scattering by spheres.
-/

namespace Verif.Broad
open Solid Flight Homog Kinem Sampling MeasureTheory
noncomputable section
open Classical

/-- the momentum and energy transfer is possible for the neutron -/
def Possible (v : V3 ℝ) (Q E : ℝ) : Prop := E < energy v ∧ Closes v Q E

/-- the normal distribution with mean 0 and variance 1 -/
def normalLaw : Measure ℝ := ProbabilityTheory.gaussianReal 0 1

/-- the Lorentz distribution of half width 1 -/
def lorentzLaw : Measure ℝ := ProbabilityTheory.cauchyMeasure 0 1

/-- expectation over a uniform random number and one of the distribution `ν` -/
def pairMean (ν : Measure ℝ) (f : ℝ → ℝ → ℝ) : ℝ := mean fun u => ∫ g, f u g ∂ν

/-- expectation over `n` such pairs -/
def pairsMean (ν : Measure ℝ) : Nat → (List (ℝ × ℝ) → ℝ) → ℝ
  | 0, f => f []
  | n + 1, f => pairMean ν fun u g => pairsMean ν n fun us => f ((u, g) :: us)

/-- the scattered intensity with the observable `G` of energy and momentum transfer, for
`S(Q,E) = S(Q) w(E - E(Q))` where `w` is the density of `ν` stretched by the width: the integral over momentum
transfers and over deviations from the curve, with the factor `Q / (2 ki²)` that comes from the integral over directions -/
def lineTruth (k : Line) (ν : Measure ℝ) (G : ℝ → ℝ → ℝ) (ev : Ev) : ℝ :=
  ev.p / (2 * kOf ev.v ^ 2) * ∫ Q in k.Qmin..k.Qmax, ∫ g, (if Possible ev.v Q (k.E Q + g * k.W Q) then
    k.S Q * Q * G (k.E Q + g * k.W Q) Q else 0) ∂ν

/-- probability that momentum and energy transfer of the curve are not possible -/
def lineMiss (k : Line) (ν : Measure ℝ) (ev : Ev) : ℝ :=
  mean fun u => ∫ g, (if Possible ev.v (k.Qmin + u * (k.Qmax - k.Qmin))
    (k.E (k.Qmin + u * (k.Qmax - k.Qmin)) + g * k.W (k.Qmin + u * (k.Qmax - k.Qmin))) then 0 else 1) ∂ν

/-- a range of momentum transfers, measurable functions, and a bounded observable that is 0 if nothing is transferred -/
structure Regular (k : Line) (G : ℝ → ℝ → ℝ) : Prop where
  range : 0 ≤ k.Qmin ∧ k.Qmin < k.Qmax
  mE : Measurable k.E
  mS : Measurable k.S
  mW : Measurable k.W
  bS : ∃ C, ∀ Q, |k.S Q| ≤ C
  mG : Measurable fun z : ℝ × ℝ => G z.1 z.2
  bG : ∃ C, ∀ E Q, |G E Q| ≤ C
  zG : G 0 0 = 0

/-- a maximal angle that has a tangent other than 0 -/
def Proper (k : Spheres) : Prop := (0 < k.maxAngle ∧ k.maxAngle < 90) ∨ (90 < k.maxAngle ∧ k.maxAngle < 180)

/-- form factor of a sphere of radius 1 -/
def formFactor (x : ℝ) : ℝ := 3 * (Real.sin x - x * Real.cos x) / x ^ 3

/-- length of the change of the wave vector -/
def momentum (ev ev' : Ev) : ℝ := √((wave ev.v - wave ev'.v).dot (wave ev.v - wave ev'.v))

/-- differential cross section per volume and solid angle of spheres of volume fraction `phi` -/
def density (k : Spheres) (q : ℝ) : ℝ :=
  k.phi * (4 * Real.pi / 3 * k.R ^ 3) * k.deltaRho ^ 2 * formFactor (q * k.R) ^ 2

/-- integral of the differential cross section times an observable of the momentum transfer, over the directions at an angle
whose cosine is at least `c0`; `K` is the wave number -/
def spheresTruth (k : Spheres) (G : ℝ → ℝ) (K c0 : ℝ) : ℝ :=
  ∫ c in c0..1, 2 * Real.pi * (density k (K * √(2 * (1 - c))) * G (K * √(2 * (1 - c))))

/-- weight of the outcome times an observable of the length of the momentum transfer -/
def weighQ (G : ℝ → ℝ) (ev : Ev) (o : Option Ev) : ℝ := match o with
  | none => 0
  | some ev' => ev'.p * G (momentum ev ev')

/-- sum of the squares of the spherical Bessel functions of order 0 and 1 -/
def besselSq (x : ℝ) : ℝ := (Real.sin x / x) ^ 2 + ((Real.sin x - x * Real.cos x) / x ^ 2) ^ 2

end
end Verif.Broad
