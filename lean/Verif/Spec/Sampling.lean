import Verif.Model.Sampling
import Verif.Spec.Kinem
import Mathlib.MeasureTheory.Integral.Bochner.Set
/-!
Specification of distributions.
-/

namespace Verif.Sampling
open Solid Flight Homog Kinem
noncomputable section

/-- value of an observable of a result, 0 if there is none -/
def observe {α : Type} (f : α → ℝ) (o : Option α) : ℝ := match o with
  | none => 0
  | some x => f x

/-- expectation with the normal distribution of mean 0 and variance 1 -/
def normalMean (f : ℝ → ℝ) : ℝ := ∫ x : ℝ, f x * (Real.exp (-x ^ 2 / 2) / √(2 * Real.pi))

/-- expectation with the Lorentz distribution of half width 1 -/
def lorentzMean (f : ℝ → ℝ) : ℝ := ∫ x : ℝ, f x / (Real.pi * (1 + x ^ 2))

/-- two vectors that are perpendicular to `t`, to each other, and as long as `t` -/
def Across (t a b : V3 ℝ) : Prop :=
  a.dot t = 0 ∧ b.dot t = 0 ∧ a.dot b = 0 ∧ a.dot a = t.dot t ∧ b.dot b = t.dot t

/-- the direction at an angle of cosine `c` to `t` and with azimuth `φ` -/
def around (t a b : V3 ℝ) (c φ : ℝ) : V3 ℝ := c • t + √(1 - c ^ 2) • (Real.cos φ • a + Real.sin φ • b)

/-- cosine of the angle under which the edge of a disk is seen, whose centre is at `t` and which is perpendicular to `t`;
a negative radius stands for the complement of the cone in backward direction -/
def edge (t : V3 ℝ) (radius : ℝ) : ℝ := (if radius < 0 then -1 else 1) * (length t / √(t.dot t + radius ^ 2))

/-- integral over the directions of the unit sphere that are at an angle to `t` whose cosine is at least `c0` (area element
`dc dφ`) -/
def capIntegral (t a b : V3 ℝ) (c0 : ℝ) (f : V3 ℝ → ℝ) : ℝ :=
  ∫ c in c0..1, ∫ φ in (0 : ℝ)..2 * Real.pi, f (around t a b c φ)

end
end Verif.Sampling
