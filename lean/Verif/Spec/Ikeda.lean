import Verif.Model.Ikeda
import Mathlib.MeasureTheory.Integral.IntervalIntegral.Basic
/-!
Specification for the moderators with an analytic pulse.
-/

namespace Verif.Ikeda
noncomputable section
open Classical

/-- the density of the slowing down time -/
def slow (a t : ℝ) : ℝ := if t < 0 then 0 else a / 2 * (a * t) ^ 2 * Real.exp (-a * t)

/-- the density of a slowing down time followed by a storage with the decay constant `b` -/
def stored (a b t : ℝ) : ℝ := ∫ s in (0 : ℝ)..t, slow a s * (b * Real.exp (-b * (t - s)))

/-- the density of the emission time of Ikeda and Carpenter: the fraction `R` is stored; the emission begins ten times `t0` after the protons -/
def pulse (a b R t0 t : ℝ) : ℝ :=
  if t < 10 * t0 then 0 else (1 - R) * slow a (t - 10 * t0) + R * stored a b (t - 10 * t0)

/-- the same for protons that arrive uniformly in the time from 0 to `T` -/
def long (a b R t0 T t : ℝ) : ℝ := (∫ s in (0 : ℝ)..T, pulse a b R t0 (t - s)) / T

/-- the part of a density `f` between two times -/
def part (f : ℝ → ℝ) (t1 t2 : ℝ) : ℝ := ∫ t in t1..t2, f t

/-- the number `r` is the part of the density before `t` up to `eps`, in the range from `t1` to `t2` -/
def Quantile (f : ℝ → ℝ) (t1 t2 r eps t : ℝ) : Prop := t1 ≤ t ∧ t ≤ t2 ∧ |part f t1 t / part f t1 t2 - r| ≤ eps

/-- the contribution of a neutron to a monitor of the efficiency `h`: `x` is the energy (or the time) and the weight -/
def gain (h : ℝ → ℝ) : Except Err (ℝ × ℝ) → ℝ
  | .ok x => x.2 * h x.1
  | .error _ => 0

end
end Verif.Ikeda
