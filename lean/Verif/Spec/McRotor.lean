import Verif.Model.McRotor
import Verif.Spec.McStas
import Verif.Spec.McOptics
import Verif.Spec.McGuide
/-!
What a Fermi chopper should do: a package of slits turns with a cylinder around the axis y.
-/

namespace Verif.McRotor
open McStas McGuide

noncomputable section

/-- the angle of the chopper at the time `T` -/
def Frame.theta (f : Frame) (T : ℝ) : ℝ := f.omega * T + f.ph0

/-- a vector, seen from the chopper: the component across the slits -/
def Frame.across (f : Frame) (T : ℝ) (r : V3 ℝ) : ℝ := r.x * Real.cos (f.theta T) + r.z * Real.sin (f.theta T)
/-- a vector, seen from the chopper: the component along the slits -/
def Frame.along (f : Frame) (T : ℝ) (r : V3 ℝ) : ℝ := r.z * Real.cos (f.theta T) - r.x * Real.sin (f.theta T)

/-- where a point of the chopper is at the time `T`; `a` across and `b` along the slits -/
def Frame.fixed (f : Frame) (a b T : ℝ) : V3 ℝ :=
  ⟨a * Real.cos (f.theta T) - b * Real.sin (f.theta T), 0, b * Real.cos (f.theta T) + a * Real.sin (f.theta T)⟩

/-- the velocity relative to the points of the chopper at this place -/
def Frame.relative (f : Frame) (e : Event ℝ) : V3 ℝ := ⟨e.v.x + f.omega * e.r.z, e.v.y, e.v.z - f.omega * e.r.x⟩

/-- a mirror along the slits, which turns with the chopper, changes `e` to `e'` -/
def Mirror' (f : Frame) (e e' : Event ℝ) : Prop :=
  e'.r = e.r ∧ e'.t = e.t ∧ f.across e.t (f.relative e') = -f.across e.t (f.relative e) ∧
    f.along e.t (f.relative e') = f.along e.t (f.relative e) ∧ e'.v.y = e.v.y

/-- the parameters are accepted as they are -/
def Par.Good (p : Par) : Prop :=
  0 < p.height ∧ 0 < p.radius ∧ 0 < p.w ∧ 2 ≤ p.Nslit ∧ p.Nslit * p.w ≤ 2 * p.radius ∧ p.length ≤ 2 * p.radius ∧ 0 < p.m ∧ 0 < p.Qc ∧ 0 < p.W ∧
  0 < p.eff ∧ p.eff ≤ 1 ∧ p.width ≤ 0 ∧ p.rad = 0 ∧ p.slit = 0 ∧ p.alpham = 0 ∧ p.Wi = 0 ∧ p.curvature ≠ 0 ∧ |p.curvature| ≤ 1 / p.radius

/-- the place `x` is in the slit number `n` -/
def InSlit (w : ℝ) (n : ℤ) (x : ℝ) : Prop := n * w ≤ x ∧ x < (n + 1) * w

end
end Verif.McRotor
