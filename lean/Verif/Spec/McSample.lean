import Verif.Model.McSample
import Verif.Spec.McGuide
import Mathlib.MeasureTheory.Measure.Lebesgue.Basic
/-!
Specification for the samples of McStas.
-/

namespace Verif.McSample
open McStas Kinem Solid McGuide McConst
noncomputable section
open Classical

/-- length of the way of a neutron in the region `M`, for the times in `S` -/
def way (M : V3 ℝ → Prop) (r v : V3 ℝ) (S : Set ℝ) : ℝ := length v * (MeasureTheory.volume {s | s ∈ S ∧ M (r + s • v)}).toReal

/-- the sample is a box -/
def VPar.Rect (c : VPar) : Prop := c.xwidth ≠ 0 ∧ c.yheight ≠ 0 ∧ c.zthick ≠ 0
/-- in the sample or in its hole -/
def VPar.Outer (c : VPar) (q : V3 ℝ) : Prop :=
  if c.Rect then |q.x| ≤ c.xwidth / 2 ∧ |q.y| ≤ c.yheight / 2 ∧ |q.z| ≤ c.zthick / 2 else q.x ^ 2 + q.z ^ 2 ≤ c.radius_o ^ 2 ∧ |q.y| ≤ c.h / 2
/-- in the hole of the cylinder -/
def VPar.Hole (c : VPar) (q : V3 ℝ) : Prop := ¬ c.Rect ∧ c.radius_i ≠ 0 ∧ q.x ^ 2 + q.z ^ 2 ≤ c.radius_i ^ 2 ∧ |q.y| ≤ c.h / 2
/-- in the material of the sample -/
def VPar.Material (c : VPar) (q : V3 ℝ) : Prop := c.Outer q ∧ ¬ c.Hole q

/-- a sample with a volume -/
def VPar.Valid (c : VPar) : Prop :=
  c.V0 ≠ 0 ∧ (c.Rect → 0 < c.xwidth ∧ 0 < c.yheight ∧ 0 < c.zthick) ∧ (¬ c.Rect → 0 < c.radius_o ∧ 0 < c.h ∧ 0 ≤ c.radius_i ∧ c.radius_i ≤ c.radius_o)

/-- the neutron flies, and neither through the edge of a box nor along the axis of a cylinder -/
def VPar.Clear (c : VPar) (r v : V3 ℝ) : Prop :=
  v ≠ 0 ∧ (c.Rect → NoEdge r v ⟨c.xwidth, c.yheight, c.zthick⟩) ∧ (¬ c.Rect → v.x ≠ 0 ∨ v.z ≠ 0)

/-- macroscopic cross section for scattering, 1/m (1 barn / AA^3 is 100 / m) -/
def VPar.muS (c : VPar) : ℝ := 100 * c.sig_i * c.pack / c.V0
/-- macroscopic cross section for absorption at the speed `v` (m/s), 1/m: given for 2200 m/s -/
def VPar.muA (c : VPar) (v : ℝ) : ℝ := 100 * c.sig_a * c.pack / c.V0 * (2200 / v)

/-- weight of a neutron scattered once, from `e` to `e'`, `T` after `e`: probability to reach the point, density of scattering there for a
point taken from the whole way, solid angle, way out with absorption only -/
def VPar.single (c : VPar) (e e' : Event ℝ) (T Ω : ℝ) : ℝ :=
  e.p * Real.exp (-(c.muS + c.muA (length e.v)) * way c.Material e.r e.v (Set.Icc 0 T)) *
    (c.muS * way c.Material e.r e.v (Set.Ici 0)) * (length e'.v / length e.v) * (Ω / (4 * Real.pi)) *
    Real.exp (-c.muA (length e'.v) * way c.Material e'.r e'.v (Set.Ici 0))

/-- the weight of the neutron; 0 without a result -/
def weight (r : Except Err (Event ℝ)) : ℝ := match r with
  | .ok e => e.p
  | .error _ => 0

/-- in the box of the SANS sample -/
def Sans.Box (c : Sans) (q : V3 ℝ) : Prop := |q.x| ≤ c.xwidth / 2 ∧ |q.y| ≤ c.yheight / 2 ∧ |q.z| ≤ c.zthick / 2

/-- volume of a sphere -/
def ball (R : ℝ) : ℝ := 4 * Real.pi * R ^ 3 / 3

/-- the scattering amplitude of a homogeneous sphere of unit density: the Fourier transform of the sphere, as integral over its shells -/
def amplitude (q R : ℝ) : ℝ := ∫ r in (0 : ℝ)..R, 4 * Real.pi * r ^ 2 * (Real.sin (q * r) / (q * r))

/-- weight of a neutron scattered once by spheres, from `e` to `e'`, `T` after `e`: way × solid angle of the detector × cross section per volume
and solid angle (number of spheres per volume × square of contrast times amplitude) × absorption, for a macroscopic cross section `mu` at
2200 m/s -/
def Sans.law (c : Sans) (mu : ℝ) (e e' : Event ℝ) (T : ℝ) : ℝ :=
  e.p * way c.Box e.r e.v (Set.Ici 0) * (2 * Real.pi * (1 - Sampling.edge ⟨0, 0, c.dist⟩ c.Rdet)) *
    (c.Phi / ball c.R * (c.Delta_rho * amplitude (V2K * length (e.v - e'.v)) c.R) ^ 2) *
    Real.exp (-(mu * (2200 / length e.v)) * (way c.Box e.r e.v (Set.Icc 0 T) + way c.Box e'.r e'.v (Set.Ici 0)))

end
end Verif.McSample
