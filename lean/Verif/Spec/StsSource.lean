import Verif.Model.StsSource
import Mathlib.MeasureTheory.Integral.IntervalIntegral.Basic
/-!
What is expected of a moderator of the second target station.
-/

namespace Verif.StsSource
noncomputable section

/-- the face of a moderator that is a cylinder of radius `R` with its normal at the middle (0, 0, 0) turned by `a` from the beam -/
def OnFace (R a : ℝ) (r : V3 ℝ) : Prop := (r.x + R * Real.sin a) ^ 2 + (r.z + R * Real.cos a) ^ 2 = R ^ 2

/-- where a neutron is when it gets to the plane at `dist` -/
def arrival (dist : ℝ) (r v : V3 ℝ) : ℝ × ℝ := (r.x + (dist - r.z) / v.z * v.x, r.y + (dist - r.z) / v.z * v.y)

/-- the solid angle of the directions with horizontal angles between `a` and `b` and vertical angles between `c` and `d` -/
def solidAngle (a b c d : ℝ) : ℝ := ∫ _θ in a..b, ∫ φ in c..d, Real.cos φ

end
end Verif.StsSource
