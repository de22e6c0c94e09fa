import Verif.Model.McSource
import Verif.Spec.Homog
/-!
Specification for the sources of McStas.
-/

namespace Verif.McSource
open McStas Kinem Solid McGuide McConst
noncomputable section

/-- the neutron starts in the plane of the source at time 0 -/
def Starts (e : Event ℝ) : Prop := e.r.z = 0 ∧ e.t = 0

/-- it flies through the point (X, Y) of the plane at the distance `dist`, after the time `T` -/
def Through (dist X Y : ℝ) (e : Event ℝ) : Prop := ∃ T : ℝ, 0 < T ∧ e.r + T • e.v = ⟨X, Y, dist⟩

/-- the element of solid angle per area of the target at the point (X, Y), seen from the point (x, y) of the source -/
def solid (dist x y X Y : ℝ) : ℝ := dist / √((X - x) ^ 2 + (Y - y) ^ 2 + dist ^ 2) ^ 3

/-- integral over the target -/
def overTarget (xw yh : ℝ) (f : ℝ → ℝ → ℝ) : ℝ := ∫ X in (-(xw / 2))..(xw / 2), ∫ Y in (-(yh / 2))..(yh / 2), f X Y

/-- the neutron has the energy `E` (meV), with the constant of McStas -/
def Energy (e : Event ℝ) (E : ℝ) : Prop := 0 ≤ E ∧ length e.v = SE2V * √E

/-- the neutron has the wave length `L` (AA), with the constant of McStas -/
def Wave (e : Event ℝ) (L : ℝ) : Prop := 0 < L ∧ length e.v = K2V * (2 * Real.pi / L)

/-- the point is in a rectangle around the origin -/
def InRect (w h X Y : ℝ) : Prop := |X| ≤ w / 2 ∧ |Y| ≤ h / 2

/-- the primitive of the Maxwell spectrum: (1 + a / l^2) exp (-a / l^2) with a = 949 / T -/
def maxwellBelow (T l : ℝ) : ℝ := (1 + 949 / T / l ^ 2) * Real.exp (-(949 / T / l ^ 2))

end
end Verif.McSource
