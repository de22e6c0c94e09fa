import Verif.Spec.McMonitors
/-!
Specification for the monitors of McStas that surround the sample.
-/

namespace Verif.McMon
open McStas Kinem Flight Solid
noncomputable section

/-- the angle in degrees at which a neutron is seen from above, 0 along the beam -/
def azimuth (e : Event ℝ) : ℝ := Complex.arg ⟨e.r.z, e.r.x⟩ * 180 / Real.pi

/-- the height of a neutron above the horizontal plane, as an angle in degrees, on a sphere of radius `R` -/
def latitude (R : ℝ) (e : Event ℝ) : ℝ := Real.arcsin (e.r.y / R) * 180 / Real.pi

/-- the neutron `e` is in the cylinder (not on a flight along its axis, without gravity) and is `b` when it leaves it -/
def LeavesCylinder (G : Gravity) (r h : ℝ) (e b : Event ℝ) : Prop :=
  G.on = false ∧ (e.v.x ≠ 0 ∨ e.v.z ≠ 0) ∧ InCylinder e.r e.v r h 0 ∧
  ∃ s, InCylinder e.r e.v r h s ∧ (∀ s', InCylinder e.r e.v r h s' → s' ≤ s) ∧ b = flown G e s

/-- the flight is on the sphere at the time `s` -/
def OnSphere (R : ℝ) (e : Event ℝ) (s : ℝ) : Prop :=
  (e.r.x + s * e.v.x) ^ 2 + (e.r.y + s * e.v.y) ^ 2 + (e.r.z + s * e.v.z) ^ 2 = R ^ 2

/-- the neutron `e` is on the sphere for the first time as `b` -/
def MeetsSphere (G : Gravity) (R : ℝ) (e b : Event ℝ) : Prop :=
  ∃ s, 0 ≤ s ∧ OnSphere R e s ∧ (∀ s', 0 ≤ s' → OnSphere R e s' → s ≤ s') ∧ b = flown G e s

/-- the angle of the direction of flight above the horizontal plane in degrees -/
def elevation (v : V3 ℝ) : ℝ := Real.arcsin (v.y / length v) * 180 / Real.pi

/-- the angle of the direction of flight as seen from above in degrees -/
def bearing (v : V3 ℝ) : ℝ := Complex.arg ⟨v.z, v.x⟩ * 180 / Real.pi

end
end Verif.McMon
