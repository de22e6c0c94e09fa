import Verif.Model.McMonitors
import Verif.Spec.McStas
/-!
Specification for the monitors of McStas.
-/

namespace Verif.McMon
open McStas Kinem Flight Solid
noncomputable section
open Classical

/-- `x` is in channel `i` of the `n` channels from `lo` to `hi` -/
def InBin (lo hi : ℝ) (n i : Nat) (x : ℝ) : Prop :=
  lo + i * ((hi - lo) / n) ≤ x ∧ x < lo + (i + 1) * ((hi - lo) / n)

/-- number, sum of weights and sum of squared weights of the neutrons with a property -/
def tally (sel : Event ℝ → Prop) (es : List (Event ℝ)) : Cell :=
  ⟨(es.filter (sel ·)).length, ((es.filter (sel ·)).map (·.p)).sum, ((es.filter (sel ·)).map (·.p ^ 2)).sum⟩

/-- the neutron is in the area -/
def Inside (w : Window) (e : Event ℝ) : Prop := (w.xmin < e.r.x ∧ e.r.x < w.xmax) ∧ w.ymin < e.r.y ∧ e.r.y < w.ymax

/-- the neutron `e` flies towards the plane `z = 0` and is `a` when it arrives there.  With gravity its acceleration along `z` must be
0 or not tiny, and it must not start on the plane. -/
def Comes (G : Gravity) (e a : Event ℝ) : Prop :=
  (∃ s, Arrives V3.z G e s ∧ a = flown G e s) ∧
  ((G.on = false ∧ e.v.z ≠ 0) ∨ (G.on = true ∧ (G.g.z = 0 ∨ 2e-10 ≤ |G.g.z|) ∧ e.r.z * e.v.z < 0))

/-- the wavelength of a neutron, with `V2K` the wave number for the speed 1 -/
def wavelength (V2K : ℝ) (e : Event ℝ) : ℝ := 2 * Real.pi / (V2K * length e.v)

/-- the energy, with `VS2E` the energy for the speed 1 -/
def energy (VS2E : ℝ) (e : Event ℝ) : ℝ := VS2E * length e.v ^ 2

/-- the angle between the beam and the direction of flight in degrees, as seen from above -/
def horizontal (e : Event ℝ) : ℝ := Complex.arg ⟨e.v.z, e.v.x⟩ * 180 / Real.pi

/-- the angle between the beam and the direction of flight in degrees, as seen from the side -/
def vertical (e : Event ℝ) : ℝ := Complex.arg ⟨e.v.z, e.v.y⟩ * 180 / Real.pi

end
end Verif.McMon
