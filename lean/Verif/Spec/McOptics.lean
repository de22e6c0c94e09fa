import Verif.Model.McOptics
import Verif.Spec.McMonitors
/-!
Specification for slits, collimators, velocity selectors and choppers of McStas.
-/

namespace Verif.McOpt
open McStas Kinem Homog
noncomputable section
open Classical

/-- the neutron stopped where it is -/
def stopped (e : Event ℝ) : Event ℝ := { e with p := -1 }

/-- the opening of a slit (radius 0: rectangle) -/
def Slit.Open (s : Slit) (x y : ℝ) : Prop :=
  if s.radius = 0 then (s.xmin ≤ x ∧ x ≤ s.xmax) ∧ s.ymin ≤ y ∧ y ≤ s.ymax else x ^ 2 + y ^ 2 ≤ s.radius ^ 2

/-- the area of a beam stop (radius 0: rectangle) -/
def Stop.Area (s : Stop) (x y : ℝ) : Prop :=
  if s.radius = 0 then (s.xmin < x ∧ x < s.xmax) ∧ s.ymin < y ∧ y < s.ymax else x ^ 2 + y ^ 2 ≤ s.radius ^ 2

/-- the point is in a rectangle -/
def Within (xmin xmax ymin ymax : ℝ) (e : Event ℝ) : Prop := (xmin ≤ e.r.x ∧ e.r.x ≤ xmax) ∧ ymin ≤ e.r.y ∧ e.r.y ≤ ymax

/-- the part of the neutrons that enter a channel of width 1 anywhere and, moved sideways by `s`, leave through the same channel -/
def passing (s : ℝ) : ℝ := mean fun u => if 0 ≤ u + s ∧ u + s ≤ 1 then 1 else 0

/-- the part of the neutrons that pass blades of the length `len` and distance `len * tan divergence` (in minutes of arc);
divergence 0: no blades -/
def soller (len divergence v vz : ℝ) : ℝ :=
  if 0 < divergence then passing (len * (v / vz) / (len * Real.tan (Real.pi / 10800 * divergence))) else 1

/-- the part of the phases of a rotor with the period `P` and blades of width `c`, for which a neutron enters between two blades and,
moved by the angle `δ` relative to the rotor, leaves between the same blades -/
def passRotor (P c δ : ℝ) : ℝ :=
  mean fun u => if u * P ≤ P - c ∧ 0 ≤ u * P + δ ∧ u * P + δ ≤ P - c then 1 else 0

/-- the neutron without gravity when it has the coordinate `z` -/
def atZ (e : Event ℝ) (z : ℝ) : Event ℝ := flown ⟨false, 0⟩ e ((z - e.r.z) / e.v.z)

/-- the angle of a point around the axis of a rotor, from the top -/
def around (r0 : ℝ) (e : Event ℝ) : ℝ := Complex.arg ⟨e.r.y + r0, e.r.x⟩

/-- the distance of a point from the axis of a rotor -/
def offAxis (r0 : ℝ) (e : Event ℝ) : ℝ := √(e.r.x ^ 2 + (e.r.y + r0) ^ 2)

/-- the weight of a neutron unless it is absorbed -/
def kept : Option (Event ℝ) → ℝ
  | some e => if e.p < 0 then 0 else e.p
  | none => 0

/-- one of `n` slits of the angular width `θ`, that turn with `ω` and of which one is at the top at the time `t0`, is at the angle `α`
from the top at the time `t` -/
def SlitAt (ω n θ t0 α t : ℝ) : Prop := ∃ k : ℤ, |α - (ω * (t - t0) + k * (2 * Real.pi / n))| ≤ θ / 2

/-- the same without the edges -/
def SlitAt' (ω n θ t0 α t : ℝ) : Prop := ∃ k : ℤ, |α - (ω * (t - t0) + k * (2 * Real.pi / n))| < θ / 2

/-- the height of the slits of a disk chopper: the radius if none is given -/
def DiskPar.height (c : DiskPar) : ℝ := if c.h = 0 then c.R else c.h

/-- the height of a point above the axis of a disk chopper: the beam goes through the middle of the slits (`compat`: the edge of the
disk) -/
def DiskPar.above (c : DiskPar) (e : Event ℝ) : ℝ := e.r.y + (if c.compat then c.R else c.R - c.height / 2)

/-- the point is between the solid inner part and the edge of a disk chopper (or out of it, if that is open) -/
def DiskPar.Ring (c : DiskPar) (e : Event ℝ) : Prop :=
  (c.R - c.height) ^ 2 ≤ e.r.x ^ 2 + c.above e ^ 2 ∧ (c.absOut → e.r.x ^ 2 + c.above e ^ 2 ≤ c.R ^ 2)

/-- the angle of a point from the top of a disk chopper, to the side of `x` -/
def DiskPar.angle (c : DiskPar) (e : Event ℝ) : ℝ := Complex.arg ⟨c.above e, e.r.x⟩

end
end Verif.McOpt
