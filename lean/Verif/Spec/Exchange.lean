import Verif.Model.Exchange
/-!
Specification of the exchange of neutrons with other programs.
-/

namespace Verif.Exchange
noncomputable section

/-- the direction described by the two spin numbers: polar angle from the vertical axis y, azimuth from z towards x -/
def spinDir (s1 s2 : ℝ) : V3 ℝ := ⟨Real.sin s1 * Real.sin s2, Real.cos s1, Real.sin s1 * Real.cos s2⟩

/-- two neutrons that agree in everything, the spin compared as a direction -/
structure SameState (a b : Event ℝ) : Prop where
  r : a.r = b.r
  v : a.v = b.v
  t : a.t = b.t
  p : a.p = b.p
  spin : spinDir a.s1 a.s2 = spinDir b.s1 b.s2

/-- spin numbers in the range of spherical coordinates; no azimuth at the poles -/
def Canonical (s1 s2 : ℝ) : Prop :=
  (0 < s1 ∧ s1 < Real.pi ∧ -Real.pi < s2 ∧ s2 ≤ Real.pi) ∨ ((s1 = 0 ∨ s1 = Real.pi) ∧ s2 = 0)

/-- the intensity represented by a file of mcvine neutrons: the mean weight -/
def meanWeight (evs : List (Event ℝ)) : ℝ := (evs.map Event.p).sum / evs.length

/-- the intensity represented by an MCPL file: the sum of the weights -/
def totalWeight (ps : List Particle) : ℝ := (ps.map Particle.weight).sum

/-- a neutron in the units and axes of Vitess (cm, ms, Å, x along the beam, unit vector of the flight direction) and the
same neutron in those of mcvine (m, s, m/s, z along the beam) -/
structure SamePhysics (n : VNeutron) (ev : Event ℝ) : Prop where
  x : n.position.x = 100 * ev.r.z
  y : n.position.y = 100 * ev.r.x
  z : n.position.z = 100 * ev.r.y
  t : n.time = 1000 * ev.t
  p : n.probability = ev.p
  unit : n.vector.dot n.vector = 1
  speed : n.wavelength * √(ev.v.dot ev.v) = 3956.0346
  vx : ev.v.z = √(ev.v.dot ev.v) * n.vector.x
  vy : ev.v.x = √(ev.v.dot ev.v) * n.vector.y
  vz : ev.v.y = √(ev.v.dot ev.v) * n.vector.z

end

end Verif.Exchange
