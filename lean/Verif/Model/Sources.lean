import Verif.Model.Exchange
/-!
Test sources and the radial collimator of `packages/mcni/python/mcni/components/`: `NeutronsOnCone_FixedQE.py`,
`MonochromaticSource.py`, `RadialCollimator.py`.

Real numbers instead of doubles; random numbers are arguments.  A result that is not a number is `none`.
-/

namespace Verif.Sources
open Solid Flight Homog Kinem Exchange
noncomputable section
open Classical

/-- `e2k`, `mcni/utils/conversion.py:27-33`; same constants as the C++ function, factors in another order -/
def e2k (E : ℝ) : Option ℝ := do some (v2k * (← E2v E))

/-- members of `NeutronsOnCone_FixedQE`, `NeutronsOnCone_FixedQE.py:49-53` -/
structure Cone where
  vz : ℝ
  vp : ℝ
  t0 : ℝ

/-- `NeutronsOnCone_FixedQE.__init__`, `NeutronsOnCone_FixedQE.py:31-54`.  A comparison with something that is not a number
is false, so that the assertion of line 39 fails.  `acos` outside of [-1, 1] and the division by zero of line 53 are
errors of Python. -/
def Cone.new (Q E Ei L1 : ℝ) : Except Err Cone :=
  let Ef := Ei - E
  match e2k Ei, e2k Ef, E2v Ei, E2v Ef with
  | some ki, some kf, some vi, some vf =>
    if Q > |kf - ki| ∧ Q < ki + kf then
      if ki = 0 ∨ kf = 0 ∨ vi = 0 then .error .zeroDivision
      else
        let cost := (ki * ki + kf * kf - Q * Q) / 2 / ki / kf
        if cost < -1 ∨ 1 < cost then .error .valueError
        else
          let theta := Real.arccos cost
          .ok ⟨vf * Real.cos theta, vf * Real.sin theta, L1 / vi⟩
    else .error .assertionError
  | _, _, _, _ => .error .assertionError

/-- one neutron of `NeutronsOnCone_FixedQE.process`, `NeutronsOnCone_FixedQE.py:64-70`; `u` is the random number -/
def Cone.emit (c : Cone) (u : ℝ) : Event ℝ :=
  let phi := u * 2 * Real.pi
  ⟨⟨0, 0, 0⟩, ⟨c.vp * Real.cos phi, c.vp * Real.sin phi, c.vz⟩, 0, 0, c.t0, 1⟩

/-- `NeutronsOnCone_FixedQE.process`, `NeutronsOnCone_FixedQE.py:57-72`: every neutron of the buffer is replaced -/
def Cone.process (c : Cone) (us : List ℝ) : List (Event ℝ) := us.map c.emit

/-- random numbers for one neutron of the monochromatic source: two uniform, one of a standard normal distribution,
`MonochromaticSource.py:62-63,71` -/
structure Draw where
  ux : ℝ
  uy : ℝ
  g : ℝ

/-- `MonochromaticSource`, `MonochromaticSource.py:36-41` -/
structure Mono where
  neutron : Event ℝ
  dx : ℝ
  dy : ℝ
  dE : ℝ

/-- one neutron of `_process`, `MonochromaticSource.py:57-77`; `normal(loc, scale)` is `loc + scale * g`, `energy()` is
`mcni/lib/neutron/State.h:57-58` -/
def Mono.spread (s : Mono) (d : Draw) : Option (Event ℝ) := do
  let x := s.neutron.r.x + (d.ux - 0.5) * s.dx
  let y := s.neutron.r.y + (d.uy - 0.5) * s.dy
  let E0 := v2E (length s.neutron.v)
  let sample := E0 + s.dE * d.g
  let f ← sqrtD (← divD sample E0)
  some { s.neutron with r := ⟨x, y, s.neutron.r.z⟩, v := ⟨s.neutron.v.x * f, s.neutron.v.y * f, s.neutron.v.z * f⟩ }

/-- one neutron of `_process_area`, `MonochromaticSource.py:89-98` -/
def Mono.area (s : Mono) (d : Draw) : Event ℝ :=
  { s.neutron with r := ⟨s.neutron.r.x + (d.ux - 0.5) * s.dx, s.neutron.r.y + (d.uy - 0.5) * s.dy, s.neutron.r.z⟩ }

/-- the method chosen in `__init__`, `MonochromaticSource.py:42-47`, applied to a buffer with as many neutrons as there are
draws -/
def Mono.process (s : Mono) (ds : List Draw) : List (Option (Event ℝ)) :=
  if s.dx = 0 ∧ s.dy = 0 ∧ s.dE = 0 then ds.map fun _ => some s.neutron
  else if s.dE = 0 then ds.map fun d => some (s.area d)
  else ds.map s.spread

/-- places of the blades, `RadialCollimator.py:66-74` -/
inductive Blades where
  | even (theta1 theta2 dtheta : ℝ)
  | list (theta_list : List ℝ)

/-- `RadialCollimator`, `RadialCollimator.py:46-76` -/
structure Collimator where
  radius1 : ℝ
  height1 : ℝ
  radius2 : ℝ
  height2 : ℝ
  blades : Blades
  oscillation : ℝ

/-- `self.theta_min`, `RadialCollimator.py:67,71` (an empty list, an `IndexError` in Python, gives 0) -/
def Blades.min : Blades → ℝ
  | .even a _ _ => a
  | .list l => l.headD 0

/-- `self.theta_max`, `RadialCollimator.py:68,72` (an empty list, an `IndexError` in Python, gives 0) -/
def Blades.max : Blades → ℝ
  | .even _ b _ => b
  | .list l => l.getLastD 0

/-- the number of the channel, `RadialCollimator.py:37-40`: `//` rounds down (a spacing of 0 is not modelled), and
`np.digitize` of an increasing list counts the entries not above the angle -/
def Blades.channel : Blades → ℝ → ℤ
  | .even a _ d, theta => ⌊(theta - a) / d⌋
  | .list l, theta => ((l.filter fun b => b ≤ theta).length : ℤ)

/-- `intersectCylinder`, `RadialCollimator.py:78-86` (the height is not used) -/
def intersectCylinder (r v : V3 ℝ) (radius : ℝ) : Option (V3 ℝ) := do
  let A := v.x * v.x + v.y * v.y
  let B := 2 * (r.x * v.x + r.y * v.y)
  let C := r.x * r.x + r.y * r.y - radius * radius
  let s ← sqrtD (B * B - 4 * A * C)
  let t ← divD ((s - B) / 2) A
  some ⟨r.x + v.x * t, r.y + v.y * t, r.z + v.z * t⟩

/-- one neutron in `RadialCollimator.process`, `RadialCollimator.py:25-40`; `u` is the random number.  Comparisons with
something that is not a number are false. -/
def Collimator.good (c : Collimator) (u : ℝ) (ev : Event ℝ) : Bool :=
  let theta_osc := c.oscillation * u
  match intersectCylinder ⟨ev.r.z, ev.r.x, ev.r.y⟩ ⟨ev.v.z, ev.v.x, ev.v.y⟩ c.radius1,
      intersectCylinder ⟨ev.r.z, ev.r.x, ev.r.y⟩ ⟨ev.v.z, ev.v.x, ev.v.y⟩ c.radius2 with
  | some p1, some p2 =>
    let theta1 := arctan2 p1.y p1.x + theta_osc
    let theta2 := arctan2 p2.y p2.x + theta_osc
    decide (p1.z < c.height1 / 2 ∧ p1.z > -c.height1 / 2 ∧ p2.z < c.height2 / 2 ∧ p2.z > -c.height2 / 2 ∧
      theta1 > c.blades.min ∧ theta1 < c.blades.max ∧ theta2 > c.blades.min ∧ theta2 < c.blades.max ∧
      c.blades.channel theta1 = c.blades.channel theta2)
  | _, _ => false

/-- `RadialCollimator.process`, `RadialCollimator.py:13-44`: the good neutrons in their order, unchanged -/
def Collimator.process (c : Collimator) (ns : List (ℝ × Event ℝ)) : List (Event ℝ) :=
  (ns.filter fun n => c.good n.1 n.2).map Prod.snd

end
end Verif.Sources
