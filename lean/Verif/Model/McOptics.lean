import Verif.Model.McStas
import Verif.Model.Frames
import Verif.Model.Powder
import Mathlib.Analysis.SpecialFunctions.Trigonometric.Arctan
/-!
Optical components of McStas, `packages/legacycomponents/mcstas2/share/McStas-Components/optics/*.comp` (all files cited below are in
this directory): slit, beam stop, collimator, velocity selectors and disk choppers.

Real numbers instead of doubles.  `ABSORB` is `absorb` and the end of `trace` (`tracing_macros.h:32`).  A number that is not finite is
`none`.  Random numbers are arguments: `u` for `rand01()`, `g` for `randnorm()`.  `MIN2RAD` is π/10800, `DEG2RAD` is π/180, `RAD2DEG`
is 180/π (`mcstas_compact/constants.h`).
-/

namespace Verif.McOpt
open McStas Kinem
noncomputable section
open Classical

/-! ### slit and beam stop -/

/-- the parameters of `Slit.comp:46` after `INITIALIZE` -/
structure Slit where
  (xmin xmax ymin ymax radius cut : ℝ)

/-- `Slit.comp:49-56`; `exit` is `cppException` -/
def Slit.new (xmin xmax ymin ymax radius cut width height : ℝ) : Except Err Slit :=
  let (xmin, xmax) := if width > 0 then (-(width / 2), width / 2) else (xmin, xmax)
  let (ymin, ymax) := if height > 0 then (-(height / 2), height / 2) else (ymin, ymax)
  if xmin = 0 ∧ xmax = 0 ∧ ymin = 0 ∧ ymax = 0 ∧ radius = 0 then .error .cppException
  else .ok ⟨xmin, xmax, ymin, ymax, radius, cut⟩

/-- `Slit.comp:58-69` -/
def slit (s : Slit) (G : Gravity) (e : Event ℝ) : Event ℝ :=
  let e := propZ0 G e
  if (s.radius = 0 ∧ (e.r.x < s.xmin ∨ e.r.x > s.xmax ∨ e.r.y < s.ymin ∨ e.r.y > s.ymax)) ∨
      (s.radius ≠ 0 ∧ e.r.x * e.r.x + e.r.y * e.r.y > s.radius * s.radius) then absorb e
  else if e.p < s.cut then absorb e
  else e

/-- the parameters of `Beamstop.comp:44` -/
structure Stop where
  (xmin xmax ymin ymax radius : ℝ)

/-- `Beamstop.comp:55-79` -/
def beamstop (s : Stop) (G : Gravity) (e : Event ℝ) : Event ℝ :=
  let a := propZ0 G e
  if (s.radius ≠ 0 ∧ a.r.x * a.r.x + a.r.y * a.r.y ≤ s.radius * s.radius) ∨
      (s.radius = 0 ∧ (a.r.x > s.xmin ∧ a.r.x < s.xmax ∧ a.r.y > s.ymin ∧ a.r.y < s.ymax)) then absorb a
  else e

/-! ### collimator -/

/-- the parameters of `Collimator_linear.comp:50` -/
structure Coll where
  (xmin xmax ymin ymax len divergence transmission divergenceV : ℝ)

/-- the test whether the neutron is out of the opening, `Collimator_linear.comp:68` and 72 -/
def Coll.out (c : Coll) (e : Event ℝ) : Prop := e.r.x < c.xmin ∨ e.r.x > c.xmax ∨ e.r.y < c.ymin ∨ e.r.y > c.ymax

/-- `slope` and `slopeV`, `Collimator_linear.comp:60-61` -/
def Coll.slope (divergence : ℝ) : ℝ := Real.tan (Real.pi / 10800 * divergence)

/-- the blades of one direction, `Collimator_linear.comp:75-83` and 84-91 (`some none`: absorbed) -/
def Coll.blades (slope transmission v vz : ℝ) (p : ℝ) : Option (Option ℝ) :=
  if slope > 0 then do
    let phi := |← divD v vz|
    if phi > slope then some none else some (some (p * (transmission * (1 - phi / slope))))
  else some (some p)

/-- `Collimator_linear.comp:63-92` -/
def collimator (c : Coll) (G : Gravity) (e : Event ℝ) : Option (Event ℝ) :=
  let e := propZ0 G e
  if c.out e then some (absorb e)
  else do
    let dt ← divD c.len e.v.z
    let e := propDt G dt e
    if c.out e then some (absorb e)
    else match ← Coll.blades (Coll.slope c.divergence) c.transmission e.v.x e.v.z e.p with
      | none => some (absorb e)
      | some p =>
        let e := { e with p := p }
        match ← Coll.blades (Coll.slope c.divergenceV) c.transmission e.v.y e.v.z e.p with
        | none => some (absorb e)
        | some p => some { e with p := p }

/-! ### velocity selectors -/

/-- the parameters of `V_selector.comp:55` -/
structure VSel where
  (width height l0 r0 phi l1 tb rot nb : ℝ)

/-- the test whether the neutron is out of the aperture, `V_selector.comp:73` and 88 -/
def VSel.out (s : VSel) (e : Event ℝ) : Prop :=
  e.r.x < -s.width / 2 ∨ e.r.x > s.width / 2 ∨ e.r.y < -s.height / 2 ∨ e.r.y > s.height / 2

/-- the part of the cross section that is closed, `V_selector.comp:93-95`, with `omega` and `phi_rad` of lines 63-65; arguments: distances
from the axis and angles before and after the rotor, time of flight `l1/vz` -/
def VSel.closed (s : VSel) (ri rf thi thf dt : ℝ) : Option ℝ := do
  let omega := s.rot * (2 * Real.pi / 60)
  let rmean := (ri + rf) / 2
  let d := thf - thi
  some (s.nb / (2 * Real.pi) * ((← divD s.tb rmean) + |s.phi * (Real.pi / 180) + d - omega * dt|))

/-- distance from the axis of the rotor and angle, `V_selector.comp:78-79` and 83-84 -/
def polarAt (r0 : ℝ) (e : Event ℝ) : ℝ × ℝ :=
  (√(e.r.x * e.r.x + (e.r.y + r0) * (e.r.y + r0)), Frames.arctan2 e.r.x (e.r.y + r0))

/-- `V_selector.comp:67-100` -/
def vSelector (s : VSel) (G : Gravity) (e : Event ℝ) : Option (Event ℝ) :=
  if e.v.z = 0 then some (absorb e)
  else do
    let e := propDt G ((-s.l0 / 2 - e.r.z) / e.v.z) e
    if s.out e then some (absorb e)
    else
      let e := propDt G (← divD (s.l0 - s.l1) (2 * e.v.z)) e
      let (ri, thi) := polarAt s.r0 e
      let dt1 ← divD s.l1 e.v.z
      let e := propDt G dt1 e
      let (rf, thf) := polarAt s.r0 e
      let e := propDt G (← divD (s.l0 - s.l1) (2 * e.v.z)) e
      if s.out e then some (absorb e)
      else
        let A ← s.closed ri rf thi thf (← divD s.l1 e.v.z)
        if A ≥ 1 then some (absorb e) else some { e with p := e.p * (1 - A) }

/-- the parameters of `Selector.comp:60` -/
structure Sel where
  (xmin xmax ymin ymax len num width radius alfa feq : ℝ)

/-- the test whether the neutron is out of the frame, `Selector.comp:72` and 88 -/
def Sel.out (s : Sel) (e : Event ℝ) : Prop := e.r.x < s.xmin ∨ e.r.x > s.xmax ∨ e.r.y < s.ymin ∨ e.r.y > s.ymax

/-- `Selector.comp:62-101` -/
def selector (s : Sel) (G : Gravity) (u : ℝ) (e : Event ℝ) : Option (Event ℝ) :=
  let e := propZ0 G e
  if s.out e then some (absorb e)
  else do
    let dt ← divD s.len e.v.z
    let (r, th) := polarAt s.radius e
    let angleIn := th * (180 / Real.pi)
    let closed := (← divD s.width r) * (180 / Real.pi)
    let open' := (← divD 360 s.num) - closed
    let phase := open' * u
    let e := { e with p := e.p * (← divD open' (closed + open')) }
    let e := propDt G dt e
    if s.out e then some (absorb e)
    else
      let angleOut := (polarAt s.radius e).2 * (180 / Real.pi)
      let phase := phase + s.feq * dt * 360 - s.alfa
      if angleOut < angleIn - phase ∨ angleOut > angleIn - phase + open' then some (absorb e) else some e

/-! ### disk choppers -/

/-- the parameters of `DiskChopper.comp:67`; the numbers of slits and pulses are doubles -/
structure DiskPar where
  (theta_0 R h omega n j theta_1 t_0 n_pulse phi_0 w wc : ℝ)
  (isFirst absOut compat : Bool)

/-- the variables of a disk chopper after `INITIALIZE`, `DiskChopper.comp:67-73` (angles in radians) -/
structure Disk where
  (theta_0 R omega n j t_0 n_pulse Tg To Tc delta_y height : ℝ)
  (isFirst absOut : Bool)

/-- the compatibility with the old interface, `DiskChopper.comp:84-89`: the angle for a width -/
def slitAngle (w R theta : ℝ) : Option ℝ :=
  if w ≠ 0 then do
    some (2 * (180 / Real.pi) * (← Powder.asinD (← divD (w / 2) R)))
  else some theta

/-- `DiskChopper.comp:75-149`; `exit` is `cppException`.  Simplified: an angle that is not a number is undefined behaviour. -/
def Disk.new (c : DiskPar) : Except Err Disk :=
  let height := if c.h = 0 then c.R else c.h
  match slitAngle c.w c.R c.theta_0, slitAngle c.wc c.R c.theta_1 with
  | some theta_0, some theta_1 =>
    let delta_y := if c.compat then c.R else c.R - height / 2
    if c.n ≤ 0 ∨ theta_0 < 0 ∨ c.R ≤ 0 then .error .cppException
    else if c.n * theta_0 ≥ 360 then .error .cppException
    else if theta_1 ≥ theta_0 then .error .cppException
    else if c.h ≠ 0 ∧ c.h > c.R then .error .cppException
    else if c.isFirst ∧ c.n_pulse ≤ 0 then .error .cppException
    else
      let omega := if c.omega = 0 then 1e-15 else c.omega
      let theta_1 := if c.isFirst ∧ theta_1 ≠ 0 then 0 else theta_1
      let theta_0 := theta_0 * (Real.pi / 180)
      let theta_1 := theta_1 * (Real.pi / 180)
      let t_0 := c.t_0 * (omega / |omega|)
      let t_0 := if c.phi_0 ≠ 0 then omega * (c.phi_0 * (Real.pi / 180)) / (omega * omega) else t_0
      .ok { theta_0 := theta_0, R := c.R, omega := omega, n := c.n, j := c.j, t_0 := t_0, n_pulse := c.n_pulse,
            Tg := 2 * Real.pi / |omega| / c.n, To := theta_0 / |omega|, Tc := theta_1 / |omega|, delta_y := delta_y, height := height,
            isFirst := c.isFirst, absOut := c.absOut }
  | _, _ => .error .undefinedBehaviour

/-- `fmod` of C for arguments that are not negative (used in `DiskChopper.comp:178, 180`) -/
def fmod (x y : ℝ) : ℝ := x - ⌊x / y⌋ * y

/-- `DiskChopper.comp:151-184`; `g` is `randnorm()`, `u1` and `u2` give `randpm1()` and `rand01()` -/
def disk (d : Disk) (G : Gravity) (g u1 u2 : ℝ) (e : Event ℝ) : Event ℝ :=
  let yprime := e.r.y + d.delta_y
  let e := propZ0 G e
  if e.r.x * e.r.x + yprime * yprime > d.R * d.R ∧ d.absOut then absorb e
  else if e.r.x * e.r.x + yprime * yprime < (d.R - d.height) * (d.R - d.height) then absorb e
  else if d.isFirst then
    { e with
      t := Frames.arctan2 e.r.x yprime / d.omega + d.To * (2 * u1 - 1) / 2 - d.t_0 + d.j * g + ⌊d.n_pulse * u2⌋ * d.Tg,
      p := e.p * (d.n * d.theta_0 / 2 / Real.pi) }
  else
    let toff := |e.t - Frames.arctan2 e.r.x yprime / d.omega - d.t_0 + d.j * g|
    if fmod (toff + d.Tc / 2) d.Tg < d.Tc then absorb e
    else if fmod (toff + d.To / 2) d.Tg > d.To then absorb e
    else e

/-- the parameters of `HYSPEC_Chopper_v.comp:36` -/
structure ChopV where
  (w R f n pha : ℝ)

/-- `To`, `HYSPEC_Chopper_v.comp:51` -/
def ChopV.To (c : ChopV) : ℝ := 2 * Real.arctan (c.w / |c.R| / 2) / |c.f|

/-- `topp`, `HYSPEC_Chopper_v.comp:52, 64-65`; `none`: not set -/
def ChopV.topp (c : ChopV) : Option ℝ := if c.R < 0 then some (-1 * (Real.pi / 2)) else if c.R > 0 then some (Real.pi / 2) else none

/-- `theta_n`, `HYSPEC_Chopper_v.comp:67-74` with `y` for `y+R`; `none`: not set -/
def thetaN (x y : ℝ) : Option ℝ :=
  let th := if |x| > |y| then some (Real.arctan (|y| / |x|)) else if |x| < |y| then some (Real.pi / 2 - Real.arctan (|x| / |y|)) else none
  let th := if x < 0 then th.map (Real.pi - ·) else th
  if y < 0 then th.map (-1 * ·) else th

/-- `HYSPEC_Chopper_v.comp:55-88`; a variable that is not set is undefined behaviour -/
def chopV (c : ChopV) (G : Gravity) (e : Event ℝ) : Except Err (Event ℝ) :=
  let e := propZ0 G e
  match c.topp, thetaN e.r.x (e.r.y + c.R) with
  | some topp, some th =>
    let toff := |e.t - c.pha + (th - topp) / c.f| + c.To / 2
    if toff > c.To then .ok (absorb e) else .ok e
  | _, _ => .error .undefinedBehaviour

end
end Verif.McOpt
