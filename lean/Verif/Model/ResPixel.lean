import Verif.Model.Homog
import Verif.Model.Kinem
/-!
The gas of a helium-3 detector, `packages/mccomponents/lib/kernels/detector/He3.cc`, and the pixel
for the calculation of the resolution of a direct geometry spectrometer,
`packages/mccomponents/lib/homogeneous_scatterer/DGSSXResPixel.cc`.

Real numbers instead of doubles; `none` is not a number or infinity.
-/

namespace Verif.ResPixel
open Solid Flight Kinem
noncomputable section
open Classical

/-- `m_refAbsXS`, `He3.cc:22` -/
def refAbsXS : ℝ := 5333.0e-28 / 1.798

/-- `m_N`, `He3.cc:24` -/
def numberDensity (pressure : ℝ) : ℝ := pressure * 2.414e20

/-- `He3::absorption_coefficient`, `He3.cc:29-34`; `energy()` is `vsquare2E` of the square of the
velocity, `mcni/lib/neutron/Event.h:66` and `State.h` -/
def absorption (pressure : ℝ) (ev : Ev) : Option ℝ := do
  let energy := vsquare2E (ev.v.dot ev.v)
  let q ← divD 81.81 energy
  let root ← sqrtD q
  some (refAbsXS * root * numberDensity pressure)

/-- `He3::scattering_coefficient`, `He3.cc:36-40` -/
def scattering (_ev : Ev) : ℝ := 0

/-- `std::numeric_limits<double>::epsilon()`, `DGSSXResPixel.cc:69` -/
def epsilon : ℝ := 1 / 2 ^ 52

/-- the probability of detection, `DGSSXResPixel.cc:80-92`, for a flight of the time `tof` through
the shape of which `tof1` is before the detection -/
def prob (pressure : ℝ) (ev : Ev) (tof1 tof : ℝ) : Option ℝ := do
  let mu ← absorption pressure ev
  let sigma := scattering ev
  let v := length ev.v
  let x := tof1 * v
  let distance := tof * v
  some (mu * distance * Real.exp (-(mu + sigma) * x))

/-- the neutron at the surface with its new weight, `DGSSXResPixel.cc:70-94`.  A weight that is
not a number is the error `undefinedBehaviour` of the model; the code would carry it on. -/
def weigh (tol par : ℝ) (s : Shape) (pressure mtof : ℝ) (ev : Ev) : Except Err Ev :=
  if ev.t > mtof then .ok { ev with p := epsilon }
  else do
    let tof ← tofBeforeExit tol par s ev
    if ev.t + tof < mtof then .ok { ev with p := epsilon }
    else
      match prob pressure ev (mtof - ev.t) tof with
      | none => .error .undefinedBehaviour
      | some q => .ok { ev with p := ev.p * q }

/-- `DGSSXResPixel::interact_path1`, `DGSSXResPixel.cc:51-97`; the interaction type it returns is
always `none` -/
def interact (tol par : ℝ) (s : Shape) (pressure mtof : ℝ) (ev : Ev) : Except Err Ev := do
  let loc ← locate tol s ev.r
  let ev1 ← if loc ≠ .inside then toIncident tol par s ev else .ok ev
  let ev2 ← weigh tol par s pressure mtof ev1
  toExit tol par s ev2

/-- `DGSSXResPixel::interactM_path1`, `DGSSXResPixel.cc:100-107` -/
def interactM (_ev : Ev) : Except Err (List Ev) := .error .cppException

end
end Verif.ResPixel
