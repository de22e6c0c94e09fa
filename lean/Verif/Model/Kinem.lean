import Verif.Model.Homog
import Mathlib.Analysis.SpecialFunctions.Trigonometric.Basic
import Mathlib.Analysis.SpecialFunctions.Trigonometric.Inverse
/-!
Scattering kernels that sample energy and momentum transfer:
`packages/mccomponents/lib/kernels/KernelBase.h`, `IsotropicKernel.cc` and, in `sample/`,
`SQEkernel.cc`, `SQkernel.cc`, `SvQkernel.cc`, `SQE_EnergyFocusing_Kernel.cc`, `ConstantQEKernel.cc`,
`ConstantEnergyTransferKernel.cc`, `ConstantvQEKernel.cc`, `E_Q_Kernel.icc`, `Broadened_E_Q_Kernel.icc`,
`E_vQ_Kernel.icc`, `DGSSXResKernel.cc`; unit conversions of `mcni/lib/neutron/units_conversion.cc`.

Real numbers instead of doubles; the random numbers `u` (between 0 and 1) are arguments.  A result that
is not a finite number (square root of a negative number, division by zero) is `none`.  `mcni::PI` is
taken to be π.
-/

namespace Verif.Kinem
open Solid Flight Homog
noncomputable section
open Classical

/-- `sqrt` of C: not a number for negative arguments (C library, used in `units_conversion.cc:15-17`) -/
def sqrtD (x : ℝ) : Option ℝ := if x < 0 then none else some √x

/-- division of doubles, not finite if the divisor is 0 (used in `Vector3.icc:57`, `SQEkernel.cc:112-115`) -/
def divD (a b : ℝ) : Option ℝ := if b = 0 then none else some (a / b)

/-- `k2v`, `units_conversion.h:45` -/
def k2v : ℝ := 1.054571628e-34 / 1.6749286e-27 * 1e10
/-- `v2k`, `units_conversion.h:49` -/
def v2k : ℝ := 1 / k2v
/-- `sqrte2v`, `units_conversion.h:54` -/
def sqrte2v : ℝ := √(2e-3 * 1.60217733e-19 / 1.6749286e-27)
/-- `vsq2e`, `units_conversion.h:58` -/
def vsq2e : ℝ := 1.6749286e-27 / (2e-3 * 1.60217733e-19)

/-- `E2v`, `units_conversion.cc:15-17` -/
def E2v (energy : ℝ) : Option ℝ := do some ((← sqrtD energy) * sqrte2v)
/-- `v2E`, `units_conversion.cc:19-21` -/
def v2E (velocity : ℝ) : ℝ := velocity * velocity * vsq2e
/-- `vsquare2E`, `units_conversion.cc:23-25` -/
def vsquare2E (vsquare : ℝ) : ℝ := vsquare * vsq2e
/-- `ksquare2E`, `units_conversion.cc:27-29` -/
def ksquare2E (ksquare : ℝ) : ℝ := vsquare2E (k2v * k2v * ksquare)
/-- `k2E`, `units_conversion.cc:31-34` -/
def k2E (k : ℝ) : ℝ := ksquare2E (k * k)
/-- `E2k`, `units_conversion.cc:36-39` -/
def E2k (E : ℝ) : Option ℝ := do some ((← E2v E) * v2k)

/-- `normalize`, `mcni/lib/geometry/Vector3.icc:52-58` -/
def normalize (v : V3 ℝ) : Option (V3 ℝ) := do some ((← divD 1 (length v)) • v)

/-- the axes around the direction of flight: `SQEkernel.cc:123-136`, `SQkernel.cc:100-113`,
`SQE_EnergyFocusing_Kernel.cc:111-124`, `E_Q_Kernel.icc:185-196`.  `eps` is `m_epsilon`: 1e-10
(`SQEkernel.cc:44`, `SQkernel.cc:31`, `SQE_EnergyFocusing_Kernel.cc:29`) or 1e-4 (`E_Q_Kernel.icc:48`). -/
def axes (eps : ℝ) (v : V3 ℝ) : Option (V3 ℝ × V3 ℝ × V3 ℝ) := do
  let e1 ← normalize v
  let e2 ← if |e1.x| > eps ∨ |e1.y| > eps then normalize (V3.cross ⟨0, 0, 1⟩ e1) else some ⟨1, 0, 0⟩
  some (e1, e2, V3.cross e1 e2)

/-- the axes in `ConstantQEKernel.cc:106-117` (`eps` = 0.1, line 38) and
`Broadened_E_Q_Kernel.icc:211-222`, where the second choice is made orthogonal -/
def axes' (eps : ℝ) (v : V3 ℝ) : Option (V3 ℝ × V3 ℝ × V3 ℝ) := do
  let ez ← normalize v
  let ex ← if |ez.x| > eps ∨ |ez.y| > eps then normalize (V3.cross ⟨0, 0, 1⟩ ez)
    else normalize (V3.cross ⟨1, 0, 0⟩ ez)
  some (ez, ex, V3.cross ez ex)

/-- the direction of the scattered neutron, `SQEkernel.cc:138`, `SQkernel.cc:115`,
`SQE_EnergyFocusing_Kernel.cc:125`, `E_Q_Kernel.icc:198-200` -/
def outDir (e1 e2 e3 : V3 ℝ) (cost sint phi : ℝ) : V3 ℝ :=
  cost • e1 + (sint * Real.cos phi) • e2 + (sint * Real.sin phi) • e3

/-- `physics::pi`, `mccomponents/lib/physics/constants.h:25` -/
def physPi : ℝ := 3.1415926535897

/-- data of `SQEkernel`, `SQEkernel.h:56-61`; `Sqe` is the functor `m_sqe`.  The members that only
enter the coefficients are left out, and so is the rest of the data of the other kernels. -/
structure SQE where
  Sqe : ℝ → ℝ → ℝ
  (Qmin Qmax Emin Emax : ℝ)

/-- the last part of `S` of three kernels, from the choice of `Q` on: `SQEkernel.cc:104-140`,
`SQE_EnergyFocusing_Kernel.cc:92-126`.  `f Q` is the factor of the probability apart from `Q` and
its range. -/
def pickQ (eps Qlo Qhi kf ki : ℝ) (f : ℝ → ℝ) (u2 u3 : ℝ) (ev : Ev) : Option Ev := do
  if Qhi < Qlo then some ev
  else
    let Q := random u2 Qlo Qhi
    let factor ← divD (f Q) (2 * ki * ki)
    let cost ← divD (← divD ((kf * kf + ki * ki - Q * Q) / 2) kf) ki
    let sint ← sqrtD (1 - cost * cost)
    let phi := random u3 0 (2 * physPi)
    let (e1, e2, e3) ← axes eps ev.v
    some { ev with v := (kf * k2v) • outDir e1 e2 e3 cost sint phi, p := ev.p * factor }

/-- `SQEkernel::S`, `SQEkernel.cc:78-141` -/
def SQE.S (k : SQE) (u1 u2 u3 : ℝ) (ev : Ev) : Option Ev := do
  let vi := length ev.v
  let Ei := v2E vi
  let ki := v2k * vi
  if k.Emin > Ei then some ev
  else
    let Emax := min Ei k.Emax
    let E := random u1 k.Emin Emax
    let kf ← E2k (Ei - E)
    let Qlo := max k.Qmin |ki - kf|
    let Qhi := min k.Qmax (ki + kf)
    pickQ 1e-10 Qlo Qhi kf ki (fun Q => k.Sqe Q E * Q * (Qhi - Qlo) * (Emax - k.Emin)) u2 u3 ev

/-- `SQE_EnergyFocusing_Kernel::S`, `SQE_EnergyFocusing_Kernel.cc:64-127`; `Ef`, `dEf` are `m_Ef`,
`m_dEf` -/
def SQE.focusedS (k : SQE) (Ef dEf : ℝ) (u1 u2 u3 : ℝ) (ev : Ev) : Option Ev := do
  let vi := length ev.v
  let Ei := v2E vi
  let ki := v2k * vi
  let Emin1 := Ei - (Ef + dEf)
  let Emax1 := Ei - (Ef - dEf)
  if k.Emin > Ei then some ev
  else
    let Emin := max k.Emin Emin1
    let Emax := min Emax1 (min Ei k.Emax)
    let E := random u1 Emin Emax
    let kf ← E2k (Ei - E)
    let Qlo := max k.Qmin |ki - kf|
    let Qhi := min k.Qmax (ki + kf)
    pickQ 1e-10 Qlo Qhi kf ki (fun Q => k.Sqe Q E * Q * (Qhi - Qlo) * (Emax - Emin)) u2 u3 ev

/-- `SQkernel::S`, `SQkernel.cc:59-118` -/
def sqS (Sq : ℝ → ℝ) (kQmin kQmax : ℝ) (u2 u3 : ℝ) (ev : Ev) : Option Ev :=
  let vi := length ev.v
  let ki := v2k * vi
  let kf := ki
  let Qlo := max kQmin 0
  let Qhi := min kQmax (ki + kf)
  pickQ 1e-10 Qlo Qhi kf ki (fun Q => Sq Q * Q * (Qhi - Qlo)) u2 u3 ev

/-- `SvQkernel::S`, `SvQkernel.cc:46-80` -/
def svqS (Sq : V3 ℝ → ℝ) (u1 u2 : ℝ) (ev : Ev) : Ev :=
  let vi := length ev.v
  let costheta := random u1 (-1) 1
  let t := 1 - costheta * costheta
  let sintheta := if t < 0 then 0 else √t
  let phi := random u2 0 (2 * Real.pi)
  let vf : V3 ℝ := ⟨vi * sintheta * Real.cos phi, vi * sintheta * Real.sin phi, vi * costheta⟩
  let Q := v2k • ev.v - v2k • vf
  { ev with v := vf, p := ev.p * Sq Q }

/-- `IsotropicKernel::S`, `IsotropicKernel.cc:63-89` -/
def isotropicS (u1 u2 : ℝ) (ev : Ev) : Ev :=
  let vi := length ev.v
  let theta := random u1 0 Real.pi
  let phi := random u2 0 (Real.pi * 2)
  { ev with
    v := ⟨vi * Real.sin theta * Real.cos phi, vi * Real.sin theta * Real.sin phi, vi * Real.cos theta⟩,
    p := ev.p * (Real.sin theta * (Real.pi / 2)) }

/-- `ConstantQEKernel::S`, `ConstantQEKernel.cc:74-124` -/
def constQES (kQ kE : ℝ) (u : ℝ) (ev : Ev) : Option Ev := do
  let vi := length ev.v
  let Ei := v2E vi
  let vf ← E2v (Ei - kE)
  let ki := v2k * vi
  let kf := v2k * vf
  let cost ← divD (ki * ki + kf * kf - kQ * kQ) (2 * ki * kf)
  let sint ← sqrtD (1 - cost * cost)
  let phi := random u 0 (Real.pi * 2)
  let (ez, ex, ey) ← axes' 0.1 ev.v
  some { ev with
    v := (vf * sint * Real.cos phi) • ex + (vf * sint * Real.sin phi) • ey + (vf * cost) • ez }

/-- `choose_direction` in the full solid angle, `mccomponents/lib/math/random/geometry.cc:66-79` -/
def chooseDirection (u1 u2 : ℝ) : V3 ℝ :=
  let costheta := random u1 (-1) 1
  let theta := Real.arccos costheta
  let sintheta := Real.sin theta
  let phi := random u2 0 (2 * Real.pi)
  ⟨sintheta * Real.cos phi, sintheta * Real.sin phi, costheta⟩

/-- `ConstantEnergyTransferKernel::S`, `ConstantEnergyTransferKernel.cc:72-105` -/
def constES (kE : ℝ) (u1 u2 : ℝ) (ev : Ev) : Option Ev := do
  let Ei := v2E (length ev.v)
  let Ef := Ei - kE
  if Ef < 0 then some { ev with p := -1 }
  else
    let vf ← E2v Ef
    let dir ← normalize (chooseDirection u1 u2)
    some { ev with v := vf • dir }

/-- `ConstantvQEKernel::S`, `ConstantvQEKernel.cc:65-92` -/
def constvQES (kQ : V3 ℝ) (kE kdE : ℝ) (ev : Ev) : Option Ev := do
  let Ei := v2E (length ev.v)
  let ki := v2k • ev.v
  let kf := ki - kQ
  let v := k2v • kf
  let Ef := v2E (length v)
  let t ← divD (Ei - Ef - kE) kdE
  some { ev with v := v, p := ev.p * Real.exp (-(t * t) / 2) }

/-- the loop of `E_Q_Kernel.icc:128-174` over the random numbers, `counter` being the value after the
increment of the loop condition for the head of the list: `Q`, `vf`, `kf`, `cost` and `counter` of the
first trial that succeeds, `none` if all fail.  `some none`: the cosine is 0/0, not a number, which
leaves the loop (a non-zero number divided by 0 is infinite, then the loop goes on). -/
def eqLoop (E : ℝ → ℝ) (Qmin Qmax Ei ki : ℝ) : Nat → List ℝ → Option (Option (ℝ × ℝ × ℝ × ℝ × Nat))
  | _, [] => none
  | counter, u :: us =>
    let Q := random u Qmin Qmax
    let Ef := Ei - E Q
    match E2v Ef with
    | none => eqLoop E Qmin Qmax Ei ki (counter + 1) us
    | some vf =>
      let kf := v2k * vf
      match divD (ki * ki + kf * kf - Q * Q) (2 * ki * kf) with
      | none =>
        if ki * ki + kf * kf - Q * Q = 0 then some none
        else eqLoop E Qmin Qmax Ei ki (counter + 1) us
      | some cost =>
        if cost * cost > 1 then eqLoop E Qmin Qmax Ei ki (counter + 1) us
        else some (some (Q, vf, kf, cost, counter))

/-- `E_Q_Kernel::S`, `E_Q_Kernel.icc:110-211`; `us` are the 100 random numbers for the trials (those
after the first success are not used). -/
def eqS (E S : ℝ → ℝ) (Qmin Qmax : ℝ) (us : List ℝ) (u : ℝ) (ev : Ev) : Option Ev := do
  let vi := length ev.v
  let Ei := v2E vi
  let ki := v2k * vi
  match eqLoop E Qmin Qmax Ei ki 1 us with
  | none => some { ev with p := 0 }
  | some none => none
  | some (some (Q, vf, kf, cost, counter)) => do
    let sint ← sqrtD (1 - cost * cost)
    let phi := random u 0 (Real.pi * 2)
    let (e1, e2, e3) ← axes 1e-4 ev.v
    let vfDir := outDir e1 e2 e3 cost sint phi
    let r ← divD vf vi
    let g ← divD (Q * (Qmax - Qmin) / counter) (kf * ki)
    some { ev with v := vf • vfDir, p := ev.p * (S Q * r) * (g / 2) }

/-- `E_vQ_Kernel::S`, `E_vQ_Kernel.icc:146-239`, after the root finder returned `roots`; `u` selects
one of them.  `E`, `S` are the functors of the vector Q, `dfdk` stands for `df_dkf` (lines 207-208). -/
def evqS (E S : V3 ℝ → ℝ) (Emax : ℝ) (dfdk : ℝ → ℝ) (ukf : V3 ℝ) (roots : List ℝ) (u : Nat) (ev : Ev) :
    Option Ev := do
  let vi := length ev.v
  let vki := v2k • ev.v
  let ki := length vki
  let Ei := v2E vi
  match roots[u]? with
  | none => some ev
  | some kf => do
    let j ← divD (2 * (k2v * k2v * vsq2e) * kf) (dfdk kf)
    let p1 := ev.p * roots.length * j
    let vkf := kf • ukf
    let vQ := vki - vkf
    let Ef := k2E kf
    if |Ei - Ef - E vQ| > Emax * 1e-5 then some { ev with p := p1 }
    else
      let r ← divD kf ki
      some { ev with v := k2v • vkf, p := p1 * (S vQ * r) }

/-- `DGSSXResKernel::S`, `DGSSXResKernel.cc:82-119`; `dir` is the direction made by
`choose_direction` and `solid` the solid angle it returns -/
def dgsS (target : V3 ℝ) (tofAt dtof : ℝ) (dir : V3 ℝ) (solid : ℝ) (u : ℝ) (ev : Ev) : Option Ev := do
  let displacement := target - ev.r
  let n ← normalize dir
  let tof := random u (tofAt - dtof / 2) (tofAt + dtof / 2)
  let vf ← divD (length displacement) (tof - ev.t)
  let Ef := v2E vf
  let dEdt ← divD (2 * Ef) tof
  let prob := solid / 4 / Real.pi * dtof * dEdt
  let r ← divD vf (length ev.v)
  some { ev with v := vf • n, p := ev.p * (prob * r) }

/-- `KernelBase::scatter`, `KernelBase.h:44-63`, for the result of `S`: a velocity that is not a number
makes the neutron invalid, otherwise the probability is multiplied by the scattering coefficient of the
neutron after scattering.  (A probability that is not a number is treated like such a velocity.) -/
def finishScatter (sigma : Ev → ℝ) (ev : Ev) (out : Option Ev) : Ev :=
  match out with
  | none => { ev with p := -1 }
  | some ev' => if ev'.p > 0 then { ev' with p := ev'.p * sigma ev' } else ev'

end
end Verif.Kinem
