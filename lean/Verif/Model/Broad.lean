import Verif.Model.Sampling
/-!
Kernels that use the samplers: `Broadened_E_Q_Kernel.icc`, `LorentzianBroadened_E_Q_Kernel.icc` and `SANS/SpheresKernel.cc`
(`packages/mccomponents/lib/kernels/sample/`).

Real numbers instead of doubles, `PI` is the exact number; random numbers are arguments.  A result that is not a number is
`none`.
-/

namespace Verif.Broad
open Solid Flight Homog Kinem Sampling
noncomputable section
open Classical

/-- the functors and the range of a kernel, `Broadened_E_Q_Kernel.icc:71-80`, `LorentzianBroadened_E_Q_Kernel.icc:51-60`;
`W` is `m_sigma` or `m_gamma`.  The coefficients are left out. -/
structure Line where
  (E S W : ℝ → ℝ)
  (Qmin Qmax : ℝ)

/-- `m_Emin`: the smallest of the 100 numbers `Emin[i]`, `Broadened_E_Q_Kernel.icc:91-101`,
`LorentzianBroadened_E_Q_Kernel.icc:71-81` -/
def Line.Emin (k : Line) : ℝ :=
  let e := fun i : Nat => let Q := k.Qmin + (k.Qmax - k.Qmin) / 100 * i; k.E Q - k.W Q * 3
  ((List.range 99).map fun i => e (i + 1)).foldl min (e 0)

/-- the constructor, `Broadened_E_Q_Kernel.icc:81-90`, `LorentzianBroadened_E_Q_Kernel.icc:61-70`; a `throw` without an
exception ends the program -/
def Line.make (k : Line) : Except Err Line :=
  if k.Qmin < 0 then .error .cppException
  else if k.Qmin ≥ k.Qmax then .error .cppException
  else .ok k

/-- one round of the loop, `Broadened_E_Q_Kernel.icc:155-178`, `LorentzianBroadened_E_Q_Kernel.icc:135-158`, with the random
number `u` for the momentum transfer and `g` of the normal or Lorentz distribution: `none` if the loop goes on,
`some none` if the cosine is 0/0, not a number, which leaves the loop; otherwise `Q`, `vf`, `kf` and `cost`.  (A number
divided by 0 is infinite, then the loop goes on.) -/
def Line.try (k : Line) (Ei ki u g : ℝ) : Option (Option (ℝ × ℝ × ℝ × ℝ)) :=
  let Q := random u k.Qmin k.Qmax
  let dE := g * k.W Q
  let E := k.E Q + dE
  let Ef := Ei - E
  if Ef ≤ 0 then none
  else match E2v Ef with
    | none => none
    | some vf =>
      let kf := v2k * vf
      match divD (ki * ki + kf * kf - Q * Q) (2 * ki * kf) with
      | none => if ki * ki + kf * kf - Q * Q = 0 then some none else none
      | some cost => if cost * cost > 1 then none else some (some (Q, vf, kf, cost))

/-- the loop, `Broadened_E_Q_Kernel.icc:154-183`, `LorentzianBroadened_E_Q_Kernel.icc:134-163`; `count` is the value before
the test of the loop condition, the list has the random numbers of the rounds.  `none` if `count` is 100 or more in the end
(also if the list ends before). -/
def Line.loop (k : Line) (Ei ki : ℝ) : Nat → List (ℝ × ℝ) → Option (Option (ℝ × ℝ × ℝ × ℝ))
  | _, [] => none
  | count, (u, g) :: us =>
    if count < 100 then
      match k.try Ei ki u g with
      | none => k.loop Ei ki (count + 1) us
      | some r => if count + 1 ≥ 100 then none else some r
    else none

/-- `S`, `Broadened_E_Q_Kernel.icc:135-244`, `LorentzianBroadened_E_Q_Kernel.icc:115-224`; `us` are the random numbers of the
rounds of the loop, `u` that of the azimuth -/
def Line.S' (k : Line) (us : List (ℝ × ℝ)) (u : ℝ) (ev : Ev) : Option Ev := do
  let vi := length ev.v
  let Ei := v2E vi
  if Ei < k.Emin then some ev
  else
    let ki := v2k * vi
    match k.loop Ei ki 0 us with
    | none => some ev
    | some none => none
    | some (some (Q, vf, kf, cost)) =>
      let sint ← sqrtD (1 - cost * cost)
      let phi := random u 0 (Real.pi * 2)
      let (e1, e2, e3) ← axes' 0.1 ev.v
      let dir := (sint * Real.cos phi) • e2 + (sint * Real.sin phi) • e3 + cost • e1
      let r ← divD vf vi
      let j ← divD (Q * (k.Qmax - k.Qmin)) (kf * ki)
      some { ev with v := vf • dir, p := ev.p * (k.S Q * r) / (4 * Real.pi) * (j * 2 * Real.pi) }

/-- data of the kernel for spheres, `SpheresKernel.cc:21-37` -/
structure Spheres where
  (abs R phi deltaRho maxAngle : ℝ)

/-- `m_max_angle`, `SpheresKernel.cc:30` -/
def Spheres.angle (k : Spheres) : ℝ := k.maxAngle / 180 * Real.pi

/-- `m_solidangle`, `SpheresKernel.cc:32` -/
def Spheres.solid (k : Spheres) : ℝ := 2 * Real.pi * (1 - Real.cos k.angle)

/-- `absorption_coefficient`, `SpheresKernel.cc:40-45`; division by 0 gives 0 here -/
def Spheres.absorption (k : Spheres) (ev : Ev) : ℝ := k.abs * (2200 / length ev.v)

/-- `scattering_coefficient`, `SpheresKernel.cc:48-59`; division by 0 gives 0 here -/
def Spheres.coefficient (k : Spheres) (ev : Ev) : ℝ :=
  let wl := 2 * Real.pi / (v2k * length ev.v)
  3 / 2 * k.phi * k.deltaRho * k.deltaRho * wl * wl * k.R

/-- `S`, `SpheresKernel.cc:67-98` -/
def Spheres.S (k : Spheres) (u1 u2 : ℝ) (ev : Ev) : Option Ev := do
  let vi := length ev.v
  let ki := v2k * vi
  let vecKi := v2k • ev.v
  let (vecKf, _) ← towards vecKi (Real.tan k.angle * ki) u1 u2
  let prob := k.solid / 4 / Real.pi
  let Q := vecKi - vecKf
  let q := length Q
  let qR := q * k.R
  let f ← divD (← divD (← divD (3 * (Real.sin qR - qR * Real.cos qR)) qR) qR) qR
  some { ev with v := k2v • vecKf, p := ev.p * (prob * (2 / 9 / Real.pi * k.R * k.R * ki * ki * f * f)) }

end
end Verif.Broad
