import Verif.Model.Dos
/-!
Incoherent phonon scattering: `packages/mccomponents/lib/kernels/sample/phonon/IncoherentElastic.cc`,
`IncoherentInelastic.cc`, `IncoherentInelastic_EnergyFocusing.cc`.

Real numbers instead of doubles; the random numbers `u` (between 0 and 1) are arguments.  A result that is not
a finite number is `none`.
-/

namespace Verif.Phonon
open Solid Flight Homog Kinem Dos
noncomputable section
open Classical

/-- what is used of `AtomicScatterer`, `AtomicScatterer.h:47-53` -/
structure Atom where
  (mass inc abs : ℝ)

/-- the cross sections of the constructor, `IncoherentElastic.cc:71-86`: scattering and absorption; a value
given by the user is used if it is positive -/
def elasticXs (atoms : List Atom) (scattering absorption : ℝ) : ℝ × ℝ :=
  (if scattering > 0 then scattering else (atoms.map (·.inc)).sum,
   if absorption > 0 then absorption else (atoms.map (·.abs)).sum)

/-- `IncoherentElastic::S`, `IncoherentElastic.cc:127-172`; `core` is `m_dw_core` -/
def elasticS (core u1 u2 : ℝ) (ev : Ev) : Option Ev := do
  let vi := length ev.v
  let theta := random u1 0 Real.pi
  let phi := random u2 0 (Real.pi * 2)
  let Q := v2k * vi * 2 * Real.sin (theta / 2)
  let dw := Real.exp (-core * Q * Q)
  let (e1, e2, e3) ← axes 1e-4 ev.v
  let vf := (Real.sin theta * Real.cos phi) • e2 + (Real.sin theta * Real.sin phi) • e3 + Real.cos theta • e1
  some { ev with v := vi • vf, p := ev.p * (Real.sin theta * (Real.pi / 2) * dw) }

/-- `get_mass_and_xs` and the rest of the constructor, `IncoherentInelastic.cc:112-130, 152-160`,
`IncoherentInelastic_EnergyFocusing.cc:104-121, 145-153`: mass, scattering and absorption cross section.  Without
atoms the mass is 0/0. -/
def massAndXs (atoms : List Atom) (ave scattering absorption : ℝ) : Option (ℝ × ℝ × ℝ) := do
  let m ← if ave > 0 then some ave else divD (atoms.map (·.mass)).sum atoms.length
  some (m, if scattering > 0 then scattering else (atoms.map (·.inc)).sum,
    if absorption > 0 then absorption else (atoms.map (·.abs)).sum)

/-- `scattering_coefficient`, `IncoherentInelastic.cc:182-189`, also `IncoherentElastic.cc:113-125`,
`IncoherentInelastic_EnergyFocusing.cc:175-182` -/
def scatteringCoefficient (xs vol : ℝ) : ℝ := xs / vol * 1e2

/-- `absorption_coefficient`, `IncoherentInelastic.cc:171-179`, also `IncoherentElastic.cc:102-110`,
`IncoherentInelastic_EnergyFocusing.cc:164-172` -/
def absorptionCoefficient (xs vol : ℝ) (ev : Ev) : Option ℝ := do
  let r ← divD 2200 (length ev.v)
  some (xs / vol * r * 1e2)

/-- data of the inelastic kernels, `IncoherentInelastic.h:81-89`: the density of states (`value` is its virtual
function), the function that gives the exponent of the Debye-Waller factor, temperature and mass -/
structure Inel where
  (emin emax sod : ℝ)
  value : ℝ → ℝ
  DW : ℝ → ℝ
  (T mass : ℝ)

/-- `operator ()` of the density of states, `AbstractDOS.h:54-59` -/
def Inel.dos (K : Inel) (e : ℝ) : ℝ := if e < K.emin ∨ e > K.emax then 0 else K.value e

/-- `pick_Ef`, `IncoherentInelastic.cc:93-110`: energy and range -/
def pickEf (emax Ei u : ℝ) : ℝ × ℝ :=
  if Ei > emax then (Ei - emax + u * (2 * emax), 2 * emax) else (u * (Ei + emax), Ei + emax)

/-- `S` after the choice of direction and energy, `IncoherentInelastic.cc:224-291`,
`IncoherentInelastic_EnergyFocusing.cc:219-286`.  `sod / beta` is written as `sod * (T k)`, which is also what
doubles give for temperature 0. -/
def inelFinish (K : Inel) (eRange Ef : ℝ) (dir : V3 ℝ) (ev : Ev) : Option Ev := do
  let vi := length ev.v
  let omega := v2E vi - Ef
  let vf ← E2v Ef
  let v := vf • dir
  let Q := length (v2k • (ev.v - v))
  let therm ← boseFactor omega K.T
  let dw := Real.exp (-K.DW Q)
  let p1 ← divD (ev.p * eRange) K.mass
  let r ← divD vf vi
  if |omega| < 1e-2 * K.emax then
    some { ev with v := v, p := p1 * r * dw * (K.sod * (K.T * kelvin2meV) * k2E Q) }
  else do
    let q ← divD (k2E Q) |omega|
    some { ev with v := v, p := p1 * r * dw * therm * K.dos |omega| * q }

/-- `IncoherentInelastic::S`, `IncoherentInelastic.cc:191-292` -/
def inelasticS (K : Inel) (u1 u2 u3 : ℝ) (ev : Ev) : Option Ev := do
  let dir ← normalize (chooseDirection u1 u2)
  let (Ef, eRange) := pickEf K.emax (v2E (length ev.v)) u3
  inelFinish K eRange Ef dir ev

/-- `IncoherentInelastic_EnergyFocusing::S`, `IncoherentInelastic_EnergyFocusing.cc:184-287`, with `pick_Ef`, 83-102 -/
def focusedS (K : Inel) (kEf kdEf : ℝ) (u1 u2 u3 : ℝ) (ev : Ev) : Option Ev := do
  let Ei := v2E (length ev.v)
  let dir ← normalize (chooseDirection u1 u2)
  let Efmax := kEf + kdEf / 2
  if Ei - Efmax > K.emax ∨ Ei - Efmax < 0 then some { ev with p := -1 }
  else
    let Ef := kEf + (u3 - 0.5) * kdEf
    if Ef < 0 then some { ev with p := -1 }
    else inelFinish K kdEf Ef dir ev

end
end Verif.Phonon
