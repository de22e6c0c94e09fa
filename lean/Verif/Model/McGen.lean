import Verif.Model.McSource
/-!
`Source_gen` of McStas, `packages/legacycomponents/mcstas2/share/McStas-Components/sources/Source_gen.comp` (all lines cited below are
from this file, or from `packages/legacycomponents/mcstas2/lib`).

Real numbers instead of doubles; `exit` is `cppException`, a number that is not finite is `undefinedBehaviour`.  `mcget_ncount()` is 1.
Not modelled: the two files of positions and divergences (`xdiv_file`, `ydiv_file`) and the messages.  The table of the flux is given by the number
of its rows, the range of its wave lengths and the value it gives for a wave length.
-/

namespace Verif.McGen
open McStas Kinem McGuide McConst McSource
noncomputable section
open Classical

/-- the table of `flux_file`, `Source_gen.comp:210-233`: the number of rows, smallest and largest wave length, the value of lines 514-516 -/
structure Flux where
  rows : Nat
  (lmin lmax : ℝ)
  value : ℝ → ℝ

/-- parameters, `Source_gen.comp:131-136`; `perAA` is `flux_file_perAA` -/
structure Gen where
  (radius dist xw yh E0 dE Lambda0 dLambda I1 h w verbose T1 Lmin Lmax Emin Emax T2 I2 T3 I3 len : ℝ)
  flux : Option Flux
  perAA : Bool

/-- the parameters that are not given, `Source_gen.comp:131-136` -/
def defaults : Gen :=
  ⟨0, 0, 0, 0, 0, 0, 0, 0, 0, 0, 0, 0, 0, 0, 0, 0, 0, 0, 0, 0, 0, 0, none, false⟩

/-- `HBAR`, `lib/phys_constants.h:35` -/
def hbar : ℝ := 1.05459e-34
/-- `MNEUTRON`, `lib/phys_constants.h:36` -/
def mneutron : ℝ := 1.67492e-27
/-- `k`, `Source_gen.comp:247` -/
def kB : ℝ := 1.38066e-23

/-- `lambda0`, `lambda0b`, `lambda0c`, `Source_gen.comp:250, 259, 268` -/
def lambdaT (T : ℝ) : ℝ := 1.0e10 * √(hbar * hbar * 4.0 * Real.pi * Real.pi / 2.0 / mneutron / kB / T)

/-- `lambda02`, `Source_gen.comp:251, 260, 269` -/
def lambda02 (T : ℝ) : ℝ := lambdaT T * lambdaT T

/-- `L2P`, `Source_gen.comp:252, 261, 270` -/
def L2P (T : ℝ) : ℝ := 2 * lambda02 T * lambda02 T

/-- `Lmin` and `Lmax` after the table of the flux, `Source_gen.comp:234-244`.  `Lambda0` is 0 since line 205. -/
def Gen.table (c : Gen) : ℝ × ℝ :=
  match c.flux with
  | none => (c.Lmin, c.Lmax)
  | some f =>
    let r := if c.Lmin = 0 ∧ c.Lmax = 0 ∧ c.dLambda = 0 ∧ c.E0 = 0 ∧ c.dE = 0 ∧ c.Emin = 0 ∧ c.Emax = 0 then (f.lmin, f.lmax)
      else (c.Lmin, c.Lmax)
    (if r.1 < f.lmin then f.lmin else r.1, if r.2 > f.lmax then f.lmax else r.2)

/-- `E0` and `dE`, `Source_gen.comp:364-367` -/
def Gen.energies (c : Gen) : ℝ × ℝ :=
  if c.Emax ≥ c.Emin ∧ c.Emin > 0 then ((c.Emax + c.Emin) / 2, (c.Emax - c.Emin) / 2) else (c.E0, c.dE)

/-- `Lmin` and `Lmax`, `Source_gen.comp:368-372` -/
def Gen.waves (c : Gen) : ℝ × ℝ :=
  if c.energies.1 > c.energies.2 ∧ c.energies.2 ≥ 0 then
    (√(81.81 / (c.energies.1 + c.energies.2)), √(81.81 / (c.energies.1 - c.energies.2)))
  else c.table

/-- `Lambda0` and `dLambda`, `Source_gen.comp:205, 351-383`: line 205 sets `Lambda0` to 0 -/
def Gen.range (c : Gen) : Except Err (ℝ × ℝ) :=
  let Lambda0 : ℝ := 0
  if c.Emin < 0 ∨ c.Emax < 0 ∨ c.table.1 < 0 ∨ c.table.2 < 0 ∨ c.E0 < 0 ∨ c.dE < 0 ∨ Lambda0 < 0 ∨ c.dLambda < 0 then .error .cppException
  else if (c.Emin = 0 ∧ c.Emax > 0) ∨ (c.dE > 0 ∧ c.dE ≥ c.E0) then .error .cppException
  else
    let r := if c.waves.2 > 0 then ((c.waves.2 + c.waves.1) / 2, (c.waves.2 - c.waves.1) / 2) else (Lambda0, c.dLambda)
    if r.1 < r.2 ∨ r.2 < 0 then .error .cppException
    else .ok r

/-- the parameters after `Source_gen.comp:385-387` -/
def Gen.abs (c : Gen) : Gen :=
  { c with radius := |c.radius|, w := |c.w|, h := |c.h|, I1 := |c.I1|, xw := |c.xw|, yh := |c.yh|, dist := |c.dist| }

/-- `p_in`, `Source_gen.comp:395-412` for the parameters after line 387, with `Lambda0`, `dLambda` -/
def Gen.pIn (c : Gen) (L0 dL : ℝ) : Option ℝ := do
  let Lmin := L0 - dL
  let Lmax := L0 + dL
  let p ← if (c.I1 > 0 ∧ c.T1 ≥ 0) ∨ c.flux.isSome then do
      let area := if c.radius ≠ 0 then c.radius * c.radius * Real.pi * 1e4 else c.h * c.w * 1e4
      let p := area * (Lmax - Lmin)
      match c.flux with
      | none => some p
      | some f => if c.perAA then some p else do some (p * (← divD f.rows (Lmax - Lmin)))
    else some ((if c.I1 > 0 then c.I1 else 1) / 4 / Real.pi)
  some (if c.T1 = 0 ∧ c.I1 ≠ 0 then p / 1 * c.I1 else p / 1)

/-- what the initialisation leaves, `Source_gen.comp:180-199`: the variables of `DECLARE` used by `TRACE` -/
structure Ready where
  c : Gen
  (L0 dL p_in : ℝ)

/-- `INITIALIZE`, `Source_gen.comp:202-462` -/
def Gen.init (c : Gen) : Except Err Ready := do
  let (L0, dL) ← c.range
  let a := c.abs
  match a.pIn |L0| |dL| with
  | none => .error .undefinedBehaviour
  | some p =>
    if a.radius = 0 ∧ a.h = 0 ∧ a.w = 0 then .error .cppException
    else if a.xw * a.yh = 0 then .error .cppException
    else .ok ⟨a, |L0|, |dL|, p⟩

/-- the point on the source, `Source_gen.comp:473-488`; `u3` is used for the length -/
def Gen.point (c : Gen) (u1 u2 u3 : ℝ) : V3 ℝ :=
  let q := if c.h = 0 ∨ c.w = 0 then onDisk c.radius u1 u2 else (c.w * (2 * u1 - 1) / 2, c.h * (2 * u2 - 1) / 2)
  ⟨q.1, q.2, if c.len ≠ 0 then c.len * (2 * u3 - 1) / 2 else 0⟩

/-- the point to aim at and the solid angle, `Source_gen.comp:490-495` -/
def Gen.aimAt (c : Gen) (u4 u5 : ℝ) : Except Err (ℝ × ℝ × ℝ) :=
  if c.dist > 0 then
    match target c.dist c.xw c.yh u4 u5 with
    | none => .error .undefinedBehaviour
    | some r => .ok r
  else do
    let (d, s) ← targetAngular ⟨0, 0, 1⟩ (c.xw * (Real.pi / 180)) (c.yh * (Real.pi / 180)) M3.one u4 u5
    .ok (d.x, d.y, s)

/-- the spectrum, `Source_gen.comp:511-533` -/
def Gen.spectrum (c : Gen) (lambda : ℝ) : ℝ :=
  match c.flux with
  | some f => f.value lambda
  | none =>
    if c.T1 > 0 ∧ c.I1 > 0 then
      let lambda2 := lambda * lambda
      let lambda5 := lambda2 * lambda2 * lambda
      let m1 := c.I1 * L2P c.T1 / lambda5 * Real.exp (-lambda02 c.T1 / lambda2)
      let m2 := if c.T2 > 0 ∧ c.I2 > 0 then m1 + c.I2 * L2P c.T2 / lambda5 * Real.exp (-lambda02 c.T2 / lambda2) else m1
      if c.T3 > 0 ∧ c.I3 > 0 then m2 + c.I3 * L2P c.T3 / lambda5 * Real.exp (-lambda02 c.T3 / lambda2) else m2
    else 1

/-- `TRACE`, `Source_gen.comp:464-552`; `ABSORB` gives the weight -1 (`tracing_macros.h:33`) -/
def Ready.trace (s : Ready) (e : Event ℝ) (u1 u2 u3 u4 u5 u6 : ℝ) : Except Err (Event ℝ) :=
  if s.c.verbose ≥ 0 then do
    let r := s.c.point u1 u2 u3
    let (xf, yf, pdir) ← s.c.aimAt u4 u5
    let lambda := s.L0 + s.dL * (2 * u6 - 1)
    if lambda ≤ 0 then .ok { e with r := r, p := -1 }
    else
      match aim r.x r.y s.c.dist xf yf (K2V * (2 * Real.pi / lambda)) with
      | none => .error .undefinedBehaviour
      | some vel => .ok { e with r := r, v := vel, p := s.p_in * pdir * s.c.spectrum lambda }
  else .ok e

end
end Verif.McGen
