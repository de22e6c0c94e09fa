import Verif.Model.Root
import Verif.Model.Powder
import Verif.Model.Phonon
import Mathlib.Analysis.SpecialFunctions.Exp
import Mathlib.Analysis.SpecialFunctions.Complex.Circle
/-!
Coherent one-phonon scattering: `packages/mccomponents/lib/kernels/sample/phonon/CoherentInelastic_SingleXtal.cc`,
`CoherentInelastic_PolyXtal.cc`, `Omega_minus_deltaE.cc`, `scattering_length.icc`, and the construction of the atoms in
`packages/mccomponents/python/mccomponents/sample/phonon/bindings/BoostPythonBinding.py`.

Real numbers instead of doubles; the random numbers `u` (between 0 and 1) are arguments.  A result that is not a
finite number is `none`.
-/

namespace Verif.Xtal
open Solid Flight Homog Kinem Powder Dos
noncomputable section
open Classical

/-- what is used of `AtomicScatterer`, `AtomicScatterer.h:47-53`: position, mass, coherent scattering length and
coherent cross section -/
structure Atom where
  pos : V3 ℝ
  (mass b coh : ℝ)

/-- `AbstractDispersion_3D`, `AbstractDispersion_3D.h:31-57`; functions without exceptions -/
structure Phonons where
  nBranches : Nat
  energy : Nat → V3 ℝ → ℝ
  polarization : Nat → Nat → V3 ℝ → V3 ℂ
  minEnergy : Nat → ℝ

/-- `operator|` of complex vectors, `packages/mcni/lib/geometry/Vector3.cc:48-51` -/
def cdot (a b : V3 ℂ) : ℂ := star a.x * b.x + star a.y * b.y + star a.z * b.z

/-- a real vector as a complex one, `Vector3.cc:16-19, 53-57` -/
def cvec (v : V3 ℝ) : V3 ℂ := ⟨v.x, v.y, v.z⟩

/-- division of a complex by a real number (`scattering_length.icc:43`) -/
def divC (a : ℂ) (b : ℝ) : Option ℂ := if b = 0 then none else some (a / b)

/-- the contribution of one atom, `scattering_length.icc:40-57` -/
def atomTerm (Q : V3 ℝ) (eps : V3 ℂ) (a : Atom) : Option ℂ := do
  let epslen := √(cdot eps eps).re
  let qdote ← divC (cdot (cvec Q) eps) epslen
  let bm ← divD a.b (← sqrtD a.mass)
  some (bm * Complex.exp (Complex.I * (Q.dot a.pos : ℝ)) * qdote)

/-- `sum_of_scattering_length`, `scattering_length.icc:22-74` -/
def sumLen (D : Phonons) (Q : V3 ℝ) (br : Nat) (atoms : List Atom) : Option ℂ := do
  let cs ← atoms.zipIdx.mapM fun (a, i) => atomTerm Q (D.polarization br i Q) a
  some cs.sum

/-- the total coherent cross section, `CoherentInelastic_SingleXtal.cc:119-123`, `CoherentInelastic_PolyXtal.cc:257-260` -/
def totalCoh (atoms : List Atom) : ℝ := (atoms.map (·.coh)).sum

/-- `coh_b` in `atomicscatterer_fromSite`, `BoostPythonBinding.py:98-105` -/
def cohB (xs : ℝ) : ℝ := √(xs * 100 / 4 / Real.pi)

/-! ### Single crystal -/

/-- data of `CoherentInelastic_SingleXtal`, `CoherentInelastic_SingleXtal.h:99-113`; `xacc` and `nSteps` belong to the
root finder (`BoostPythonBinding.py:339-340`: 10 and 100), `DW` is the exponent of the Debye-Waller factor -/
structure Single where
  D : Phonons
  atoms : List Atom
  DW : ℝ → ℝ
  T : ℝ
  dV : ℝ
  xacc : ℝ
  nSteps : Nat

/-- `Omega_q_minus_deltaE::evaluate`, `Omega_minus_deltaE.cc:40-68` -/
def omegaMinus (D : Phonons) (br : Nat) (dir vi : V3 ℝ) (absVi vf : ℝ) : ℝ :=
  let Q : V3 ℝ := ⟨v2k * (vi.x - vf * dir.x), v2k * (vi.y - vf * dir.y), v2k * (vi.z - vf * dir.z)⟩
  D.energy br Q - vsquare2E |absVi * absVi - vf * vf|

/-- the "good" branches, `CoherentInelastic_SingleXtal.cc:222-229` -/
def goodBranches (D : Phonons) (Ei : ℝ) : List Nat :=
  (List.range D.nBranches).filter fun br => D.minEnergy br < Ei * 1.5

/-- `pick_v_f`, `CoherentInelastic_SingleXtal.cc:132-192`: final velocity and the two factors of the probability;
`some none`: it returns true because no root was found -/
def pickVf (K : Single) (br : Nat) (dir vi : V3 ℝ) (absVi : ℝ) (u : ℝ) : Option (Option (V3 ℝ × ℝ)) :=
  let f := omegaMinus K.D br dir vi absVi
  let roots := Root.solve f K.xacc K.nSteps 0 (absVi * 2)
  if roots.length < 1 then some none
  else do
    let vfl := roots.getD (randomIndex u roots.length) 0
    let d ← normalize dir
    let delta := K.dV * absVi
    let J ← divD |f (vfl + delta) - f (vfl - delta)| (2 * delta)
    let j ← divD (2 * vsq2e * vfl) J
    some (some (vfl • d, roots.length * j))

/-- the loop over directions and branches, `CoherentInelastic_SingleXtal.cc:235-245`.  An element of the list is the
direction and the two random numbers that select branch and root. -/
def attempts (K : Single) (good : List Nat) (vi : V3 ℝ) (absVi : ℝ) :
    List (V3 ℝ × ℝ × ℝ) → Option (Option (Nat × V3 ℝ × ℝ))
  | [] => some none
  | (dir, u1, u2) :: rest => do
    let d ← normalize dir
    let br := good.getD (randomIndex u1 good.length) 0
    match ← pickVf K br d vi absVi u2 with
    | some (vf, w) => some (some (br, vf, w))
    | none => attempts K good vi absVi rest

/-- the rest of `pick_a_final_state`, `CoherentInelastic_SingleXtal.cc:256-309` -/
def singleFinish (K : Single) (solid : ℝ) (nGood : Nat) (br : Nat) (vf : V3 ℝ) (w : ℝ) (ev : Ev) : Option Ev := do
  let vil := length ev.v
  let vfl := length vf
  let omega := v2E vil - v2E vfl
  let Q := v2k • (ev.v - vf)
  let sl ← sumLen K.D Q br K.atoms
  let ns ← divD (Complex.normSq sl / 1e30) (totalCoh K.atoms * 1e-28)
  let a ← divD (ksquare2E ns) |omega|
  let therm ← boseFactor omega K.T
  let dw := Real.exp (-K.DW (length Q))
  let r ← divD (v2k * vfl) (v2k * vil)
  some { ev with v := vf, p := ev.p * (w * solid * nGood * a * r * dw * therm) }

/-- `pick_a_final_state`, `CoherentInelastic_SingleXtal.cc:195-310`; `solid` is the solid angle from which the
directions are taken (`TargetCone.cc:34-43`).  Without good branches `random(size_t(0), 0)` takes a remainder modulo
zero (`random.cc:32`). -/
def Single.S (K : Single) (solid : ℝ) (tries : List (V3 ℝ × ℝ × ℝ)) (ev : Ev) : Except Err (Option Ev) :=
  let vil := length ev.v
  let good := goodBranches K.D (v2E vil)
  if good = [] then .error .undefinedBehaviour
  else .ok (match attempts K good ev.v vil (tries.take 100) with
    | none => none
    | some none => some ev
    | some (some (br, vf, w)) => singleFinish K solid good.length br vf w ev)

/-! ### Polycrystal -/

/-- data of `CoherentInelastic_PolyXtal`, `CoherentInelastic_PolyXtal.h:80-93` -/
structure Poly where
  D : Phonons
  atoms : List Atom
  DW : ℝ → ℝ
  (T maxOmega minOmega eps : ℝ)

/-- `pick_Ef`, `CoherentInelastic_PolyXtal.cc:194-210` -/
def pickEf (Ei omega u : ℝ) : ℝ :=
  if omega < Ei then (if u ≥ 0.5 then Ei + omega else Ei - omega) else Ei + omega

/-- `pick_a_valid_Q_vector`, `CoherentInelastic_PolyXtal.cc:162-191`.  The list holds the vectors made by `pickQ` with
the random number used in `pick_Ef`; `none` at its end: the loop still runs.  The state is what `E_f` and `v_f_l` hold
from the round before; `continue` goes on to the condition at the end of the loop.  `Ef` is not negative if `minOmega`
is not; square roots of negative numbers are not modelled (`√` is 0). -/
def validQ (K : Poly) (br : Nat) (Ei vil : ℝ) : Option (ℝ × ℝ) → List (V3 ℝ × ℝ) →
    Except Err (Option (V3 ℝ × ℝ × ℝ × ℝ))
  | _, [] => .ok none
  | st, (Q, u) :: rest =>
    let vQ := k2v * length Q
    let omega := K.D.energy br Q
    let st' := if omega < K.minOmega then st
      else some (pickEf Ei omega u, √(pickEf Ei omega u) * sqrte2v)
    match st' with
    | none => .error .undefinedBehaviour
    | some (Ef, vf) =>
      if vQ < |vil - vf| ∨ vQ > vil + vf then validQ K br Ei vil (some (Ef, vf)) rest
      else .ok (some (Q, vQ, Ef, vf))

/-- `Details::pick_v_f`, `CoherentInelastic_PolyXtal.cc:95-144` -/
def polyVf (eps : ℝ) (vi : V3 ℝ) (vfl vQ u : ℝ) : Option (V3 ℝ) := do
  let vil := length vi
  let cost ← divD (vil * vil + vfl * vfl - vQ * vQ) (2 * vil * vfl)
  let cossq := if cost * cost > 1 then 1 else cost * cost
  let sint ← sqrtD (1 - cossq)
  let phi := random u 0 (2 * physPi)
  let (e1, e2, e3) ← axes eps vi
  some (vfl • outDir e1 e2 e3 cost sint phi)

/-- `calc_AccessibleReciVol`, `CoherentInelastic_PolyXtal.cc:213-225` -/
def accessible (maxOmega Ei : ℝ) : Option ℝ := do
  let q ← E2k maxOmega
  let ki ← E2k Ei
  let x ← divD ki q
  let Q1 := ki + (← E2k (Ei + maxOmega / (1 + 7.6 * x ^ 4)))
  some (4 / 3 * physPi * Q1 * Q1 * Q1)

/-- `S` after the choice of branch and Q, `CoherentInelastic_PolyXtal.cc:324-386` -/
def polyFinish (K : Poly) (br : Nat) (Q : V3 ℝ) (vQ Ef vfl u : ℝ) (ev : Ev) : Option Ev := do
  let vil := length ev.v
  let Ei := v2E vil
  let omega := Ei - Ef
  let vf ← polyVf K.eps ev.v vfl vQ u
  let ki := v2k * vil
  let kf := v2k * vfl
  let Ql := v2k * vQ
  let therm ← boseFactor omega K.T
  let dw := Real.exp (-K.DW Ql)
  let two : ℝ := if Ei > omega then 2 else 1
  let sl ← sumLen K.D Q br K.atoms
  let ns ← divD (Complex.normSq sl * (1e-30 * 4 * physPi)) (totalCoh K.atoms * 1e-28)
  let a ← divD (ksquare2E ns) |omega|
  let r ← divD kf ki
  let g ← divD 1 (ki * kf * Ql)
  let vol ← accessible K.maxOmega Ei
  some { ev with v := vf, p := ev.p * K.D.nBranches * two * a * dw * r * therm * g * vol / (8 * physPi) }

/-- `S`, `CoherentInelastic_PolyXtal.cc:297-389`; `u1` selects the branch (`utils.cc:24-27`), `Qs` as in `validQ`.
Without branches there is a remainder modulo zero.  `none` also stands for a loop that still runs. -/
def Poly.S (K : Poly) (u1 : ℝ) (Qs : List (V3 ℝ × ℝ)) (u2 : ℝ) (ev : Ev) : Except Err (Option Ev) :=
  if K.D.nBranches = 0 then .error .undefinedBehaviour
  else do
    let br := randomIndex u1 K.D.nBranches
    match ← validQ K br (v2E (length ev.v)) (length ev.v) none Qs with
    | none => .ok none
    | some (Q, vQ, Ef, vfl) => .ok (polyFinish K br Q vQ Ef vfl u2 ev)

end
end Verif.Xtal
