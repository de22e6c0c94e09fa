import Verif.Model.Table
import Mathlib.Analysis.SpecialFunctions.Exp
import Mathlib.Algebra.BigOperators.Group.Finset.Basic
/-!
Phonon density of states, Bose factor and Debye-Waller factor:
`packages/mccomponents/lib/kernels/sample/phonon/LinearlyInterpolatedDOS.icc`, `AbstractDOS.h`, `DWFromDOS.icc`,
`utils.cc`, `packages/mccomponents/lib/physics/statistics.cc`, `packages/mccomponents/lib/math/regression/linear1.h`.

Real numbers instead of doubles.
-/

namespace Verif.Dos
open Table Kinem
noncomputable section
open Classical

/-- `Kelvin2meV`, `mccomponents/lib/physics/constants.h:28` -/
def kelvin2meV : ℝ := 1 / 11.605

/-- `BoseEinsteinDistribution`, `statistics.cc:21-31`.  At temperature 0 the argument of the exponential is
infinite and the result 0, or 0/0 for energy 0. -/
def bose (energy T : ℝ) : Option ℝ :=
  let e := if energy < 0 then |energy| else energy
  if T * kelvin2meV = 0 then (if e = 0 then none else some 0)
  else divD 1 (Real.exp (e / (T * kelvin2meV)) - 1)

/-- `phonon_bose_factor`, `utils.cc:29-40` -/
def boseFactor (energy T : ℝ) : Option ℝ :=
  if energy = 0 then some 1
  else do
    let b : ℝ := if energy > 0 then 1 else 0
    some (b + (← bose |energy| T))

/-- the slope of `linear_regression1`, `linear1.h:40-47` -/
def slope (x y : Nat → ℝ) (N : Nat) : Option ℝ :=
  divD (∑ i ∈ Finset.range N, x i * y i) (∑ i ∈ Finset.range N, x i * x i)

/-- `R2 < .9` for the `R2` of `linear_regression1`, `linear1.h:49-56`; if all `y` are equal `R2` is minus
infinity, or not a number if there is no error -/
def poorFit (x y : Nat → ℝ) (N : Nat) (c : ℝ) : Prop :=
  let yave := (∑ i ∈ Finset.range N, y i) / N
  let sstot := ∑ i ∈ Finset.range N, (y i - yave) * (y i - yave)
  let sserr := ∑ i ∈ Finset.range N, (y i - c * x i) * (y i - c * x i)
  if sstot = 0 then 0 < sserr else 1 - sserr / sstot < 0.9

/-- `AbstractDOS`, `AbstractDOS.h:34-67`; `value` is the virtual function -/
structure Density where
  (emin emax : ℝ)
  value : ℝ → Except Err ℝ
  sod : ℝ

/-- `operator ()`, `AbstractDOS.h:54-59` -/
def Density.at (d : Density) (e : ℝ) : Except Err ℝ :=
  if e < d.emin ∨ e > d.emax then .ok 0 else d.value e

/-- `value`, `LinearlyInterpolatedDOS.icc:150-158` -/
def linearValue (e0 de e1 : ℝ) (n : Nat) (Z : List ℝ) (energy : ℝ) : Except Err ℝ :=
  if energy < e0 ∨ energy ≥ e1 then .ok 0
  else value1 ⟨e0, de, n - 1⟩ (fun i => Z.getD i 0) energy

/-- `_compute_sod`, `LinearlyInterpolatedDOS.icc:119-148`: reads 20 elements whatever the size; `throw;` without
an exception ends the program -/
def computeSod (e0 de : ℝ) (Z : List ℝ) : Except Err ℝ :=
  if Z.length < 20 then .error .undefinedBehaviour
  else
    let x : Nat → ℝ := fun i => (e0 + de * i) * (e0 + de * i)
    let y : Nat → ℝ := fun i => Z.getD i 0
    match slope x y 20 with
    | none => .error .zeroDivision
    | some c => if poorFit x y 20 c then .error .runtimeError else .ok c

/-- the constructor of `LinearlyInterpolatedDOS`, `LinearlyInterpolatedDOS.icc:55-97`, with the assertion of
`AbstractDOS.h:36-41`.  Left out: the helper made at line 60 refers to `m_Z`, which is made after it (line 61);
with `ne = 0` the unsigned `ne - 1` wraps around, the assertion is passed and line 70 raises the error.
With `area = 0` the code goes on with values that are not numbers. -/
def linearDos (e0 de : ℝ) (ne : Nat) (Z : List ℝ) : Except Err Density :=
  let e1 := e0 + de * ((ne : ℝ) - 1)
  if ¬ e0 < e1 then .error .assertionError
  else if ne ≠ Z.length then .error .cppException
  else if ne < 2 then .error .cppException
  else if de < 0 then .error .cppException
  else if e0 < 0 then .error .cppException
  else
    let area := Z.sum * de
    if area = 0 then .error .zeroDivision
    else
      let mZ := Z.map (· / area)
      match computeSod e0 de mZ with
      | .error e => .error e
      | .ok sod => .ok ⟨e0, e1, linearValue e0 de e1 ne mZ, sod⟩

/-- the sampling points of `calc_DW_core`, `DWFromDOS.icc:36-37, 43`; `n` is `m_nSample`, at least 1 -/
def dwPoint (wmin wmax : ℝ) (n i : Nat) : ℝ := (wmax - wmin) / ((n : ℝ) - 1 + 0.00000001) * i + wmin

/-- the terms of the sum, `DWFromDOS.icc:54`; `none` if not finite -/
def dwTerm (Z : ℝ → ℝ) (T w : ℝ) : Option ℝ := do
  let b ← bose w T
  let q ← divD (2 * b + 1) w
  some (q * Z w)

/-- the factor of the sum, `DWFromDOS.icc:78-87` -/
def dwFactor (dw mass : ℝ) : ℝ :=
  1 / (1.60217653e-19 * 1e-3) * dw * (1.05457148e-34 * 1.05457148e-34 / 2 / 1.66053886e-27 / mass) * 1e20

/-- `calc_DW_core`, `DWFromDOS.icc:25-88`; `Z` is the operator of the density of states.  Line 66, a `throw`
without an exception, ends the program.  The variable `norm_fac` is not used. -/
def dwCore (wmin wmax : ℝ) (Z : ℝ → ℝ) (n : Nat) (mass T : ℝ) : Except Err ℝ :=
  let w := dwPoint wmin wmax n
  let dw := (wmax - wmin) / ((n : ℝ) - 1 + 0.00000001)
  let used := (List.range n).filter fun i => ¬ w i < wmax / n / 100
  if ∃ i ∈ used, dwTerm Z T (w i) = none then .error .zeroDivision
  else
    let f := fun i => (dwTerm Z T (w i)).getD 0
    let sum := (used.map fun i => f i * (if i = n - 1 then 0.5 else 1)).sum
    match used.head? with
    | none => .error .runtimeError
    | some first =>
      if first + 1 ∉ used then .error .undefinedBehaviour
      else
        let f0 := f first - (dw * first + wmin) * (f (first + 1) - f first) / dw
        .ok ((sum + f0 / 2) * dwFactor dw mass)

/-- `DW`, `DWFromDOS.icc:90-97` -/
def dwAt (core Q : ℝ) : ℝ := Q * Q * core

end
end Verif.Dos
