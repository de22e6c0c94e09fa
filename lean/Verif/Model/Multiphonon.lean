import Verif.Model.Dos
import Mathlib.Analysis.SpecialFunctions.Trigonometric.DerivHyp
import Mathlib.Data.Nat.Factorial.Basic
/-!
Multiphonon scattering from a density of states:
`packages/mccomponents/python/mccomponents/sample/phonon/multiphonon.py`.

Real numbers instead of doubles, numpy arrays as lists.  A result that is not a finite number is `none`.
-/

namespace Verif.Mph
open Kinem
noncomputable section
open Classical

/-- `reflect`, `multiphonon.py:225-228` -/
def reflect (a : List ℝ) (multiplier : ℝ) : List ℝ := (a.map (multiplier * ·)).reverse ++ a.drop 1

/-- `reflected`, `multiphonon.py:216-229` -/
def reflected (x y : List ℝ) : List ℝ × List ℝ := (reflect x (-1), reflect y 1)

/-- one element of `coth(beta * E/2.) * g/E`, `multiphonon.py:232-233, 248` -/
def gammaPoint (beta e g : ℝ) : Option ℝ := do
  let c ← divD 1 (Real.tanh (beta * e / 2))
  divD (c * g) e

/-- `gamma0`, `multiphonon.py:235-251`; the first element, which would not be a number, is replaced -/
def gamma0 (E g : List ℝ) (beta dE : ℝ) : Except Err (Option ℝ) :=
  match E with
  | [] => .error .indexError
  | e0 :: _ =>
    if ¬ |e0| < 1e-7 then .error .assertionError
    else if ¬ |g.sum * dE - 1| < 1e-3 then .error .assertionError
    else if E.length ≠ g.length then .error .valueError
    else if E.length < 3 then .error .indexError
    else .ok do
      let f ← ((E.zip g).drop 1).mapM fun p => gammaPoint beta p.1 p.2
      let f1 := f.getD 0 0
      let f2 := f.getD 1 0
      some (((f1 - (f2 - f1)) + f.sum) * dE)

/-- one element of `g/(E*g0)*t` with `t = 1./(1-np.exp(-E*beta))`, `multiphonon.py:206-207` -/
def a1Point (beta g0 e g : ℝ) : Option ℝ := do
  let t ← divD 1 (1 - Real.exp (-e * beta))
  let a ← divD g (e * g0)
  some (a * t)

/-- `computeA1E`, `multiphonon.py:188-213`; the element at energy 0 is replaced -/
def computeA1E (E g : List ℝ) (beta dE : ℝ) : Except Err (Option (List ℝ × List ℝ)) := do
  let z := E.length - 1
  let g0 ← gamma0 E g beta dE
  let (E', g') := reflected E g
  return do
    let g0 ← g0
    let lo ← ((E'.zip g').take z).mapM fun p => a1Point beta g0 p.1 p.2
    let hi ← ((E'.zip g').drop (z + 1)).mapM fun p => a1Point beta g0 p.1 p.2
    let t1 := hi.getD 0 0
    let t2 := hi.getD 1 0
    some (E', lo ++ [2.0 * (t1 + (t1 - t2))] ++ hi)

/-- element `M[i, j]` of `convMatrix(y)`, `multiphonon.py:180-185` -/
def convEntry (y : List ℝ) (i j : Nat) : ℝ := if i ≤ j then y.getD (j - i) 0 else 0

/-- `AnE_from_n_1`, `multiphonon.py:159-177`; arrays of different lengths do not occur -/
def anFrom (A1 An : List ℝ) (dE : ℝ) : Option (List ℝ) :=
  let L := A1.length
  let Y := List.replicate L 0 ++ An ++ List.replicate (2 * L) 0
  let y := (List.replicate (3 * L) 0 ++ A1).reverse
  let res := fun i => (∑ j ∈ Finset.range (4 * L), convEntry y i j * Y.getD j 0) * dE
  let start := L / 2 + 1
  let t := (List.range L).map fun j => res (start + j)
  t.mapM fun x => divD x (t.sum * dE)

/-- the spectra of `computeAnESet`, `multiphonon.py:146-156`, number `n + 1` in terms of number `n`; counted from 1 -/
def anSpectrum (A1 : List ℝ) (dE : ℝ) : Nat → Option (List ℝ)
  | 0 => some A1
  | n + 1 => do anFrom A1 (← anSpectrum A1 dE n) dE

/-- `computeAnESet`, `multiphonon.py:146-156` -/
def computeAnESet (N : Nat) (E g : List ℝ) (beta dE : ℝ) : Except Err (Option (List ℝ × List (List ℝ))) := do
  let r ← computeA1E E g beta dE
  if N = 0 then throw .indexError
  return do
    let (E', A1) ← r
    let A ← (List.range N).mapM fun i => anSpectrum A1 dE i
    some (E', A)

/-- `computeSNQ`, `multiphonon.py:138-143` -/
def computeSNQ (DW2 : ℝ) (N : Nat) : ℝ := DW2 ^ N * Real.exp (-DW2) / N.factorial

/-- `recoilE`, `multiphonon.py:313-316` with the constants of lines 331-335 -/
def recoilE (Q M : ℝ) : Option ℝ :=
  divD (6.2415097e+21 * (1.0545716e-34 * Q / 1.0e-10) ^ 2 / 2) (M * 1.66053873e-27)

/-- `DWExp`, `multiphonon.py:305-310`, for one Q -/
def dwExp (g0 Q M : ℝ) : Option ℝ := do some ((← recoilE Q M) * g0)

/-- the sum over the orders in `sqe`, `multiphonon.py:74-79`, for the elements of one place: `i` is the index of
`enumerate`; `None` if there is no order to sum -/
def sumOrders (start : Nat) : Nat → Option ℝ → List ℝ → Option ℝ
  | _, S, [] => S
  | i, S, x :: xs =>
    if i + 1 < start then sumOrders start (i + 1) S xs
    else match S with
      | none => sumOrders start (i + 1) (some x) xs
      | some s => sumOrders start (i + 1) (some (s + x)) xs

/-- the extended axis and the normalised density of states in `sqe`, `multiphonon.py:50-60`, without `Emax`;
a sum of 0 makes all not a number, and the assertion in `gamma0` fails -/
def extend (E g : List ℝ) : Except Err (ℝ × List ℝ × List ℝ) :=
  match E with
  | e0 :: e1 :: _ =>
    let de := e1 - e0
    let n := 3 * E.length
    if n < g.length then .error .valueError
    else
      let E' := (List.range n).map fun k : Nat => e0 + (k : ℝ) * de
      let g' := g ++ List.replicate (n - g.length) 0
      let s := g'.sum * de
      if s = 0 then .error .assertionError else .ok (de, E', g'.map (· / s))
  | _ => .error .indexError

/-- `sqe`, `multiphonon.py:33-83`, and `iterSQESet`, 86-104: energies, and the sum for each Q and energy, which is
`None` if there is no order to sum.  The axis of Q (lines 62-67) is an argument. -/
def sqe (E g Qs : List ℝ) (T M : ℝ) (N start : Nat) :
    Except Err (Option (List ℝ × List (List (Option ℝ)))) := do
  let (de, E', g') ← extend E g
  if T * 0.0862 = 0 then throw .zeroDivision
  let beta := 1 / (T * 0.0862)
  let a ← computeAnESet N E' g' beta de
  let g0 ← gamma0 E' g' beta de
  return do
    let (E2, A) ← a
    let g0 ← g0
    let S ← Qs.mapM fun Q => do
      let w ← dwExp g0 Q M
      some ((List.range E2.length).map fun j =>
        sumOrders start 0 none ((List.range N).map fun i => computeSNQ w (i + 1) * (A.getD i []).getD j 0))
    some (E2, S)

end
end Verif.Mph
