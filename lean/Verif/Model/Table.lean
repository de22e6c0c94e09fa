import Verif.Model.Kinem
import Mathlib.Algebra.Order.Floor.Ring
/-!
Tables: the search in a table `packages/mccomponents/lib/math/search.icc`, the absorption curve
`packages/mccomponents/lib/homogeneous_scatterer/InterpolateAbsorptionFromCurve.cc` and interpolation on
grids `packages/mccomponents/lib/kernels/sample/phonon/interpolate.h`,
`LinearlyInterpolatedGridData_1D.icc`, `LinearlyInterpolatedGridData_3D.icc`, `NNGridData_3D.icc`.

Real numbers instead of doubles; a vector of `n` elements is a function on the natural numbers and `n`.
-/

namespace Verif.Table

/-- the loop of `find_1st_bin_larger_than`, `search.icc:18-26`.  While it runs `start < end`, so it ends only
at one of the two returns. -/
def searchLoop {α : Type} [LinearOrder α] (x : α) (f : Nat → α) (start fin : Nat) : Nat :=
  if start < fin then
    if fin = start + 1 then fin
    else
      let middle := (start + fin) / 2
      if f middle = x then middle
      else if f middle < x then searchLoop x f middle fin
      else searchLoop x f start middle
  else start
termination_by fin - start

/-- `find_1st_bin_larger_than`, `search.icc:10-28`.  For an empty vector `end` wraps around and the element
read does not exist. -/
def search {α : Type} [LinearOrder α] (x : α) (f : Nat → α) (n : Nat) : Except Err Nat :=
  if n = 0 then .error .undefinedBehaviour
  else if f (n - 1) ≤ x then .ok (n - 1 + 1)
  else if f 0 ≥ x then .ok 0
  else .ok (searchLoop x f 0 (n - 1))

noncomputable section
open Classical

/-- the assertions of the constructor, `InterpolateAbsorptionFromCurve.cc:9-18` -/
def curveOk (es : Nat → ℝ) (n m : Nat) : Except Err Unit :=
  if n ≠ m then .error .assertionError
  else if n = 0 then .error .undefinedBehaviour
  else if ∀ i < n - 1, es i < es (i + 1) then .ok () else .error .assertionError

/-- `operator()`, `InterpolateAbsorptionFromCurve.cc:20-35`, for the energy `E` -/
def absorptionAt (es mus : Nat → ℝ) (n : Nat) (E : ℝ) : Except Err ℝ := do
  let index ← search E es n
  if index ≤ 0 then .ok (mus 0)
  else if index ≥ n then .ok (mus (n - 1))
  else
    let E1 := es (index - 1)
    let E2 := es index
    let ratio := (E - E1) / (E2 - E1)
    .ok (ratio * mus index + (1 - ratio) * mus (index - 1))

/-- `interp1D_01`, `interpolate.h:78-83` -/
def interp1 (y0 y1 x : ℝ) : ℝ := y0 + x * (y1 - y0)

/-- `interp1D`, `interpolate.h:85-93` (0/0 is 0 here) -/
def interp1D (xb xe yb ye x : ℝ) : ℝ := interp1 yb ye ((x - xb) / (xe - xb))

/-- `interp2D_01`, `interpolate.h:95-111` -/
def interp2 (z00 z10 z01 z11 x y : ℝ) : ℝ :=
  let d := z11 + z00 - z10 - z01
  z00 + (z10 - z00) * x + (z01 - z00) * y + d * x * y

/-- `interp2D`, `interpolate.h:113-127` -/
def interp2D (xb xe yb ye zbb zeb zbe zee x y : ℝ) : ℝ :=
  interp2 zbb zeb zbe zee ((x - xb) / (xe - xb)) ((y - yb) / (ye - yb))

/-- `interp3D_01`, `interpolate.h:129-153` -/
def interp3 (u000 u100 u010 u001 u011 u101 u110 u111 x y z : ℝ) : ℝ :=
  let a := u000
  let b := u100 - u000
  let c := u010 - u000
  let d := u001 - u000
  let e := u011 - a - c - d
  let f := u101 - a - b - d
  let g := u110 - a - b - c
  let h := u111 - a - b - c - d - e - f - g
  a + b * x + c * y + d * z + e * y * z + f * x * z + g * x * y + h * x * y * z

/-- `interp3D`, `interpolate.h:155-166` -/
def interp3D (x0 x1 y0 y1 z0 z1 u000 u100 u010 u001 u011 u101 u110 u111 x y z : ℝ) : ℝ :=
  interp3 u000 u100 u010 u001 u011 u101 u110 u111 ((x - x0) / (x1 - x0)) ((y - y0) / (y1 - y0))
    ((z - z0) / (z1 - z0))

/-- `LinearlyInterpolatableAxis`, `LinearlyInterpolatableAxis.h:29-41`: ticks at start, start+step, …,
start+n*step -/
structure Axis where
  (start step : ℝ)
  n : Nat

/-- `value2index_and_remainder`, `LinearlyInterpolatedGridData_1D.icc:28-48` -/
def locate1 (a : Axis) (value : ℝ) : Except Err (Nat × ℝ) :=
  let r := (value - a.start) / a.step
  if r < 0 ∨ r ≥ a.n then .error .cppException
  else .ok (⌊r⌋₊, r - ⌊r⌋₊)

/-- `operator()`, `LinearlyInterpolatedGridData_1D.icc:74-93`; the array has `n + 1` elements, which the
constructor (54-70) relies on -/
def value1 (a : Axis) (data : Nat → ℝ) (x : ℝ) : Except Err ℝ := do
  let (i, r) ← locate1 a x
  .ok (interp1 (data i) (data (i + 1)) r)

/-- `value2index_and_remainder`, `LinearlyInterpolatedGridData_3D.icc:27-50` -/
def locate3 (a : Axis) (value : ℝ) : Except Err (Nat × ℝ) :=
  let r := (value - a.start) / a.step
  if r < 0 ∨ r ≥ a.n then
    if |r| < 1e-7 then .ok (0, 0)
    else if |r - a.n| < 1e-7 then .ok (0, 0)
    else .error .cppException
  else .ok (⌊r⌋₊, r - ⌊r⌋₊)

/-- `operator()`, `LinearlyInterpolatedGridData_3D.icc:93-128` -/
def value3 (ax ay az : Axis) (data : Nat → Nat → Nat → ℝ) (x y z : ℝ) : Except Err ℝ := do
  let (i, rx) ← locate3 ax x
  let (j, ry) ← locate3 ay y
  let (k, rz) ← locate3 az z
  .ok (interp3 (data i j k) (data (i + 1) j k) (data i (j + 1) k) (data i j (k + 1)) (data i (j + 1) (k + 1))
    (data (i + 1) j (k + 1)) (data (i + 1) (j + 1) k) (data (i + 1) (j + 1) (k + 1)) rx ry rz)

/-- `value2index_and_remainder`, `NNGridData_3D.icc:27-52` -/
def locateN (a : Axis) (value : ℝ) : Except Err (Nat × ℝ) :=
  let r := (value - a.start) / a.step
  if (r < 0 ∨ r ≥ a.n) ∧ ¬ |r| < 1e-7 then .error .cppException
  else
    let r1 := if r < 0 ∨ r ≥ a.n then 0 else r
    let r2 := if |r1 - a.n| < 1e-7 then 0 else r1
    .ok (⌊r2⌋₊, r2 - ⌊r2⌋₊)

/-- `operator()`, `NNGridData_3D.icc:95-119` -/
def valueN (ax ay az : Axis) (data : Nat → Nat → Nat → ℝ) (x y z : ℝ) : Except Err ℝ := do
  let (i, rx) ← locateN ax x
  let (j, ry) ← locateN ay y
  let (k, rz) ← locateN az z
  .ok (data (if rx > 0.5 then i + 1 else i) (if ry > 0.5 then j + 1 else j) (if rz > 0.5 then k + 1 else k))

end
end Verif.Table
