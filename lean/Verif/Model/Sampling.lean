import Verif.Model.Powder
import Mathlib.Analysis.SpecialFunctions.Log.Basic
import Mathlib.Analysis.SpecialFunctions.Trigonometric.Inverse
/-!
Random numbers and directions with a given distribution: `packages/mccomponents/lib/math/random/`.

Real numbers instead of doubles, `PI` is the exact number; uniform random numbers of [0,1) are arguments.  A result that
is not a number is `none`.
-/

namespace Verif.Sampling
open Solid Flight Homog Kinem
noncomputable section
open Classical

/-- `normal_distrib_rand`, `gaussian.cc:25-40`.  The loop takes two random numbers of the list in each round; `none` also
if the list ends before a point is accepted. -/
def normalRand : List ℝ → Option ℝ
  | u1 :: u2 :: us =>
    let x1 := 2 * u1 - 1
    let x2 := 2 * u2 - 1
    let w := x1 * x1 + x2 * x2
    if w ≥ 1 then normalRand us
    else do
      let q ← divD (-2 * Real.log w) w
      let s ← sqrtD q
      some (x1 * s)
  | _ => none

/-- `lorentzian_distrib_rand`, `lorentzian.cc:17-25` -/
def lorentzRand (u : ℝ) : ℝ := Real.tan (Real.pi * (u - 0.5))

/-- `acos` of C: not a number outside of [-1,1] (used in `geometry.cc:46`) -/
def acosD (x : ℝ) : Option ℝ := if -1 ≤ x ∧ x ≤ 1 then some (Real.arccos x) else none

/-- `choose_direction` towards a target, `geometry.cc:29-63`: the direction and the solid angle -/
def towards (target : V3 ℝ) (radius u1 u2 : ℝ) : Option (V3 ℝ × ℝ) := do
  let l2 := target.dot target
  let c0 ← sqrtD (← divD l2 (radius * radius + l2))
  let cmax := if radius < 0 then c0 * -1 else c0
  let solid := 2 * Real.pi * (1 - cmax)
  let theta ← acosD (random u1 cmax 1)
  let phi := random u2 0 (2 * Real.pi)
  let n : V3 ℝ := if target.x = 0 ∧ target.z = 0 then ⟨1, 0, 0⟩ else ⟨-target.z, 0, target.x⟩
  let u := target.cross n
  let d1 ← Powder.rotate target u theta 1e-7
  let d2 ← Powder.rotate d1 target phi 1e-7
  some (d2, solid)

end
end Verif.Sampling
