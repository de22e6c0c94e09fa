import Verif.Model.Kinem
/-!
Root finding: `packages/mccomponents/lib/math/rootfinding.cc`, `rootfinding.h`, `misc.cc`.

Real numbers instead of doubles; the function is total and raises no exceptions.
-/

namespace Verif.Root
noncomputable section
open Classical

/-- `misc::sign`, `misc.cc:6-8` -/
def sgn (a b : ℝ) : ℝ := if b ≥ 0 then |a| else -|a|

/-- `UNUSED`, `rootfinding.h:81` -/
def unused : ℝ := -1.11e30

/-- `check_answer`, `rootfinding.cc:58-62`, followed by `return ans` -/
def checkAnswer (ans : ℝ) : Except Err ℝ := if ans = unused then .error .cppException else .ok ans

/-- the point of Ridder's method, `rootfinding.cc:201-212`; `none` for `s == 0.0` -/
def ridder (xl xh fl fh fm : ℝ) : Option ℝ :=
  let xm := 0.5 * (xl + xh)
  let temp := fm * fm - fh * fl
  if temp ≥ 0 then
    let s := √temp
    if s = 0 then none
    else some (xm + (xm - xl) * ((if fl ≥ fh then 1 else -1) * fm / s))
  else some xm

/-- the loop of `zridd`, `rootfinding.cc:190-265`; the first argument is the number of iterations left.  The two
`throw "..."` (256, 267) are `cppException`. -/
def zriddLoop (f : ℝ → ℝ) (xacc : ℝ) : Nat → ℝ → ℝ → ℝ → ℝ → ℝ → Except Err ℝ
  | 0, _, _, _, _, _ => .error .cppException
  | n + 1, xl, xh, fl, fh, ans =>
    let xm := 0.5 * (xl + xh)
    let fm := f xm
    match ridder xl xh fl fh fm with
    | none => checkAnswer ans
    | some xnew =>
      if |xnew - ans| ≤ xacc then checkAnswer ans
      else
        let fnew := f xnew
        if fnew = 0 then checkAnswer xnew
        else if sgn fm fnew ≠ fm then
          if |xnew - xm| ≤ xacc then checkAnswer xnew else zriddLoop f xacc n xm xnew fm fnew xnew
        else if sgn fl fnew ≠ fl then
          if |xnew - xl| ≤ xacc then checkAnswer xnew else zriddLoop f xacc n xl xnew fl fnew xnew
        else if sgn fh fnew ≠ fh then
          if |xh - xnew| ≤ xacc then checkAnswer xnew else zriddLoop f xacc n xnew xh fnew fh xnew
        else .error .cppException

/-- `zridd` of a functor, `rootfinding.cc:153-272`, with `MAX_NUM_LOOPS = 60` (`rootfinding.h:82`); `none`:
`failed` is set -/
def zridd (f : ℝ → ℝ) (x1 x2 xacc : ℝ) : Except Err (Option ℝ) :=
  let fl := f x1
  let fh := f x2
  if fl * fh ≥ 0 then
    if fl = 0 then .ok (some x1)
    else if fh = 0 then .ok (some x2)
    else .ok none
  else do .ok (some (← zriddLoop f xacc 59 x1 x2 fl fh unused))

/-- the body of the loop of `FindRootsEvenly::solve`, `rootfinding.cc:33-45`, with both exceptions caught -/
def stepRoot (f : ℝ → ℝ) (xacc x1 step : ℝ) (i : Nat) : Option ℝ :=
  match zridd f (x1 + step * i) (x1 + step * (i + 1 : Nat)) xacc with
  | .ok r => r
  | .error _ => none

/-- `FindRootsEvenly::solve`, `rootfinding.cc:22-49`, with `ZRidd` as the root finder (`rootfinding.h:109-121`) -/
def solve (f : ℝ → ℝ) (xacc : ℝ) (nSteps : Nat) (x1 x2 : ℝ) : List ℝ :=
  let step := (x2 - x1) / nSteps
  (List.range nSteps).filterMap (stepRoot f xacc x1 step)

end
end Verif.Root
