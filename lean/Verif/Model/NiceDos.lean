import Verif.Model.Proxy
import Verif.Model.Kinem
/-!
The preparation of a density of states before it is given to C++, `packages/mccomponents/python/mccomponents/sample/phonon/utils.py`
(all lines cited below are of this file).  Real numbers instead of doubles.
-/

namespace Verif.NiceDos
open Kinem Proxy

noncomputable section
open Classical

/-- `c` of `linear_regression`, `utils.py:76`; `none` if not a number -/
def slope (x y : List ℝ) : Option ℝ := divD (List.zipWith (· * ·) x y).sum (x.map fun a => a * a).sum

/-- `R2 < 0.9` for the `R2` of `linear_regression`, `utils.py:77-80` and 57; if all `y` are equal `R2` is minus infinity, or not a
number if there is no error -/
def poor (x y : List ℝ) (c : ℝ) : Prop :=
  let ave := y.sum / y.length
  let tot := (y.map fun b => (b - ave) ^ 2).sum
  let err := (List.zipWith (fun a b => (b - c * a) ^ 2) x y).sum
  if tot = 0 then 0 < err else 1 - err / tot < 0.9

/-- the loop of `fitparabolic`, `utils.py:51-60`, from `N` points down: the number of points, `c` of the last fit, and `badfit`.  If `c`
is not a number the code goes on with it; here that is an error. -/
def search (E g : List ℝ) (minN : Nat) : Nat → Option ℝ → Except Err (Nat × Option ℝ × Bool)
  | 0, c => .ok (0, c, true)
  | N + 1, c =>
    if N + 1 > minN then
      match slope ((E.take (N + 1)).map fun e => e * e) (g.take (N + 1)) with
      | none => .error .zeroDivision
      | some c => if poor ((E.take (N + 1)).map fun e => e * e) (g.take (N + 1)) c then search E g minN N (some c)
          else .ok (N + 1, some c, false)
    else .ok (N + 1, c, true)

/-- `fitparabolic`, `utils.py:42-70`; `ParabolicFittingError` is `runtimeError`.  Arrays of different lengths are an error here. -/
def fitparabolic (E g : List ℝ) (N minN : Nat) (force : Bool) : Except Err (List ℝ) :=
  if E.length ≠ g.length then .error .valueError
  else match search E g minN N none with
    | .error e => .error e
    | .ok (N, c, bad) =>
      if bad && !force then .error .runtimeError
      else match c with
        | none => .error .nameError
        | some c => .ok ((E.take N).map (fun e => c * e * e) ++ g.drop N)

/-- the windows of `smooth`, `utils.py:130` -/
inductive Win | flat | hanning | hamming | bartlett | blackman | other
deriving DecidableEq

/-- element `m` of the windows of numpy for `M` points, used in `utils.py:136-139`, for `M > 1` -/
def weight (M m : Nat) : Win → ℝ
  | .flat => 1
  | .hanning => 0.5 - 0.5 * Real.cos (2 * Real.pi * m / ((M : ℝ) - 1))
  | .hamming => 0.54 - 0.46 * Real.cos (2 * Real.pi * m / ((M : ℝ) - 1))
  | .bartlett => 2 / ((M : ℝ) - 1) * (((M : ℝ) - 1) / 2 - |(m : ℝ) - ((M : ℝ) - 1) / 2|)
  | .blackman => 0.42 - 0.5 * Real.cos (2 * Real.pi * m / ((M : ℝ) - 1))
      + 0.08 * Real.cos (2 * (2 * Real.pi * m / ((M : ℝ) - 1)))
  | .other => 0

/-- `w/w.sum()`, `utils.py:136-141` -/
def window (M : Nat) (win : Win) : List ℝ :=
  let w := (List.range M).map fun m => weight M m win
  w.map (· / w.sum)

/-- `s=numpy.r_[x[window_len-1:0:-1],x,x[-1:-window_len:-1]]`, `utils.py:134`, for at most as many points as there are in `x` -/
def mirrored (x : List ℝ) (len : Nat) : List ℝ :=
  ((x.drop 1).take (len - 1)).reverse ++ x ++ (x.drop (x.length - (len - 1))).reverse

/-- `numpy.convolve(w, s, mode='valid')`, used in `utils.py:141`, for `w` not longer than `s` -/
def convolve (w s : List ℝ) : List ℝ :=
  (List.range (s.length - w.length + 1)).map fun j =>
    ((List.range w.length).map fun m => w.getD m 0 * s.getD (j + w.length - 1 - m) 0).sum

/-- `smooth`, `utils.py:86-142`, of an array with one dimension -/
def smooth (x : List ℝ) (len : Nat) (win : Win) : Except Err (List ℝ) :=
  if x.length < len then .error .valueError
  else if len < 3 then .ok x
  else if win = .other then .error .valueError
  else
    let y := convolve (window len win) (mirrored x len)
    .ok ((y.take (y.length - (len / 2 + 1))).drop (len / 2 - 1))

/-- `np.interp(x, E, g)`, used in `utils.py:27`, between the points given as pairs, for ascending energies -/
def interpFrom : List (ℝ × ℝ) → ℝ → ℝ
  | [], _ => 0
  | [(_, y0)], _ => y0
  | (x0, y0) :: (x1, y1) :: r, x => if x < x1 then y0 + (y1 - y0) / (x1 - x0) * (x - x0) else interpFrom ((x1, y1) :: r) x

/-- `np.interp(x, E, g)`, used in `utils.py:27`; left of the first energy is the first value -/
def interp (E g : List ℝ) (x : ℝ) : ℝ := if x < E.getD 0 0 then g.getD 0 0 else interpFrom (E.zip g) x

/-- what `nice_dos` returns, and the array `g` of the caller afterwards, `utils.py:22-38` -/
structure Out where
  (E g caller : List ℝ)

/-- `utils.py:24-28` -/
def refine (E g : List ℝ) : Except Err (List ℝ × List ℝ) :=
  if E.length < 500 then
    match E.getLast? with
    | none => .error .indexError
    | some e =>
      match arange id 0 e (e / 500) with
      | .error x => .error x
      | .ok E1 => if E.length ≠ g.length then .error .valueError else .ok (E1, E1.map (interp E g))
  else .ok (E, g)

/-- `g /= g.sum() * (E[1] - E[0])`, `utils.py:37`; a sum of 0 makes values that are not numbers, here an error -/
def normalize (E g : List ℝ) : Except Err (List ℝ) :=
  match E[0]?, E[1]? with
  | some e0, some e1 => if g.sum * (e1 - e0) = 0 then .error .zeroDivision else .ok (g.map (· / (g.sum * (e1 - e0))))
  | _, _ => .error .indexError

/-- `nice_dos`, `utils.py:22-38`.  The fit and the normalisation change the array in place, which is that of the caller if there are
500 points and the first fit succeeds. -/
def niceDos (E g : List ℝ) (force : Bool) : Except Err Out :=
  match refine E g with
  | .error x => .error x
  | .ok (E1, g1) =>
    match fitparabolic E1 g1 100 20 false with
    | .ok g2 =>
      match normalize E1 g2 with
      | .error x => .error x
      | .ok g3 => .ok ⟨E1, g3, if E.length < 500 then g else g3⟩
    | .error .runtimeError =>
      match smooth g1 21 .hanning with
      | .error x => .error x
      | .ok s =>
        match fitparabolic E1 (s.set 0 0) 100 20 force with
        | .error x => .error x
        | .ok g2 =>
          match normalize E1 g2 with
          | .error x => .error x
          | .ok g3 => .ok ⟨E1, g3, g⟩
    | .error x => .error x

end
end Verif.NiceDos
