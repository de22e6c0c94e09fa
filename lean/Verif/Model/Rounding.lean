import Verif.Model.Proxy
import Verif.Model.Monitor
import Verif.Model.IdfPhonon
/-!
Axes computed with rounded numbers: the axes of `NDMonitor` (`packages/mcni/python/mcni/components/NDMonitor.py`), the energies of
a file of a density of states (`packages/mccomponents/python/mccomponents/sample/idf/DOS.py`), and the energies in
`packages/mccomponents/python/mccomponents/sample/phonon/multiphonon.py`.

As in the model of the monitors of McStas each operation is followed by the rounding `fl`.
-/

namespace Verif.Rounding
open Proxy

noncomputable section
open Classical

/-- the boundaries of an axis, `NDMonitor.py:167-177` -/
def ndBoundaries (fl : ℝ → ℝ) (lo hi : ℝ) (bins : Nat) : Except Err (List ℝ) :=
  if lo ≥ hi then .error .valueError
  else do
    let db ← per fl (fl (hi - lo)) bins
    arange fl lo (fl (hi + fl (db / 10))) db

/-- the shape of the histogram made from the boundaries of all axes, `NDMonitor.py:150-181` -/
def ndShape (fl : ℝ → ℝ) : List (ℝ × ℝ × Nat) → Except Err (List Nat)
  | [] => .ok []
  | (lo, hi, b) :: as => do
    let xs ← ndBoundaries fl lo hi b
    let r ← ndShape fl as
    .ok ((xs.length - 1) :: r)

/-- `self.histogram.I += hdd(sample, bins, ranges, weights=p)[0]`, `NDMonitor.py:115`: whether the arrays can be added; those of
`histogramdd` have the shape `bins` -/
def ndAdd (fl : ℝ → ℝ) (axes : List (ℝ × ℝ × Nat)) : Except Err Unit := do
  let s ← ndShape fl axes
  if s = axes.map (·.2.2) then .ok () else .error .valueError

/-- `E = numpy.arange(0,(N_Bins-0.1)*dE,dE)`, `DOS.py:44` -/
def dosEnergies (fl : ℝ → ℝ) (N : Nat) (dE : ℝ) : Except Err (List ℝ) := arange fl 0 (fl (fl (N - fl 0.1) * dE)) dE

/-- the extended energies, `multiphonon.py:51-56`, for the numbers `e0`, `e1` of an axis with `n` numbers and without `Emax` -/
def moreEnergies (fl : ℝ → ℝ) (e0 e1 : ℝ) (n : Nat) : Except Err (List ℝ) :=
  let de := fl (e1 - e0)
  arange fl e0 (fl (e0 + fl (fl (de * 3) * n))) de

end
end Verif.Rounding
