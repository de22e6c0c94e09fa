import Verif.Model.Vec
import Verif.Model.Base
import Mathlib.Analysis.SpecialFunctions.Trigonometric.Basic
import Mathlib.Analysis.Complex.Basic
import Mathlib.Analysis.SpecialFunctions.Exp
/-!
Lists of reflections: `packages/mccomponents/python/mccomponents/sample/diffraction/calcpeaks.py` and
`packages/mccomponents/python/mccomponents/sample/diffraction/parsers/laz.py`.

Real and complex numbers instead of doubles.
-/

namespace Verif.Peaks
noncomputable section
open Classical

/-- what is used of `diffpy.Structure.Lattice` (not in the repository), `calcpeaks.py:59, 83`, `laz.py:137`: the rows of `base` are
the basis vectors, and `recbase` is the inverse matrix, so that its columns are the reciprocal vectors -/
structure Lat where
  base : M3 ℝ
  recbase : M3 ℝ

/-- Miller indexes, `calcpeaks.py:32` -/
abbrev HKL := V3 ℤ

/-- Miller indexes as numbers, `calcpeaks.py:60, 84` -/
def vec (h : HKL) : V3 ℝ := ⟨h.x, h.y, h.z⟩

/-- `q`, `calcpeaks.py:56-61` -/
def q (L : Lat) (h : HKL) : ℝ :=
  let rb := L.recbase.transpose
  let v := (2 * Real.pi) • ((h.x : ℝ) • rb.r0 + (h.y : ℝ) • rb.r1 + (h.z : ℝ) • rb.r2)
  Real.sqrt (V3.dot v v)

/-- `_q`, `laz.py:134-140` -/
def lazQ (L : Lat) (h : HKL) : ℝ :=
  let rb := L.recbase
  let v := (2 * Real.pi) • ((h.x : ℝ) • rb.r0 + (h.y : ℝ) • rb.r1 + (h.z : ℝ) • rb.r2)
  Real.sqrt (V3.dot v v)

/-- `d`, `calcpeaks.py:82-85`; `none`: infinite -/
def d (L : Lat) (h : HKL) : Option ℝ :=
  let n := Real.sqrt (V3.length2 (L.recbase.mulVec (vec h)))
  if n = 0 then none else some (1 / n)

/-- what is used of an atom, `calcpeaks.py:71-78`: position in fractions of the basis vectors, occupancy, scattering length, and the
parameter of its displacements at the given temperature -/
structure Atom where
  xyz : V3 ℝ
  o : ℝ
  b : ℝ
  B : ℝ

/-- `F_i`, `calcpeaks.py:69-79` -/
def Fi (L : Lat) (h : HKL) (a : Atom) : ℂ :=
  let w : ℝ := match d L h with
    | some d => a.B / 4 / d / d
    | none => 0
  a.o * a.b * Complex.exp (2 * Real.pi * Complex.I * (V3.dot (vec h) a.xyz : ℝ) - w)

/-- `F`, `calcpeaks.py:63-67` -/
def F (L : Lat) (atoms : List Atom) (h : HKL) : ℂ := (atoms.map (Fi L h)).sum

/-- `equivalent_hkls`, `calcpeaks.py:92-105`: `ops` are the matrices `symop.R`, which have integer elements.  `isclose` is
equality, which is the same for integers below 1e5. -/
def equivalents (ops : List (M3 ℤ)) (h : HKL) : List HKL :=
  ops.foldl (fun vs R => if R.mulVec h ∈ vs then vs else vs ++ [R.mulVec h]) []

/-- `multiplicity`, `calcpeaks.py:88-89` -/
def multiplicity (ops : List (M3 ℤ)) (h : HKL) : Nat := (equivalents ops h).length

/-- the argument `type`, `calcpeaks.py:10-18`; others raise `ValueError` -/
inductive Kind where
  | powder
  | singlecrystal

/-- `Peak`, `calcpeaks.py:51-52`, without `d` and `F` -/
structure Peak where
  hkl : HKL
  q : ℝ
  F2 : ℝ
  mult : Nat

/-- `range(a, b)`, `calcpeaks.py:22, 26, 30` -/
def range (a b : ℤ) : List ℤ := (List.range (b - a).toNat).map fun (i : Nat) => a + i

/-- `min_dspacing is not None and d1 < min_dspacing`, `calcpeaks.py:23-25, 27-29, 34` -/
def tooSmall (L : Lat) (minD : Option ℝ) (h : HKL) : Prop :=
  ∃ m x, minD = some m ∧ d L h = some x ∧ x < m

/-- the indexes that come to line 38, in order, `calcpeaks.py:10-35` -/
def candidates (L : Lat) (kind : Kind) (N : ℕ) (minD : Option ℝ) : List HKL :=
  let r := range (match kind with | .powder => 0 | .singlecrystal => -N) (N + 1)
  (r.filter fun h => ¬ tooSmall L minD ⟨h, 0, 0⟩).flatMap fun h =>
    (r.filter fun k => ¬ tooSmall L minD ⟨0, k, 0⟩).flatMap fun k =>
      (r.filter fun l => ¬ (h = 0 ∧ k = 0 ∧ l = 0) ∧ ¬ tooSmall L minD ⟨h, k, l⟩).map fun l => ⟨h, k, l⟩

/-- the indexes that come to line 45, `calcpeaks.py:38-43`; `skip` is the set of indexes equivalent to earlier ones -/
def picks (ops : List (M3 ℤ)) : List HKL → List HKL → List HKL
  | [], _ => []
  | h :: hs, skip => if h ∈ skip then picks ops hs skip else h :: picks ops hs (skip ++ equivalents ops h)

/-- `iter_peaks`, `calcpeaks.py:8-53`.  The assertion in line 48 always holds (see `C49_spacing`). -/
def iterPeaks (L : Lat) (atoms : List Atom) (ops : List (M3 ℤ)) (kind : Kind) (N : ℕ) (minD : Option ℝ) : List Peak :=
  let hs := candidates L kind N minD
  let hs := match kind with
    | .powder => picks ops hs []
    | .singlecrystal => hs
  (hs.filter fun h => 1e-7 < ‖F L atoms h‖).map fun h =>
    ⟨h, q L h, ‖F L atoms h‖ ^ 2 / 100, multiplicity ops h⟩

end

end Verif.Peaks
