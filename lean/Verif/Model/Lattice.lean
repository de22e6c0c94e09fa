import Verif.Model.Table
import Mathlib.Data.Complex.Basic
/-!
Phonon dispersion on a grid: `packages/mccomponents/lib/kernels/sample/phonon/PeriodicDispersion_3D.cc`,
`ChangeCoordinateSystem_forDispersion_3D.cc`, `LinearlyInterpolatedDispersionOnGrid_3D.icc`,
`LinearlyInterpolatedPolarizationOnGrid_3D.icc`, and how they are put together in
`packages/mccomponents/python/mccomponents/sample/phonon/bindings/BoostPythonBinding.py` and
`sample/phonon/__init__.py`.

Real numbers instead of doubles.
-/

namespace Verif.Lattice
open Table Kinem
noncomputable section
open Classical

/-- `get_inversions`, `packages/mcni/lib/geometry/Vector3.icc:165-181`; not finite if the three vectors are in
a plane -/
def inversions (x y z : V3 ℝ) : Option (V3 ℝ × V3 ℝ × V3 ℝ) := do
  let yXz := V3.cross y z
  let zXx := V3.cross z x
  let xXy := V3.cross x y
  let vol := V3.dot x yXz
  let scale ← divD 1 vol
  some (scale • yXz, scale • zXx, scale • xXy)

/-- `decimal_part`, `PeriodicDispersion_3D.cc:18-23` -/
def decimalPart (num : ℝ) : ℝ := num - ⌊num⌋

/-- `ReciprocalCell`, `PeriodicDispersion_3D.h:35-37` -/
structure Cell where
  (b1 b2 b3 : V3 ℝ)

/-- `Details::reducedQ` with the vectors of the constructor of `Details`,
`PeriodicDispersion_3D.cc:46-66` -/
def reducedQ (rc : Cell) (Q : V3 ℝ) : Option (V3 ℝ) := do
  let (a1, a2, a3) ← inversions rc.b1 rc.b2 rc.b3
  let c1 := V3.dot a1 Q
  let c2 := V3.dot a2 Q
  let c3 := V3.dot a3 Q
  some (decimalPart c1 • rc.b1 + decimalPart c2 • rc.b2 + decimalPart c3 • rc.b3)

/-- `AbstractDispersion_3D`, `AbstractDispersion_3D.h:31-57` -/
structure Disp where
  (nBranches nAtoms : Nat)
  energy : Nat → V3 ℝ → Except Err ℝ
  polarization : Nat → Nat → V3 ℝ → Except Err (V3 ℂ)
  (minEnergy maxEnergy : Nat → ℝ)

/-- `PeriodicDispersion_3D`, `PeriodicDispersion_3D.cc:69-112`, `PeriodicDispersion_3D.h:44-49`.  For a
degenerate cell the reduced vector is not a number; what the core does then (it makes array indexes from it)
is undefined. -/
def periodic (core : Disp) (rc : Cell) : Disp where
  nBranches := core.nBranches
  nAtoms := core.nAtoms
  energy br k := match reducedQ rc k with
    | none => .error .undefinedBehaviour
    | some q => core.energy br q
  polarization br at' k := match reducedQ rc k with
    | none => .error .undefinedBehaviour
    | some q => core.polarization br at' q
  minEnergy := core.minEnergy
  maxEnergy := core.maxEnergy

/-- `ChangeCoordinateSystem_forDispersion_3D`, `ChangeCoordinateSystem_forDispersion_3D.cc:33-103` -/
def changeCoords (core : Disp) (m : M3 ℝ) : Disp where
  nBranches := core.nBranches
  nAtoms := core.nAtoms
  energy br k := core.energy br (m.mulVec k)
  polarization br at' k := core.polarization br at' (m.mulVec k)
  minEnergy := core.minEnergy
  maxEnergy := core.maxEnergy

/-- `operator()`, `LinearlyInterpolatedPolarizationOnGrid_3D.icc:56-70`; the six interpolations are
nearest-neighbour lookups of the same axes (`LinearlyInterpolatedPolarizationOnGrid_3D.h:51`) -/
def polarizationAt (ax ay az : Axis) (eps : Nat → Nat → Nat → Fin 3 → Fin 2 → ℝ) (q : V3 ℝ) :
    Except Err (V3 ℂ) := do
  let v := fun (c : Fin 3) (p : Fin 2) => valueN ax ay az (fun i j k => eps i j k c p) q.x q.y q.z
  let xr ← v 0 0
  let xi ← v 0 1
  let yr ← v 1 0
  let yi ← v 1 1
  let zr ← v 2 0
  let zi ← v 2 1
  .ok ⟨⟨xr, xi⟩, ⟨yr, yi⟩, ⟨zr, zi⟩⟩

/-- `LinearlyInterpolatedDispersionOnGrid_3D`, `LinearlyInterpolatedDispersionOnGrid_3D.icc:20-125`.  The
assertions about the shapes and the test of the sizes of `min_energies` and `max_energies` are part of the
types here; the number of branches is three times the number of atoms (`AbstractDispersion_3D.cc`). -/
def gridDisp (nAtoms : Nat) (ax ay az : Axis) (eps : Nat → Nat → Nat → Nat → Nat → Fin 3 → Fin 2 → ℝ)
    (E : Nat → Nat → Nat → Nat → ℝ) (minE maxE : Nat → ℝ) : Disp where
  nBranches := 3 * nAtoms
  nAtoms := nAtoms
  energy br k :=
    if br < 3 * nAtoms then value3 ax ay az (fun i j l => E i j l br) k.x k.y k.z
    else .error .undefinedBehaviour
  polarization br at' k :=
    let n := br * nAtoms + at'
    if n < 3 * nAtoms * nAtoms then polarizationAt ax ay az (fun i j l => eps i j l (n / nAtoms) (n % nAtoms)) k
    else .error .undefinedBehaviour
  minEnergy := minE
  maxEnergy := maxE

/-- all grid points, in the order of the array (`BoostPythonBinding.py:212`) -/
def points (n1 n2 n3 : Nat) : List (Nat × Nat × Nat) :=
  (List.range n1).flatMap fun i => (List.range n2).flatMap fun j => (List.range n3).map fun k => (i, j, k)

/-- `np.min(E_view, axis=0)`, `BoostPythonBinding.py:212-213`, of an array that is not empty -/
def gridMin (n1 n2 n3 : Nat) (E : Nat → Nat → Nat → Nat → ℝ) (br : Nat) : ℝ :=
  (points n1 n2 n3).foldl (fun m p => min m (E p.1 p.2.1 p.2.2 br)) (E 0 0 0 br)

/-- `np.max(E_view, axis=0)`, `BoostPythonBinding.py:212-213`, of an array that is not empty -/
def gridMax (n1 n2 n3 : Nat) (E : Nat → Nat → Nat → Nat → ℝ) (br : Nat) : ℝ :=
  (points n1 n2 n3).foldl (fun m p => max m (E p.1 p.2.1 p.2.2 br)) (E 0 0 0 br)

/-- `linearlyinterpolateddispersion_3d`, `BoostPythonBinding.py:188-225`.  `1./(n-1)` raises for one grid
point, numpy's minimum for none.  The inverse of the matrix with columns b1, b2, b3 is taken to be exact; its
rows are those of `inversions`; numpy raises for a singular matrix (its own exception, here `valueError`). -/
def interpolatedDisp (nAtoms : Nat) (rc : Cell) (n1 n2 n3 : Nat)
    (eps : Nat → Nat → Nat → Nat → Nat → Fin 3 → Fin 2 → ℝ) (E : Nat → Nat → Nat → Nat → ℝ) :
    Except Err Disp :=
  if n1 = 1 ∨ n2 = 1 ∨ n3 = 1 then .error .zeroDivision
  else if n1 = 0 ∨ n2 = 0 ∨ n3 = 0 then .error .valueError
  else
    let axis (n : Nat) : Axis := ⟨0, 1 / ((n : ℝ) - 1), n - 1⟩
    let disp := gridDisp nAtoms (axis n1) (axis n2) (axis n3) eps E (gridMin n1 n2 n3 E) (gridMax n1 n2 n3 E)
    match inversions rc.b1 rc.b2 rc.b3 with
    | none => .error .valueError
    | some (a1, a2, a3) => .ok (changeCoords disp ⟨a1, a2, a3⟩)

/-- `periodicdispersion_fromidf` after reading the files,
`packages/mccomponents/python/mccomponents/sample/phonon/__init__.py:79-97`, rendered by
`ComputationEngineRendererExtension.py:350-363`: the cell of the period is the one of the grid -/
def fromIdf (nAtoms : Nat) (rc : Cell) (n1 n2 n3 : Nat)
    (eps : Nat → Nat → Nat → Nat → Nat → Fin 3 → Fin 2 → ℝ) (E : Nat → Nat → Nat → Nat → ℝ) :
    Except Err Disp := do
  let disp ← interpolatedDisp nAtoms rc n1 n2 n3 eps E
  .ok (periodic disp rc)

end
end Verif.Lattice
