import Verif.Model.Vec
import Verif.Model.Base
import Mathlib.Algebra.Order.Ring.Abs
import Mathlib.Analysis.SpecialFunctions.Trigonometric.Inverse
import Mathlib.Analysis.SpecialFunctions.Complex.Arg
/-!
Frames of components and transport of neutrons between frames.
-/

namespace Verif.Frames
variable {F : Type}

/-- position and rotation matrix of a component in the instrument frame
(`Geometer`), arguments of `mcni/python/mcni/neutron_coordinates_transformers/mcstas.py:5-7` -/
structure Frame (F : Type) where
  pos : V3 F
  rot : M3 F

/-- `relativePositionOrientation`, `neutron_coordinates_transformers/mcstas.py:5-21`
(orientations given as matrices; `toMatrix` of angles is modelled below). -/
def relative [Ring F] (f1 f2 : Frame F) : V3 F × M3 F :=
  (f1.rot.mulVec (f2.pos - f1.pos), f2.rot.mul f1.rot.transpose)

/-- `abs2rel(r, cs_pos, cs_rot)`, `mcni/lib/geometry/coords_transform.icc:21-26` -/
def abs2relPos [Ring F] (r pos : V3 F) (rot : M3 F) : V3 F := rot.mulVec (r - pos)

/-- `abs2rel(v, cs_rot)`, `mcni/lib/geometry/coords_transform.icc:38-44` -/
def abs2relVel [Ring F] (v : V3 F) (rot : M3 F) : V3 F := rot.mulVec v

/-- `rel2abs(r, cs_pos, cs_rot)`, `mcni/lib/geometry/coords_transform.icc:49-58` -/
def rel2absPos [Ring F] (r pos : V3 F) (rot : M3 F) : V3 F := rot.transpose.mulVec r + pos

/-- `rel2abs(v, cs_rot)`, `mcni/lib/geometry/coords_transform.icc:70-79` -/
def rel2absVel [Ring F] (v : V3 F) (rot : M3 F) : V3 F := rot.transpose.mulVec v

/-- `abs2rel(ev, cs_pos, cs_rot)`, `mcni/lib/neutron/coords_transform.icc:43-49` -/
def abs2rel [Ring F] (ev : Event F) (pos : V3 F) (rot : M3 F) : Event F :=
  { ev with r := abs2relPos ev.r pos rot, v := abs2relVel ev.v rot }

/-- `abs2rel(ev, cs_pos)`, `mcni/lib/neutron/coords_transform.icc:51-56` -/
def abs2relFast [Ring F] (ev : Event F) (pos : V3 F) : Event F := { ev with r := ev.r - pos }

/-- `rel2abs(ev, cs_pos, cs_rot)`, `mcni/lib/neutron/coords_transform.icc:59-65` -/
def rel2abs [Ring F] (ev : Event F) (pos : V3 F) (rot : M3 F) : Event F :=
  { ev with r := rel2absPos ev.r pos rot, v := rel2absVel ev.v rot }

/-- `rel2abs(ev, cs_pos)`, `mcni/lib/neutron/coords_transform.icc:67-72` -/
def rel2absFast [Ring F] (ev : Event F) (pos : V3 F) : Event F := { ev with r := ev.r + pos }

/-- `mcni/lib/neutron/coords_transform.icc:51-72` with the exact per-event transformation instead of the batch
short cuts (what `transport` is meant to compute, used for C16; see C19 for the short cuts) -/
def transportExact [Ring F] (f1 f2 : Frame F) (buf : List (Event F)) : List (Event F) :=
  buf.map (abs2rel · (relative f1 f2).1 (relative f1 f2).2)

section
variable [Field F] [LinearOrder F]

/-- `epsilon = 1e-8`, `mcni/lib/neutron/coords_transform.icc:21,35` -/
def eps : F := 1 / 10 ^ 8

/-- `is_almost_0`, `mcni/lib/neutron/coords_transform.icc:33-40` -/
def isAlmost0 (v : V3 F) : Bool := decide (|v.x| ≤ eps ∧ |v.y| ≤ eps ∧ |v.z| ≤ eps)

/-- `is_almost_I`, `mcni/lib/neutron/coords_transform.icc:19-31` -/
def isAlmostI (m : M3 F) : Bool :=
  decide ((|m.r0.x - 1| ≤ eps ∧ |m.r0.y| ≤ eps ∧ |m.r0.z| ≤ eps) ∧
          (|m.r1.x| ≤ eps ∧ |m.r1.y - 1| ≤ eps ∧ |m.r1.z| ≤ eps) ∧
          (|m.r2.x| ≤ eps ∧ |m.r2.y| ≤ eps ∧ |m.r2.z - 1| ≤ eps))

/-- `abs2rel_batch`, `mcni/lib/neutron/coords_transform.cc:79-93` -/
def abs2relBatch (buf : List (Event F)) (pos : V3 F) (rot : M3 F) : List (Event F) :=
  if isAlmost0 pos && isAlmostI rot then buf
  else if isAlmostI rot then buf.map (abs2relFast · pos)
  else buf.map (abs2rel · pos rot)

/-- `rel2abs_batch`, `mcni/lib/neutron/coords_transform.cc:95-108` -/
def rel2absBatch (buf : List (Event F)) (pos : V3 F) (rot : M3 F) : List (Event F) :=
  if isAlmost0 pos && isAlmostI rot then buf
  else if isAlmostI rot then buf.map (rel2absFast · pos)
  else buf.map (rel2abs · pos rot)

/-- `AbstractNeutronCoordinatesTransformer.__call__`,
`neutron_coordinates_transformers/AbstractNeutronCoordinatesTransformer.py:43-62`, with
`applyOffsetRotation` of `bindings/boostpython/__init__.py:41-48`: move a buffer from
frame `f1` to frame `f2`. -/
def transport (f1 f2 : Frame F) (buf : List (Event F)) : List (Event F) :=
  let rel := relative f1 f2
  abs2relBatch buf rel.1 rel.2

/-- the frame changes of a buffer passing through the components of an instrument,
`mcni/python/mcni/instrument_simulator/SimulationChain.py:54-89` with
`SimulationNode.py:41-60`, leaving out what the components do -/
def transportChain (f : Frame F) : List (Frame F) → List (Event F) → List (Event F)
  | [], buf => buf
  | g :: fs, buf => transportChain g fs (transport f g buf)

end

/-! ### Angles -/

/-- `toradian`, `neutron_coordinates_transformers/utils.py:36-38` -/
noncomputable def toradian (a : ℝ) : ℝ := a * Real.pi / 180

/-- `todegree`, `neutron_coordinates_transformers/utils.py:41-43` -/
noncomputable def todegree (a : ℝ) : ℝ := a * 180 / Real.pi

/-- the matrix from cosines and sines, `mcstasRotations.py:136-149` -/
def matrixCS [Ring F] (cx sx cy sy cz sz : F) : M3 F :=
  ⟨⟨cy * cz, sx * sy * cz + cx * sz, sx * sz - cx * sy * cz⟩,
   ⟨-cy * sz, cx * cz - sx * sy * sz, sx * cz + cx * sy * sz⟩,
   ⟨sy, -sx * cy, cx * cy⟩⟩

/-- `_toMatrix(phx, phy, phz, unit='radian')`, `mcstasRotations.py:118-150` -/
noncomputable def toMatrixRad (a : V3 ℝ) : M3 ℝ :=
  matrixCS (Real.cos a.x) (Real.sin a.x) (Real.cos a.y) (Real.sin a.y) (Real.cos a.z) (Real.sin a.z)

/-- `toMatrix(phx, phy, phz)` in degrees, `mcstasRotations.py:118-150` -/
noncomputable def toMatrix (a : V3 ℝ) : M3 ℝ := toMatrixRad ⟨toradian a.x, toradian a.y, toradian a.z⟩

/-- `numpy.arctan2(y, x)`, used at `mcstasRotations.py:169-174` -/
noncomputable def arctan2 (y x : ℝ) : ℝ := Complex.arg ⟨x, y⟩

/-- the comparison of one entry in the self check, `mcstasRotations.py:180-185`;
`true` = difference too large -/
noncomputable def entryBad (m m1 : ℝ) : Prop :=
  if |m| < 1 / 10 ^ 8 then |m1 - m| > 1 / 10 ^ 8 else |(m1 - m) / m| > 1 / 10 ^ 8

/-- the self check over all entries, `mcstasRotations.py:177-189` -/
def checkBad (m m1 : M3 ℝ) : Prop :=
  (entryBad m.r0.x m1.r0.x ∨ entryBad m.r0.y m1.r0.y ∨ entryBad m.r0.z m1.r0.z) ∨
  (entryBad m.r1.x m1.r1.x ∨ entryBad m.r1.y m1.r1.y ∨ entryBad m.r1.z m1.r1.z) ∨
  (entryBad m.r2.x m1.r2.x ∨ entryBad m.r2.y m1.r2.y ∨ entryBad m.r2.z m1.r2.z)

/-- the angles computed by `toAngles` before its self check (radian),
`mcstasRotations.py:167-175` -/
noncomputable def rawAngles (m : M3 ℝ) : V3 ℝ :=
  if m.r2.x > 1 - 1 / 10 ^ 8 then ⟨0, Real.arcsin m.r2.x, arctan2 m.r0.y m.r1.y⟩
  else if m.r2.x < 1 / 10 ^ 8 - 1 then ⟨0, Real.arcsin m.r2.x, arctan2 m.r0.y m.r1.y⟩
  else ⟨arctan2 (-m.r2.y) m.r2.z, Real.arcsin m.r2.x, arctan2 (-m.r1.x) m.r0.x⟩

open Classical in
/-- `toAngles(m)` in degrees for a matrix argument, `mcstasRotations.py:152-195`; the failed
self check ends in `RuntimeError` (line 189).  Simplification: exact real
arithmetic (numpy's `arcsin` of a number above 1 would be NaN). -/
noncomputable def toAngles (m : M3 ℝ) : Except Err (V3 ℝ) :=
  let a := rawAngles m
  if checkBad m (toMatrixRad a) then .error .runtimeError
  else .ok ⟨todegree a.x, todegree a.y, todegree a.z⟩

end Verif.Frames
