import Verif.Model.Solid
import Verif.Model.Frames
/-!
How Python descriptions of scatterers become C++ objects:
`packages/mccomposite/python/mccomposite` (renderers of shapes and composites, coordinate system
adaptors, orientation conventions) with the users in
`packages/mccomponents/python/mccomponents/{homogeneous_scatterer,detector}`.

Simplifications: lengths and angles are numbers already (in metres and degrees), so the removal of
units (`units_utils.py:56-118`) is left out.  The classes of the packages `instrument` and `pyre`
are not part of the repository; only the attributes the renderer reads are modelled.
-/

namespace Verif.Assembly
open Verif.Solid Verif.Frames
noncomputable section
open Classical

/-! ### orientations -/

/-- `matrix_rotationaboutaxis`, `orientation_conventions/rotations.py:6-22`.  For a zero axis numpy
divides 0 by 0, warns and goes on with NaN: `none`. -/
def matrixAbout (axis : V3 ℝ) (theta : ℝ) : Option (M3 ℝ) :=
  let n := Real.sqrt (axis.dot axis)
  if n = 0 then none else
  let th := toradian theta
  let a := Real.cos (th / 2)
  let b := axis.x / n * Real.sin (th / 2)
  let c := axis.y / n * Real.sin (th / 2)
  let d := axis.z / n * Real.sin (th / 2)
  some ⟨⟨a*a + b*b - c*c - d*d, 2*(b*c + a*d), 2*(b*d - a*c)⟩,
        ⟨2*(b*c - a*d), a*a + c*c - b*b - d*d, 2*(c*d + a*b)⟩,
        ⟨2*(b*d + a*c), 2*(c*d - a*b), a*a + d*d - b*b - c*c⟩⟩

/-- what `factory.orientation` accepts, `AbstractOrientationConvention.py:20-33`: three angles or
an axis with an angle (degrees) -/
inductive Orient where
  | euler (angles : V3 ℝ)
  | axisAngle (axis : V3 ℝ) (angle : ℝ)

/-- `eulerToMatrix`, `McStasConvention.py:30-33` -/
def eulerToMatrix (angles : V3 ℝ) : M3 ℝ := (toMatrix angles).transpose

/-- `tomatrix`, `AbstractOrientationConvention.py:20-33` with `McStasConvention.py:30-37`;
`none` = a matrix of NaN -/
def tomatrix : Orient → Option (M3 ℝ)
  | .euler a => some (eulerToMatrix a)
  | .axisAngle axis angle => (matrixAbout axis angle).map M3.transpose

/-! ### shapes -/

/-- the descriptions of shapes the renderers know: `geometry/ShapeComputationEngineRenderer.py:43-108`
(attributes read there and in the two coordinate system adaptors),
`extensions/HollowCylinder.py:17-21`, `extensions/SphereShell.py:7-12`.  `blockD` is a block with
the attribute `diagonal`, `block` one without.  `implicit` is the attribute
`implicit_coordinate_system`. -/
inductive PyShape where
  | blockD (diagonal : V3 ℝ)
  | block (width height thickness : ℝ)
  | sphere (radius : ℝ)
  | cylinder (radius height : ℝ)
  | pyramid (thickness width height : ℝ)
  | cone (radius height : ℝ)
  | hollowCylinder (inRadius outRadius height : ℝ)
  | sphereShell (inRadius outRadius : ℝ)
  | union (l : List PyShape)
  | intersection (l : List PyShape)
  | difference (op1 op2 : PyShape)
  | dilation (body : PyShape) (scale : ℝ)
  | rotEuler (body : PyShape) (angles : V3 ℝ)
  | rotAxis (body : PyShape) (axis : V3 ℝ) (angle : ℝ) (implicit : Bool)
  | translation (body : PyShape) (vector : V3 ℝ) (implicit : Bool)

/-- the coordinate systems, `coordinate_systems/__init__.py:14-17` -/
inductive CS where
  | mcstas | scientist
  deriving DecidableEq

/-- `onBlock`, `McStasCSAdaptor_for_ShapeComputationEngineRenderer.py:20-29`,
`InstrumentScientistCSAdaptor_for_ShapeComputationEngineRenderer.py:22-31` for a block without
`diagonal` -/
def onBlock (cs : CS) (width height thickness : ℝ) : Shape :=
  match cs with
  | .mcstas => .box width height thickness
  | .scientist => .box thickness width height

/-- `onCylinder`, `McStasCSAdaptor_for_ShapeComputationEngineRenderer.py:52-58`,
`InstrumentScientistCSAdaptor_for_ShapeComputationEngineRenderer.py:49-51` -/
def onCylinder (cs : CS) (radius height : ℝ) : Shape :=
  match cs with
  | .mcstas => .rotation (.cylinder radius height) (eulerToMatrix ⟨-90, 0, 0⟩)
  | .scientist => .cylinder radius height

/-- `onPyramid`, `McStasCSAdaptor_for_ShapeComputationEngineRenderer.py:31-41`,
`InstrumentScientistCSAdaptor_for_ShapeComputationEngineRenderer.py:33-39` -/
def onPyramid (cs : CS) (thickness width height : ℝ) : Shape :=
  match cs with
  | .mcstas => .rotation (.rotation (.pyramid thickness width height) (eulerToMatrix ⟨-90, 0, 0⟩))
      (eulerToMatrix ⟨0, -90, 0⟩)
  | .scientist => .pyramid thickness width height

/-- `onCone`, `McStasCSAdaptor_for_ShapeComputationEngineRenderer.py:43-50`,
`InstrumentScientistCSAdaptor_for_ShapeComputationEngineRenderer.py:41-47` -/
def onCone (cs : CS) (radius height : ℝ) : Shape :=
  match cs with
  | .mcstas => .rotation (.cone radius height) (eulerToMatrix ⟨-90, 0, 0⟩)
  | .scientist => .cone radius height

/-- `onHollowCylinder`, `extensions/HollowCylinder.py:29-44` -/
def onHollowCylinder (cs : CS) (r1 r2 h : ℝ) : Except Err Shape :=
  if r1 ≥ r2 then .error .runtimeError
  else if r1 = 0 * r1 then .ok (onCylinder cs r2 h)
  else .ok (.difference (onCylinder cs r2 h) (onCylinder cs r1 (h * 2)))

/-- `onSphereShell`, `extensions/SphereShell.py:20-34` -/
def onSphereShell (r1 r2 : ℝ) : Except Err Shape :=
  if r1 ≥ r2 then .error .runtimeError
  else if r1 = 0 * r1 then .ok (.sphere r2)
  else .ok (.difference (.sphere r2) (.sphere r1))

/-- (beam, transversal, vertical) to (x, y, z) of McStas,
`McStasCSAdaptor_for_ShapeComputationEngineRenderer.py:62-64,75-77` -/
def explicitVec (implicit : Bool) (v : V3 ℝ) : V3 ℝ := if implicit then v else ⟨v.y, v.z, v.x⟩

mutual
/-- `render`, `ShapeComputationEngineRenderer.py:37-69` with the adaptor of the coordinate system
(`mccomposite/__init__.py:29-47`) and the two extension shapes.  A rotation by a matrix of NaN
(zero axis) cannot be expressed as a `Shape`; it is modelled as the error `zeroDivision`, though the
code carries on. -/
def render (cs : CS) : PyShape → Except Err Shape
  | .blockD d => .ok (.box d.x d.y d.z)
  | .block w h t => .ok (onBlock cs w h t)
  | .sphere r => .ok (.sphere r)
  | .cylinder r h => .ok (onCylinder cs r h)
  | .pyramid t w h => .ok (onPyramid cs t w h)
  | .cone r h => .ok (onCone cs r h)
  | .hollowCylinder r1 r2 h => onHollowCylinder cs r1 r2 h
  | .sphereShell r1 r2 => onSphereShell r1 r2
  | .union l => do .ok (.union (← renderAll cs l))
  | .intersection l => do .ok (.intersection (← renderAll cs l))
  | .difference a b => do
    let ca ← render cs a
    let cb ← render cs b
    .ok (.difference ca cb)
  | .dilation b s => do .ok (.dilation (← render cs b) s)
  | .rotEuler b angles =>
    match cs with
    | .scientist => .error .notImplemented
    | .mcstas => do .ok (.rotation (← render .mcstas b) (eulerToMatrix angles))
  | .rotAxis b axis angle implicit =>
    match cs with
    | .scientist => .error .notImplemented
    | .mcstas =>
      match tomatrix (.axisAngle (explicitVec implicit axis) angle) with
      | none => .error .zeroDivision
      | some m => do .ok (.rotation (← render .mcstas b) m)
  | .translation b v implicit =>
    match cs with
    | .scientist => .error .notImplemented
    | .mcstas => do .ok (.translation (← render .mcstas b) (explicitVec implicit v))
/-- the loops over the shapes of a union or an intersection,
`ShapeComputationEngineRenderer.py:47,54` -/
def renderAll (cs : CS) : List PyShape → Except Err (List Shape)
  | [] => .ok []
  | s :: l => do
    let c ← render cs s
    let cl ← renderAll cs l
    .ok (c :: cl)
end

/-! ### composites -/

/-- an element of a composite: its identity as a Python object and what its method `shape` gives.
`none`: no such method (`ScattererCopy.py:15-30`). -/
structure PyElem where
  id : Nat
  shape : Option PyShape

/-- the data members of a composite that have to do with the geometry,
`CompositeScatterer.py:25-28`.  The registry of the geometer (`mcni/Geometer.py:18-34`) is the list of
registrations, the latest first. -/
structure PyComp where
  elems : List PyElem
  geom : List (Nat × V3 ℝ × V3 ℝ)
  shape : Option PyShape

/-- the constructor, `CompositeScatterer.py:19-36`, without the multiple scattering parameters -/
def PyComp.new (shape : Option PyShape) : PyComp := ⟨[], [], shape⟩

/-- `addElement`, `CompositeScatterer.py:51-54`, with `register`, `mcni/Geometer.py:23-25` -/
def PyComp.addElement (c : PyComp) (e : PyElem) (pos orient : V3 ℝ) : PyComp :=
  { c with elems := c.elems ++ [e], geom := (e.id, pos, orient) :: c.geom }

/-- `position` and `orientation`, `mcni/Geometer.py:28-34`: a missing key is a `KeyError` -/
def PyComp.place (c : PyComp) (e : PyElem) : Except Err (V3 ℝ × V3 ℝ) :=
  match c.geom.find? (fun r => decide (r.1 = e.id)) with
  | none => .error .keyError
  | some r => .ok r.2

/-- `_getElementShape`, `CompositeScatterer.py:72-80`.  `operations.rotate(.., euler_angles=..)` and
`translate(.., vector=..)` of the package `instrument` are taken to be in the implicit coordinate
system. -/
def PyComp.elementShape (c : PyComp) (e : PyElem) : Except Err PyShape :=
  match e.shape with
  | none => .error .attributeError
  | some s => do
    let po ← c.place e
    .ok (.translation (.rotEuler s po.2) po.1 true)

/-- `shape`, `CompositeScatterer.py:63-69`: the shape and the composite afterwards (which remembers
it) -/
def PyComp.getShape (c : PyComp) : Except Err (PyShape × PyComp) :=
  match c.shape with
  | some s => .ok (s, c)
  | none => do
    let l ← c.elems.mapM c.elementShape
    .ok (.union l, { c with shape := some (.union l) })

/-- the geometry of the C++ composite: its own shape and for each constituent shape, position and
orientation, `ScattererComputationEngineRenderer.py:54-89` -/
structure CComp where
  shape : Shape
  parts : List (Shape × V3 ℝ × M3 ℝ)

/-- the loop over the elements, `ScattererComputationEngineRenderer.py:63-75`, for elements that are
homogeneous scatterers (`KernelComputationEngineRenderer.py:65-84`: their shape is rendered) -/
def renderPart (cs : CS) (c : PyComp) (e : PyElem) : Except Err (Shape × V3 ℝ × M3 ℝ) :=
  match e.shape with
  | none => .error .attributeError
  | some s => do
    let cshape ← render cs s
    let po ← c.place e
    .ok (cshape, po.1, eulerToMatrix po.2)

/-- `onCompositeScatterer`, `ScattererComputationEngineRenderer.py:54-89`: what is built from a
composite of homogeneous scatterers -/
def renderComp (cs : CS) (c : PyComp) : Except Err CComp := do
  let parts ← c.elems.mapM (renderPart cs c)
  let sc ← c.getShape
  let cshape ← render cs sc.1
  .ok ⟨cshape, parts⟩

/-- `m_shapes` of the C++ composite, `CompositeNeutronScatterer_Impl.cc:146-166`: every shape is
rotated, then moved -/
def CComp.placed (c : CComp) : List Shape :=
  c.parts.map fun x => .translation (.rotation x.1 x.2.2) x.2.1

/-! ### options -/

/-- Python's `a or b` for numbers: `None` and 0 give `b` (used in `CompositeScatterer.py:45-47` and
`KernelComputationEngineRenderer.py:52`) -/
def pyOr {α : Type} [Zero α] (a : Option α) (b : α) : α :=
  match a with
  | none => b
  | some x => if x = 0 then b else x

/-- the multiple scattering parameters: loops among the scatterers, loops on the first path, least
probability, `CompositeScatterer.py:39-48` -/
def multParams (among path1 : Option Nat) (minP : Option ℝ) : Nat × Nat × ℝ :=
  (pyOr among 5, pyOr path1 1, pyOr minP 0)

/-- the parameters of a homogeneous scatterer: loops, least probability, packing factor,
`HomogeneousScatterer.py:37-39` -/
def homogParams (loops : Option Nat) (minP packing : Option ℝ) : Nat × ℝ × ℝ :=
  (loops.getD 5, minP.getD 0, packing.getD 1)

/-- the weights of the kernels of a composite kernel, `KernelComputationEngineRenderer.py:38-52` -/
def kernelWeights (w : List (Option ℝ)) : List ℝ := w.map (pyOr · 1)

/-! ### copies -/

/-- the classes of scatterers: which method renders them, `ScattererComputationEngineRenderer.py:54-101` -/
inductive PyScat where
  /-- `homogeneous_scatterer/HomogeneousScatterer.py:50` -/
  | homogeneous (shape : PyShape)
  /-- `CompositeScatterer.py:60`, reduced to its elements -/
  | composite (l : List PyScat)
  /-- `detector/elements/He3Tube.py` -/
  | he3tube (shape : PyShape)
  /-- `ScattererCopy.py:28` -/
  | copy (reference : PyScat)

mutual
/-- the dispatch of `identify`: number of homogeneous engines built, or the error.
`ScattererComputationEngineRenderer.py:54-101`: for a copy the handler `on<Class>Copy` is looked up; there
are handlers for copies of composites (line 99) and of tubes
(`detector/ComputationEngineRendererExtension.py:145-147`), but none for copies of homogeneous scatterers
and none for copies of copies. -/
def engines : PyScat → Except Err Nat
  | .homogeneous _ => .ok 1
  | .he3tube _ => .ok 1
  | .composite l => enginesAll l
  | .copy (.composite l) => enginesAll l
  | .copy (.he3tube _) => .ok 1
  | .copy (.homogeneous _) => .error .attributeError
  | .copy (.copy _) => .error .attributeError
/-- the loop over the elements, `ScattererComputationEngineRenderer.py:63-75` -/
def enginesAll : List PyScat → Except Err Nat
  | [] => .ok 0
  | s :: l => do
    let a ← engines s
    let b ← enginesAll l
    .ok (a + b)
end

/-! ### detector tubes -/

/-- the parameter `direction`, `detector/__init__.py:69-86` -/
inductive Dir where
  | x | y | z
  deriving DecidableEq

/-- a tube: its shape and the positions of its pixels, `detector/__init__.py:84-104` -/
structure Tube where
  shape : PyShape
  pixels : List (V3 ℝ)

/-- `he3tube_withpixels`, `detector/__init__.py:67-106`.  The rotated shape computed from the
direction is not used: the tube gets the unrotated cylinder (lines 84-88).  With `npixels = 0` the first
division fails. -/
def he3tubeWithPixels (radius height : ℝ) (npixels : Nat) (dir : Dir) : Except Err Tube :=
  if npixels = 0 then .error .zeroDivision else
  let start := -((npixels : ℝ) - 1) / 2 / npixels * height
  let step := height / npixels
  let pos := fun i : Nat =>
    let d := start + step * i
    match dir with
    | .x => (⟨d, 0, 0⟩ : V3 ℝ)
    | .y => ⟨0, d, 0⟩
    | .z => ⟨0, 0, d⟩
  .ok ⟨.cylinder radius height, (List.range npixels).map pos⟩

/-- the loop of `assert`s over the pixels, `detector/ComputationEngineRendererExtension.py:98-106` -/
def checkPixels (tol : ℝ) (s : Shape) : List (V3 ℝ) → Except Err Unit
  | [] => .ok ()
  | p :: l => do
    let loc ← locate tol s p
    if loc = .inside then checkPixels tol s l else .error .assertionError

/-- the checks of `onHe3Tube`, `detector/ComputationEngineRendererExtension.py:85-106`: the shape of the
tube if all pixels lie inside -/
def renderTube (tol : ℝ) (cs : CS) (t : Tube) : Except Err Shape := do
  let c ← render cs t.shape
  checkPixels tol c t.pixels
  .ok c

end
end Verif.Assembly
