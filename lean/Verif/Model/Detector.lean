import Verif.Model.Base
import Verif.Model.Vec
import Mathlib.Algebra.Order.Floor.Defs
import Mathlib.Algebra.Order.Floor.Ring
import Mathlib.Analysis.Real.Sqrt
/-!
Event mode detectors: `packages/mccomponents/lib/kernels/detector` and
`packages/mccomponents/python/mccomponents/detector`.
-/

namespace Verif.Detector

section channels
variable {F : Type} [Field F] [LinearOrder F] [FloorRing F]

/-- `Tof2Channel`, `Tof2Channel.h:36-38` -/
structure Tof2Channel (F : Type) where
  (tofmin tofmax tofstep : F)

/-- constructor, `Tof2Channel.icc:10-34` -/
def mkTof2Channel (tofmin tofmax tofstep : F) : Except Err (Tof2Channel F) :=
  if tofmax ≤ tofmin then .error .cppException
  else if tofstep ≤ 0 then .error .cppException
  else .ok ⟨tofmin, tofmax, tofstep⟩

/-- conversion of a double to `int` by truncation, as in `Tof2Channel.icc:44` -/
def truncInt (x : F) : Int := if 0 ≤ x then ⌊x⌋ else ⌈x⌉

/-- `operator()`, `Tof2Channel.icc:37-45` -/
def Tof2Channel.call (c : Tof2Channel F) (tof : F) : Int :=
  if tof < c.tofmin ∨ c.tofmax ≤ tof then -1 else truncInt ((tof - c.tofmin) / c.tofstep)

/-- `Z2Channel`, `Z2Channel.h:57-59` -/
structure Z2Channel (F : Type) where
  pixelheight : F
  npixels : Nat
  (axisDirection channel0Coords : V3 F)

/-- constructor, `Z2Channel.icc:12-38` -/
def mkZ2Channel (detlength : F) (npixels : Nat) (axisDirection channel0Coords : V3 F) : Except Err (Z2Channel F) :=
  if detlength ≤ 0 then .error .cppException
  else if npixels = 0 then .error .cppException
  else .ok ⟨detlength / npixels, npixels, axisDirection, channel0Coords⟩

/-- `operator()`, `Z2Channel.icc:41-53` -/
def Z2Channel.call (c : Z2Channel F) (coords : V3 F) : Int :=
  let z := V3.dot (coords - c.channel0Coords) c.axisDirection
  let n := ⌊z / c.pixelheight + 1 / 2⌋
  if n < 0 ∨ (c.npixels : Int) ≤ n then -1 else n

end channels

/-- a record of the event file, `EventModeMCA.h:42-45` -/
structure Rec (F : Type) where
  (pixelID tofChannelNo : Nat)
  n : F
deriving DecidableEq

/-- the check loop of `accept`, `EventModeMCA.cc:63-73`: `some false` = ignored, `some true` = go on -/
def checkLoop : List Int → List Nat → Except Err Bool
  | [], _ => .ok true
  | c :: cs, dims =>
    if c < 0 then .ok false
    else match dims with
      | [] => checkLoop cs []
      | d :: ds => if (d : Int) ≤ c then .error .cppException else checkLoop cs ds

/-- the pixel number, `EventModeMCA.cc:76-80`, in 32 bit unsigned arithmetic -/
def pixelLoop : Nat → List Int → List Nat → Nat
  | acc, _, [] => acc
  | acc, [], _ :: _ => acc      -- not reached
  | acc, c :: cs, d :: ds => pixelLoop ((acc * d + c.toNat) % 2 ^ 32) cs ds

/-- `EventModeMCA::accept`, `EventModeMCA.cc:49-87`; the state is the list of records written. -/
def accept {F : Type} (dims : List Nat) (file : List (Rec F)) (channels : List Int) (n : F) : Except Err (List (Rec F)) :=
  if channels.length ≠ dims.length + 1 then .error .cppException
  else if dims.length = 0 then .error .assertionError
  else match checkLoop channels dims with
    | .error e => .error e
    | .ok false => .ok file
    | .ok true => .ok (file ++ [⟨pixelLoop 0 channels dims, (channels.getLast?.getD 0).toNat, n⟩])

/-- `He3Tube::absorb`, `He3Tube.cc:38-46` -/
def tubeAbsorb {F : Type} [Field F] [LinearOrder F] [FloorRing F] (tube : List Int) (z : Z2Channel F) (tof : Tof2Channel F)
    (dims : List Nat) (file : List (Rec F)) (ev : Event F) : Except Err (List (Rec F)) :=
  accept dims file (tube ++ [z.call ev.r, tof.call ev.t]) ev.p

/-- `onHe3Tube`, `ComputationEngineRendererExtension.py:89-125`: the channel converter from the
positions of the pixels (over the reals; the check that the pixels are inside the tube is left out).
numpy division of the zero vector by zero is not an error, the integer division is. -/
noncomputable def tubeChannel (pixels : List (V3 ℝ)) : Except Err (Z2Channel ℝ) :=
  match pixels.head?, pixels.getLast? with
  | some p0, some pl =>
    let d := pl - p0
    let len1 := Real.sqrt (V3.dot d d)
    let axis : V3 ℝ := ⟨d.x / len1, d.y / len1, d.z / len1⟩
    if pixels.length - 1 = 0 then .error .zeroDivision
    else
      let tubeLength := len1 * pixels.length / ((pixels.length : ℝ) - 1)
      mkZ2Channel tubeLength pixels.length axis p0
  | _, _ => .error .indexError

/-! ### detector hierarchy -/

/-- elements of a detector system: things without elements (pixels), containers and copies of
other elements (`detector/utils.py:89-92`). -/
inductive Elem where
  | leaf (type : String)
  | container (type : String) (elements : List Elem)
  | copy (type : String) (reference : Elem)

/-- `e.__class__.__name__`, for a copy that of the reference, `utils.py:62-63,75-76` -/
def Elem.typeName : Elem → String
  | .leaf t => t
  | .container t _ => t
  | .copy _ (.leaf t) => t
  | .copy _ (.container t _) => t
  | .copy _ (.copy t _) => t

/-- `e.__class__.__name__`, `utils.py:60` -/
def Elem.className : Elem → String
  | .leaf t => t
  | .container t _ => t
  | .copy t _ => t

/-- `_layers` and `_indexShape`, `utils.py:41-42` -/
structure Dims where
  layers : List String
  shape : List Nat
deriving DecidableEq

/-- the part of `onContainer` before the recursion, `utils.py:53-83` -/
def enter (level : Nat) (elements : List Elem) (s : Dims) : Except Err Dims :=
  let n := elements.length
  if level = s.shape.length then
    match elements with
    | [] => .ok { s with shape := s.shape ++ [n] }
    | e0 :: es =>
      if es.all (fun e => decide (e.typeName = e0.className)) then
        .ok { layers := s.layers ++ [e0.className], shape := s.shape ++ [n] }
      else .error .assertionError
  else if level < s.shape.length then
    match s.layers[level]? with
    | none => .error .indexError
    | some t =>
      if elements.all (fun e => decide (e.typeName = t)) then
        .ok { s with shape := s.shape.set level (max (s.shape.getD level 0) n) }
      else .error .assertionError
  else .error .runtimeError

mutual
/-- `identify` dispatch: containers are visited, pixels and copies are not, `utils.py:89-92` -/
def visit (level : Nat) : Elem → Dims → Except Err Dims
  | .leaf _, s => .ok s
  | .copy _ _, s => .ok s
  | .container _ elements, s =>
    match enter level elements s with
    | .error e => .error e
    | .ok s' => visitAll (level + 1) elements s'
/-- the loop over the elements, `utils.py:85` -/
def visitAll (level : Nat) : List Elem → Dims → Except Err Dims
  | [], s => .ok s
  | e :: es, s => match visit level e s with
    | .error er => .error er
    | .ok s' => visitAll level es s'
end

/-- `getDetectorHierarchyDimensions`, `utils.py:19-20,39-51`, of an instrument with one detector system -/
def hierarchyDims (system : Elem) : Except Err (List (String × Nat)) :=
  match visit 0 system ⟨[], []⟩ with
  | .error e => .error e
  | .ok s => .ok (s.layers.zip s.shape)

end Verif.Detector
