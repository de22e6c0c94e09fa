import Verif.Model.Base
import Verif.Model.Vec
import Mathlib.Algebra.Order.Floor.Defs
import Mathlib.Algebra.Field.Defs
import Mathlib.Algebra.Order.Floor.Ring
/-!
Monitors of `packages/mcni/python/mcni/components`: `EventAreaMonitor.py` and `NDMonitor.py`.
-/

namespace Verif.Monitor
variable {F : Type} [Field F] [LinearOrder F]

/-- `_propagateToZ0`, `EventAreaMonitor.py:94-100`, `NDMonitor.py:120-126`.  For `vz = 0` numpy
gives `inf` or `nan` for x, y and t, which fail every comparison of the filters: `none`. -/
def toZ0 (e : Event F) : Option (Event F) :=
  if e.v.z = 0 then none
  else
    let dt := -e.r.z / e.v.z
    some { e with r := ⟨e.r.x + e.v.x * dt, e.r.y + e.v.y * dt, 0⟩, t := e.t + dt }

/-- the parameters of an area monitor, `EventAreaMonitor.py:103-124` -/
structure Area (F : Type) where
  (xmin xmax ymin ymax tofmin tofmax : F)
  (nx ny ntof : Nat)

/-- a record of `event_utils.datatype`, `event_utils.py:22-26` -/
structure Rec (F : Type) where
  (pixelID tofChannelNo : Int)
  p : F
deriving DecidableEq

/-- the filter, `EventAreaMonitor.py:63` -/
def Area.accepts (a : Area F) (e : Event F) : Bool :=
  decide (a.xmin ≤ e.r.x) && decide (e.r.x < a.xmax) && decide (a.ymin ≤ e.r.y) && decide (e.r.y < a.ymax) &&
  decide (a.tofmin ≤ e.t) && decide (e.t < a.tofmax)

/-- one record, `EventAreaMonitor.py:79-90`; the conversion of a (non-negative) float to
`uint32` truncates, i.e. takes the floor (values above 2^32 are not modelled). -/
def Area.record [FloorRing F] (a : Area F) (e : Event F) : Rec F :=
  let dx := (a.xmax - a.xmin) / a.nx
  let x_index := (e.r.x - a.xmin) / dx
  let dy := (a.ymax - a.ymin) / a.ny
  let y_index := (e.r.y - a.ymin) / dy
  let dt := (a.tofmax - a.tofmin) / a.ntof
  { pixelID := ⌊x_index * a.ny + y_index⌋, tofChannelNo := ⌊(e.t - a.tofmin) / dt⌋, p := e.p }

/-- `process` of the engine, `EventAreaMonitor.py:43-92`; the state is the attribute `events`
(`none`: not there yet). -/
def Area.engineProcess [FloorRing F] (a : Area F) (events : Option (List (Rec F))) (neutrons : List (Event F)) :
    Except Err (Option (List (Rec F))) :=
  if neutrons.isEmpty then .ok events
  else if ¬(a.xmin < a.xmax ∧ a.ymin < a.ymax ∧ a.tofmin < a.tofmax) then .error .assertionError
  else
    let hits := (neutrons.filterMap toZ0).filter a.accepts
    if hits.isEmpty then .ok events
    else .ok (some (hits.map a.record))

/-- `process` of the component with `_saveResult`, `pyre_components/EventAreaMonitor.py:58-70`:
the records written for this batch. -/
def Area.process [FloorRing F] (a : Area F) (events : Option (List (Rec F))) (neutrons : List (Event F)) :
    Except Err (Option (List (Rec F)) × List (Rec F)) :=
  match a.engineProcess events neutrons with
  | .error e => .error e
  | .ok none => .error .attributeError
  | .ok (some evs) => .ok (some evs, evs)

/-- the batches of a run, `pyre_components/EventAreaMonitor.py:58-70` called once for each: what is written for each batch -/
def Area.runAll [FloorRing F] (a : Area F) (events : Option (List (Rec F))) :
    List (List (Event F)) → Except Err (List (List (Rec F)))
  | [] => .ok []
  | b :: bs => match a.process events b with
    | .error e => .error e
    | .ok (st, out) => match a.runAll st bs with
      | .error e => .error e
      | .ok outs => .ok (out :: outs)

/-! ### histogram monitors -/

/-- an axis: expression, number of bins and range, `NDMonitor.py:150-172,186-200`.  The
expression is any function of the neutron at the monitor. -/
structure Axis (F : Type) where
  expr : Event F → F
  bins : Nat
  (lo hi : F)

/-- the bin of a value in `numpy.histogramdd`: equidistant half-open bins,
the last one closed (`NDMonitor.py:116`) -/
def Axis.bin [FloorRing F] (a : Axis F) (v : F) : Option Nat :=
  if v < a.lo ∨ a.hi < v then none
  else if v = a.hi then some (a.bins - 1)
  else some ⌊(v - a.lo) / ((a.hi - a.lo) / a.bins)⌋.toNat

/-- the cell of a neutron, if it is inside the range of all axes (`numpy.histogramdd`, `NDMonitor.py:116`) -/
def cell [FloorRing F] (axes : List (Axis F)) (e : Event F) : Option (List Nat) :=
  axes.mapM (fun a => a.bin (a.expr e))

/-- a histogram with its squared errors, as functions of the cell, `NDMonitor.py:116-124,180` -/
structure Hist (F : Type) where
  (I E2 : List Nat → F)

/-- a new histogram, `NDMonitor.py:180` -/
def Hist.zero : Hist F := ⟨fun _ => 0, fun _ => 0⟩

/-- `numpy.histogramdd(sample, bins, ranges, weights)`, `NDMonitor.py:116-117`: loop over the neutrons -/
def hdd [FloorRing F] (axes : List (Axis F)) (w : Event F → F) : List (Event F) → (List Nat → F)
  | [] => fun _ => 0
  | e :: es => fun c => (if cell axes e = some c then w e else 0) + hdd axes w es c

/-- the size filter, `NDMonitor.py:100` -/
def inArea (xwidth yheight : F) (e : Event F) : Bool :=
  decide (-xwidth / 2 ≤ e.r.x) && decide (e.r.x ≤ xwidth / 2) && decide (-yheight / 2 ≤ e.r.y) && decide (e.r.y ≤ yheight / 2)

/-- `NDMonitorEngine.process`, `NDMonitor.py:81-118` -/
def ndProcess [FloorRing F] (axes : List (Axis F)) (xwidth yheight : F) (h : Hist F) (neutrons : List (Event F)) :
    Except Err (Hist F) :=
  if neutrons.isEmpty then .ok h
  else if ¬(0 < xwidth ∧ 0 < yheight) then .error .assertionError
  else
    let ns := (neutrons.filterMap toZ0).filter (inArea xwidth yheight)
    if ns.isEmpty then .ok h
    else .ok ⟨fun c => h.I c + hdd axes (fun e => e.p) ns c, fun c => h.E2 c + hdd axes (fun e => e.p * e.p) ns c⟩

/-- `NDMonitor.process`, `NDMonitor.py:26-30`, over the batches of a run: the histogram dumped for
each batch (the engine is created anew after each dump). -/
def ndRun [FloorRing F] (axes : List (Axis F)) (xwidth yheight : F) : List (List (Event F)) → Except Err (List (Hist F))
  | [] => .ok []
  | b :: bs => match ndProcess axes xwidth yheight Hist.zero b with
    | .error e => .error e
    | .ok h => match ndRun axes xwidth yheight bs with
      | .error e => .error e
      | .ok hs => .ok (h :: hs)

/-- the validation of an axis and its boundaries, `NDMonitor.py:166-178`:
`arange(r0, r1 + db/10, db)` has `ceil((stop - start)/step)` elements. -/
def boundaries [FloorRing F] (a : Axis F) : Except Err (List F) :=
  if a.hi ≤ a.lo then .error .valueError
  else if a.bins = 0 then .error .zeroDivision
  else
    let db := (a.hi - a.lo) / a.bins
    .ok ((List.range ⌈(a.hi + db / 10 - a.lo) / db⌉.toNat).map (fun i : Nat => a.lo + i * db))

end Verif.Monitor
