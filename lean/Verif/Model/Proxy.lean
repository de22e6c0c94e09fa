import Verif.Model.McMonitors
import Mathlib.Data.Int.Log
import Mathlib.Algebra.Order.Round
/-!
How the python part of a McStas component stores its parameters, and how it turns the arrays of a monitor into a histogram,
`packages/legacycomponents/mcstas2/python/mcstas2/components/_proxies` (all files cited below are in this directory).

The histogram package is not part of the repository: `arange` is taken to be that of numpy, the numbers of an axis are the centers of
its bins, and data of another shape than the axes are an error.  The arithmetic of the histograms is rounded by a function `fl`, which
is applied after each operation; `fl = id` is exact arithmetic and `fl = dbl` that of doubles (without overflow and underflow).
-/

namespace Verif.Proxy
open McMon

noncomputable section

/-- the nearest integer, and the even one if there are two: how doubles are rounded in `monitors/L_monitor.py:22-23` and all other
arithmetic -/
def nearestEven (y : ℝ) : ℤ :=
  if y - ⌊y⌋ < 1 / 2 then ⌊y⌋ else if 1 / 2 < y - ⌊y⌋ then ⌊y⌋ + 1 else if ⌊y⌋ % 2 = 0 then ⌊y⌋ else ⌊y⌋ + 1

/-- rounding to doubles, 53 significant bits, as in `monitors/L_monitor.py:22-23`; exponents are not bounded -/
def dbl (x : ℝ) : ℝ :=
  if x = 0 then 0 else nearestEven (x * 2 ^ (52 - Int.log 2 |x|)) * 2 ^ (Int.log 2 |x| - 52)

/-- number `k` of `arange(start, stop, step)`, used in `monitors/E_monitor.py:23`: numpy computes the first two and continues with
their difference -/
def arangeAt (fl : ℝ → ℝ) (start step : ℝ) (k : Nat) : ℝ :=
  if k = 0 then start
  else if k = 1 then fl (start + step)
  else fl (start + fl (k * fl (fl (start + step) - start)))

/-- `arange(start, stop, step)` of numpy, used in `monitors/E_monitor.py:23`; `ceil((stop - start)/step)` numbers -/
def arange (fl : ℝ → ℝ) (start stop step : ℝ) : Except Err (List ℝ) :=
  if step = 0 then .error .zeroDivision
  else .ok ((List.range ⌈fl (fl (stop - start) / step)⌉₊).map (arangeAt fl start step))

/-- the division by a number of channels, an error for 0, e.g. `monitors/E_monitor.py:22` -/
def per (fl : ℝ → ℝ) (x : ℝ) (n : Nat) : Except Err ℝ := if n = 0 then .error .zeroDivision else .ok (fl (x / n))

/-- a histogram with one axis: centers of the bins, intensities, squares of errors, `monitors/E_monitor.py:24` -/
structure Histo where
  (axis I E2 : List ℝ)

/-- a histogram with two axes, `monitors/PSD_monitor.py:37`; the data as functions of the two indices -/
structure Histo2 where
  (xs ys : List ℝ)
  (I E2 : Nat → Nat → ℝ)

/-- the first `n` elements of the arrays `…_p` and `…_p2`, `monitors/E_monitor.py:19-20`; beyond the array is undefined behaviour -/
def readArr (h : Hist) (n : Nat) : Except Err (List Cell) :=
  if n ≤ h.size then .ok ((List.range n).map h.cell) else .error .undefinedBehaviour

/-- `histogram(name, [axis], data = Iarr, errors = E2arr)`, `monitors/E_monitor.py:24` -/
def histogram (axis : List ℝ) (data : List Cell) : Except Err Histo :=
  if axis.length = data.length then .ok ⟨axis, data.map (·.p), data.map (·.p2)⟩ else .error .valueError

/-- `histogram(name, [xaxis, yaxis], data = Iarr, errors = E2arr)` with the shape `nx, ny`, `monitors/PSD_monitor.py:31, 37` -/
def histogram2 (xs ys : List ℝ) (nx ny : Nat) (data : List Cell) : Except Err Histo2 :=
  if xs.length = nx ∧ ys.length = ny then
    .ok ⟨xs, ys, fun i j => ((data.map (·.p))[i * ny + j]?).getD 0, fun i j => ((data.map (·.p2))[i * ny + j]?).getD 0⟩
  else .error .valueError

/-- `_int`, `monitors/PSD_monitor.py:41-45`; numbers of channels that are negative are not modelled -/
def intOf (f : ℝ) : Except Err Nat := if |round f - f| > 1e-3 then .error .valueError else .ok (round f).toNat

/-- `arange(lo + d/2, hi, d)`, the axis in `monitors/E_monitor.py:23`, `monitors/DivPos_monitor.py:32`, and with `lo` = `-hi` in
`monitors/Hdiv_monitor.py:22`, `monitors/DivPos_monitor.py:33`, `monitors/Divergence_monitor.py:32-33` -/
def middles (fl : ℝ → ℝ) (lo hi d : ℝ) : Except Err (List ℝ) := arange fl (fl (lo + fl (d / 2))) hi d

/-- `monitors/E_monitor.py:22-23` -/
def eAxis (fl : ℝ → ℝ) (lo hi : ℝ) (n : Nat) : Except Err (List ℝ) := do
  let d ← per fl (fl (hi - lo)) n
  middles fl lo hi d

/-- `monitors/L_monitor.py:22-23` -/
def lAxis (fl : ℝ → ℝ) (lo hi : ℝ) (n : Nat) : Except Err (List ℝ) := do
  let d ← per fl (fl (hi - lo)) n
  arange fl (fl (lo + fl (d / 2))) (fl (hi + fl (d / 2))) d

/-- `monitors/TOF_monitor2.py:22-23` -/
def tAxis (fl : ℝ → ℝ) (lo hi : ℝ) (n : Nat) : Except Err (List ℝ) := do
  let d ← per fl (fl (hi - lo)) n
  arange fl (fl (lo + fl (d / 2))) (fl (fl (hi + fl (d / 2)) - fl (fl 0.1 * d))) d

/-- `monitors/Hdiv_monitor.py:21-22`, the same in `monitors/DivPos_monitor.py:25, 33` and `monitors/Divergence_monitor.py:24-25, 32-33` -/
def divAxis (fl : ℝ → ℝ) (m : ℝ) (n : Nat) : Except Err (List ℝ) := do
  let d ← per fl (fl (2 * m)) n
  middles fl (-m) m d

/-- `monitors/PSD_monitor.py:26-27, 34-35`, the same in `monitors/IQE_monitor.py:58-62`: `arange(lo, hi, d)` -/
def edgeAxis (fl : ℝ → ℝ) (lo hi : ℝ) (n : Nat) : Except Err (List ℝ) := do
  let d ← per fl (fl (hi - lo)) n
  arange fl lo hi d

/-- `monitors/PSD_monitor_4PI.py:29-30` -/
def azimuthAxis (fl : ℝ → ℝ) (n : Nat) : Except Err (List ℝ) := do
  let d ← per fl 360 n
  arange fl 0 360 d

/-- `monitors/PSD_monitor_4PI.py:32-33` -/
def latitudeAxis (fl : ℝ → ℝ) (n : Nat) : Except Err (List ℝ) := do
  let d ← per fl 180 n
  arange fl (-90) 90 d

/-- `get_histogram` of `monitors/E_monitor.py:15-25`, `monitors/L_monitor.py:15-25` and `monitors/TOF_monitor2.py:15-25`, which
differ by the axis -/
def hist1 (axis : Nat → Except Err (List ℝ)) (n : Nat) (h : Hist) : Except Err Histo := do
  let data ← readArr h n
  let xs ← axis n
  histogram xs data

/-- `get_histogram` of `monitors/Hdiv_monitor.py:13-24` -/
def hdivHist (fl : ℝ → ℝ) (m : ℝ) (nh : ℝ) (h : Hist) : Except Err Histo := do
  let nh ← intOf nh
  hist1 (divAxis fl m) nh h

/-- `get_histogram` of `monitors/DivPos_monitor.py:13-36`, `monitors/Divergence_monitor.py:13-36` and `monitors/PSD_monitor.py:15-38`,
which differ by the axes -/
def hist2 (xaxis yaxis : Nat → Except Err (List ℝ)) (nx ny : ℝ) (h : Hist) : Except Err Histo2 := do
  let nx ← intOf nx
  let ny ← intOf ny
  let data ← readArr h (nx * ny)
  let xs ← xaxis nx
  let ys ← yaxis ny
  histogram2 xs ys nx ny data

/-- `get_histogram` of `monitors/DivPos_monitor.py:13-36` -/
def divPosHist (fl : ℝ → ℝ) (w : Window) (m nx ny : ℝ) (h : Hist) : Except Err Histo2 :=
  hist2 (eAxis fl w.xmin w.xmax) (divAxis fl m) nx ny h

/-- `get_histogram` of `monitors/Divergence_monitor.py:13-36` -/
def divergenceHist (fl : ℝ → ℝ) (hmax vmax nh nv : ℝ) (h : Hist) : Except Err Histo2 :=
  hist2 (divAxis fl hmax) (divAxis fl vmax) nh nv h

/-- `get_histogram` of `monitors/PSD_monitor.py:15-38` -/
def psdHist (fl : ℝ → ℝ) (w : Window) (nx ny : ℝ) (h : Hist) : Except Err Histo2 :=
  hist2 (edgeAxis fl w.xmin w.xmax) (edgeAxis fl w.ymin w.ymax) nx ny h

/-- `get_histogram` of `monitors/IQE_monitor.py:45-65`; the numbers of channels are integers there -/
def iqeHist (fl : ℝ → ℝ) (m : IQE) (h : Hist) : Except Err Histo2 := do
  let data ← readArr h (m.nQ * m.nE)
  let es ← edgeAxis fl m.Emin m.Emax m.nE
  let qs ← edgeAxis fl m.Qmin m.Qmax m.nQ
  histogram2 qs es m.nQ m.nE data

/-- `get_histogram` of `monitors/PSD_monitor_4PI.py:14-36`, for integer numbers of channels -/
def sphereHist (fl : ℝ → ℝ) (nx ny : Nat) (h : Hist) : Except Err Histo2 := do
  let data ← readArr h (nx * ny)
  let xs ← azimuthAxis fl nx
  let ys ← latitudeAxis fl ny
  histogram2 xs ys nx ny data

/-- the last step of the normalization of the I(Q,E) monitor, `monitors/IQE_monitor.py:140`: channels with too little are 1 -/
def fillEmpty (norm : Nat → Nat → ℝ) : Nat → Nat → ℝ := fun i j => if norm i j < 1e-7 then 1 else norm i j

end

/-! ### the parameters of a component -/

/-- values of parameters: numbers, strings, booleans and other objects, `base.py:6` -/
inductive Val | num (n : ℤ) | str (s : String) | bool (b : Bool) | none | other (n : Nat)
  deriving DecidableEq, Repr

/-- whether python takes a value as true, `base.py:54` -/
def Val.truth : Val → Bool
  | .num n => n ≠ 0
  | .str s => s ≠ ""
  | .bool b => b
  | .none => false
  | .other _ => true

/-- a dictionary with strings as keys, `base.py:14`, in the order of insertion -/
abbrev Dict := List (String × Val)

/-- `d[k] = v`, `base.py:42` -/
def Dict.put (d : Dict) (k : String) (v : Val) : Dict :=
  if d.any (·.1 == k) then d.map fun x => if x.1 == k then (k, v) else x else d ++ [(k, v)]

/-- `d.update(e)`, `base.py:18` -/
def Dict.update (d e : Dict) : Dict := e.foldl (fun d x => d.put x.1 x.2) d

/-- `d[k]`, `base.py:48` -/
def Dict.find (d : Dict) (k : String) : Option Val := (d.find? (·.1 == k)).map (·.2)

/-- `k in d`, `base.py:47` -/
def Dict.has (d : Dict) (k : String) : Bool := d.any (·.1 == k)

/-- a component, `base.py:4-24`: the attributes in the `__dict__` of the object, apart from the next, and `_factory_kwds`, which does
not exist at first.  The attributes of the class are not modelled: no parameter has the name of one. -/
structure Obj where
  dict : Dict
  kwds : Option Dict
  deriving DecidableEq, Repr

/-- `__setattr__`, `base.py:40-44` -/
def Obj.set (o : Obj) (k : String) (v : Val) : Obj :=
  match o.kwds with
  | some d => if d.has k then { o with kwds := some (d.put k v) } else { o with dict := o.dict.put k v }
  | none => { o with dict := o.dict.put k v }

/-- reading an attribute: the `__dict__`, then `__getattr__`, `base.py:46-49`, which calls itself without end if there is no
`_factory_kwds` -/
def Obj.get (o : Obj) (k : String) : Except Err Val :=
  match Dict.find o.dict k with
  | some v => .ok v
  | none =>
    match o.kwds with
    | none => .error .recursionError
    | some d => match d.find k with
      | some v => .ok v
      | none => .error .attributeError

/-- `__init__`, `base.py:6-24`, and that of `default.py`; `params` are the parameters of the component with their defaults, the first
of which is `name`.  The attributes `_cpp_instance_factory` and `__cpp_instance` are left out. -/
def Obj.new (params : Dict) (args : List Val) (kwds : Dict) : Except Err Obj :=
  if args.length ≤ 1 then
    let kwds : Dict := match args with
      | a :: _ => Dict.put kwds "name" a
      | [] => kwds
    let o : Obj := kwds.foldl (fun o x => o.set x.1 x.2) ⟨[], none⟩
    let o : Obj := { o with kwds := some (Dict.update (Dict.update [] params) kwds) }
    .ok (o.set "restore_neutron" (.bool false))
  else .error .assertionError

/-- the arguments of the factory, `base.py:33-36`: the key `restore_neutron` is removed from `_factory_kwds`; a name that is no
parameter is a TypeError.  The error for an object without `_factory_kwds` is that of `__getattr__`. -/
def Obj.engine (params : Dict) (o : Obj) : Except Err (Dict × Obj) :=
  match o.kwds with
  | none => .error .recursionError
  | some d =>
    let d : Dict := d.filter fun x => x.1 != "restore_neutron"
    if d.all fun x => Dict.has params x.1 then .ok (d, { o with kwds := some d }) else .error .typeError

/-- `os.path.splitext(filename)[0]`, `monitors/base.py:30`, for a name without directories: up to the last dot, unless only dots come
before it -/
def stem (f : List Char) : List Char :=
  match f.reverse.dropWhile (· != '.') with
  | [] => f
  | _ :: r => if r.all (· == '.') then f else r.reverse

/-- `_histogramOutputFilename`, `monitors/base.py:27-32` -/
def Obj.histogramFile (o : Obj) : Except Err (List Char) := do
  match ← o.get "filename" with
  | .str s => .ok (stem s.toList ++ ".h5".toList)
  | _ => .error .typeError

/-- the files in the output directory of this round, `monitors/base.py:38` -/
abbrev Files (D : Type) := List (List Char × D)

/-- `saveHistogram`, `monitors/base.py:44-53` -/
def save {D : Type} (fs : Files D) (overwrite : Bool) (f : List Char) (d : D) : Except Err (Files D) :=
  if fs.any (·.1 == f) then
    if overwrite then .ok (fs.filter (·.1 != f) ++ [(f, d)]) else .error .ioError
  else .ok (fs ++ [(f, d)])

/-- `process` of a monitor, `base.py:51-64` with `monitors/base.py:13-20`: a new instance of the C++ component for these neutrons,
which gives the new neutrons and the data; the histogram is written; the neutrons are as before if `restore_neutron` is set -/
def Obj.process {N D : Type} (params : Dict) (cpp : Dict → List N → Except Err (List N × D)) (overwrite : Bool) (o : Obj)
    (fs : Files D) (ns : List N) : Except Err (Obj × Files D × List N) := do
  let r ← o.get "restore_neutron"
  let (d, o) ← o.engine params
  let (ns', data) ← cpp d ns
  let f ← o.histogramFile
  let fs ← save fs overwrite f data
  .ok (o, fs, if r.truth then ns else ns')

/-- `_get_normalization`, `monitors/IQE_monitor.py:18-23`: computed once and kept -/
def normalization {D : Type} (kept : Option D) (compute : Dict → D) (d : Dict) : D := kept.getD (compute d)

end Verif.Proxy
