import Mathlib.Data.Real.Basic
import Mathlib.Algebra.Order.Floor.Ring
import Mathlib.Algebra.BigOperators.Group.Finset.Basic
import Mathlib.Algebra.Order.Archimedean.Real.Basic
import Verif.Model.Base
import Verif.Model.Vec
/-!
Scattering kernels described in XML files: the parser and the writer in
`packages/mccomponents/python/mccomponents/sample/kernelxml`, the removal of units in
`packages/mccomposite/python/mccomposite/units_utils.py`, and the conversion of kernels to C++ in
`packages/mccomponents/python/mccomponents/sample/ComputationEngineRendererExtension.py` with
`packages/mccomponents/python/mccomponents/sample/bindings/BoostPythonBinding.py`.

Not part of the repository and therefore parameters (`Env`, `Sample`): the parser for values with
units of `pyre`, the reader of histogram files, the package `sampleassembly` which tabulates cross
sections.  Rounding is not modelled.  Shapes inside the scatterer file are left out.
-/

namespace Verif.KernelXml
noncomputable section
open Classical

/-! ### values with units, `units_utils.py` -/

/-- exponents of kilogram, metre and second: the attribute `derivation` of the units of `pyre`
which `units_utils.py:85-118` relies on; the other base units do not occur here -/
structure Dim where
  kg : ℤ
  m : ℤ
  s : ℤ
  deriving DecidableEq

/-- a number with a unit of `pyre` (`units_utils.py:85-90`): its value in SI units and its dimension -/
structure Qty where
  v : ℝ
  d : Dim

/-- a scalar: a `float` or `int` (`units_utils.py:82-83`), or a number with unit -/
inductive Sc where
  | num (x : ℝ)
  | qty (q : Qty)

/-- the values of attributes of kernels that `units_utils.py:56-77` tells apart -/
inductive Val where
  | none
  | str (s : String)
  | sc (x : Sc)
  | vec (l : List Sc)

/-- `is_unitless_scalar`, `units_utils.py:82-83` -/
def Sc.plain : Sc → Bool
  | .num _ => true
  | .qty _ => false

/-- `s/unit`, `units_utils.py:88,108`: a float if the dimensions cancel -/
def Sc.div (u : Qty) : Sc → Sc
  | .num x => .qty ⟨x / u.v, ⟨-u.d.kg, -u.d.m, -u.d.s⟩⟩
  | .qty q => if q.d = u.d then .num (q.v / u.v)
      else .qty ⟨q.v / u.v, ⟨q.d.kg - u.d.kg, q.d.m - u.d.m, q.d.s - u.d.s⟩⟩

/-- `s+unit` does not raise, `units_utils.py:87,106` -/
def Sc.compatible (u : Qty) : Sc → Bool
  | .num _ => false
  | .qty q => decide (q.d = u.d)

/-- `remove_unit_of_scalar`, `units_utils.py:85-90` -/
def removeScalar (s : Sc) (u : Qty) : Except Err Sc :=
  if s.compatible u then .ok (s.div u) else .error .valueError

/-- the `try` block of `remove_unit_of_vector`, `units_utils.py:104-110`: the first element decides -/
def divideVector (v : List Sc) (u : Qty) : List Sc :=
  match v with
  | [] => v
  | x :: _ => if x.compatible u then v.map (Sc.div u) else v

/-- `remove_unit_of_vector`, `units_utils.py:101-118` -/
def removeVector (v : List Sc) (u : Qty) : Except Err (List Sc) :=
  let v := divideVector v u
  if v.all Sc.plain then .ok v else .error .valueError

/-- `remove_unit`, `units_utils.py:56-77`.  `None + unit` raises, so `None` gives `ValueError`. -/
def removeUnit (x : Val) (u : Qty) : Except Err Val :=
  match x with
  | .str _ => .error .valueError
  | .none => .error .valueError
  | .vec l => if l.all Sc.plain then .ok (.vec l) else (removeVector l u).map .vec
  | .sc s => if s.plain then .ok (.sc s) else (removeScalar s u).map .sc

/-! ### kernels in Python -/

/-- a histogram (external package): bin boundaries of the named axes, shape of the array, and its
values, slowest axis first.  Read in `ComputationEngineRendererExtension.py:9-26`. -/
structure Hist where
  axes : List (String × List ℝ)
  shape : List ℕ
  data : List ℝ

/-- the functors S(Q,E), S(Q), S(Q vector): `GridSQE.py:16-23`, `SQE_fromexpression.py:16-23`, `GridSQ.py:7-14`,
`SQ_fromexpression.py:7-14`, `GridSvQ.py:7-14` -/
inductive Fn where
  | gridSQE (h : Hist)
  | exprSQE (e : String)
  | gridSQ (h : Hist)
  | exprSQ (e : String)
  | gridSvQ (h : Hist)

/-- the kernels of `mccomponents/sample` other than containers, with the attributes set by their
constructors: `SQEkernel.py:18-37`, `SQE_EnergyFocusing_Kernel.py:10-41`, `SQkernel.py:9-24`, `SvQkernel.py:9-22`,
`IsotropicKernel.py:21-31`, `DGSSXResKernel.py:12-32`, `ConstantEnergyTransferKernel.py:21-34`,
`ConstantQEKernel.py:21-37`, `ConstantvQEKernel.py:21-40`, `E_Q_Kernel.py:21-41`, `Broadened_E_Q_Kernel.py:21-44`,
`LorentzianBroadened_E_Q_Kernel.py:13-37`, `E_vQ_Kernel.py:21-41`.  `abs` and `sc` are the absorption and
scattering coefficients (cross sections). -/
inductive Leaf where
  | sqe (abs sc vol : Val) (f : Option Fn) (Qr Er : Val)
  | sqeFocus (abs sc vol : Val) (f : Option Fn) (Qr Er Ef dEf : Val)
  | sq (abs sc : Val) (f : Option Fn) (Qr : Val)
  | svq (abs sc : Val) (f : Option Fn)
  | iso (abs sc : Val)
  | dgs (pos rad tof dtof abs sc : Val)
  | constE (E abs sc : Val)
  | constQE (Q E abs sc : Val)
  | constvQE (Q E dE abs sc : Val)
  | eQ (EQ SQ : String) (Qmin Qmax abs sc : Val)
  | broad (EQ SQ sigma : String) (Qmin Qmax abs sc : Val)
  | lor (EQ SQ gamma : String) (Qmin Qmax abs sc : Val)
  | evQ (EQ SQ : String) (Emax abs sc : Val)

/-- the attribute `average` of a container, `kernelxml/parser/KernelContainer.py:43-46`: missing, a
truth value, or the empty string which is left as it is -/
inductive Avg where
  | none
  | bool (b : Bool)
  | empty

/-- a kernel with the attributes `scatterer_origin` (`homogeneous_scatterer/Kernel.py:20-22`), `weight` and
`rotmat` (`kernelxml/parser/KernelNode.py:30,39`); `none` for an attribute that is missing or `None`.
`KernelContainer` is `CompositeKernel` (`sample/KernelContainer.py:17-18`,
`homogeneous_scatterer/CompositeKernel.py:19-47`). -/
inductive Kern (O : Type) where
  | leaf (l : Leaf) (origin : Option O) (weight : Option ℝ) (rot : Option (M3 ℝ))
  | comp (average : Avg) (weight : Option ℝ) (rot : Option (M3 ℝ)) (elements : List (Kern O))

mutual
/-- `setScattererOrigin`, `homogeneous_scatterer/Kernel.py:20-22` and `CompositeKernel.py:40-44` -/
def setOrigin {O : Type} (o : O) : Kern O → Kern O
  | .leaf l _ w r => .leaf l (some o) w r
  | .comp a w r es => .comp a w r (setOrigins o es)
/-- the loop of `CompositeKernel.py:41-43` -/
def setOrigins {O : Type} (o : O) : List (Kern O) → List (Kern O)
  | [] => []
  | k :: ks => setOrigin o k :: setOrigins o ks
end

/-! ### parsing -/

/-- an element of an XML file, as `kernelxml/parser/AbstractNode.py:27-37` sees it.  The attributes
hold the text between the quotes. -/
inductive Xml where
  | node (tag : String) (attrs : List (String × String)) (children : List Xml)

/-- what the parser takes from elsewhere: `_parse` (`AbstractNode.py:62-66`), the built-ins `float` and
`int`, the evaluation of an orientation (`KernelNode.py:33-38`), the readers of histogram files
(`GridSQE.py:26-39`) -/
structure Env where
  parse : String → Except Err Val
  float : String → Except Err ℝ
  int : String → Except Err ℤ
  rot : String → Except Err (M3 ℝ)
  load : String → Except Err Hist
  readIdf : String → Except Err Hist

/-- the characters which may not stand in the text of an attribute; the writer puts values there as
they are, `kernelxml/Renderer.py:91,151` -/
def forbidden (c : Char) : Bool := c == '<' || c == '"' || c == '&'

/-- the text of an attribute as delivered by the XML parser to `AbstractNode.py:30-32`.
Simplified: references such as `&lt;` count as errors too, white space is kept as it is. -/
def decodeText (s : String) : Except Err String :=
  if s.toList.any forbidden then .error .valueError else .ok s

/-- the attributes of an element, `AbstractNode.py:30-32` -/
def decode (as : List (String × String)) : Except Err (List (String × String)) :=
  as.mapM fun a => do let v ← decodeText a.2; .ok (a.1, v)

/-- `kwds[key]`, for example `kernelxml/parser/E_Q_Kernel.py:27-30` -/
def need (as : List (String × String)) (key : String) : Except Err String :=
  match as.lookup key with
  | some v => .ok v
  | none => .error .keyError

/-- `self._parse(kwds[key])`, for example `kernelxml/parser/E_Q_Kernel.py:29` -/
def needVal (env : Env) (as : List (String × String)) (key : String) : Except Err Val := do
  let v ← need as key
  env.parse v

/-- an optional coefficient, for example `kernelxml/parser/E_Q_Kernel.py:32-34`: an empty text is left as it is -/
def coef (env : Env) (as : List (String × String)) (key : String) : Except Err Val :=
  match as.lookup key with
  | none => .ok .none
  | some v => if v = "" then .ok (.str "") else env.parse v

/-- the name of the attribute, `kernelxml/parser/E_Q_Kernel.py:32` -/
def keyAbs : String := "absorption_coefficient"
/-- the name of the attribute, `kernelxml/parser/E_Q_Kernel.py:36` -/
def keySc : String := "scattering_coefficient"

/-- `createKernel` of the classes in `kernelxml/parser`: `SQEkernel.py:23-29`, `SQE_EnergyFocusing_Kernel.py:13-31`,
`SQkernel.py:14-18`, `SvQkernel.py:13-15`, `IsotropicKernel.py:23-34`, `DGSSXResKernel.py:13-21`,
`ConstantEnergyTransferKernel.py:23-35`, `ConstantQEKernel.py:23-37`, `ConstantvQEKernel.py:23-38`, `E_Q_Kernel.py:23-44`,
`Broadened_E_Q_Kernel.py:23-45`, `LorentzianBroadened_E_Q_Kernel.py:15-36`, `E_vQ_Kernel.py:23-42`.
A tag unknown to `Document.py:11-27` is an error of the XML parser. -/
def createLeaf (env : Env) (tag : String) (as : List (String × String)) : Except Err Leaf :=
  if tag = "SQEkernel" then do
    let q ← needVal env as "Q-range"
    let e ← needVal env as "energy-range"
    .ok (.sqe .none .none .none none q e)
  else if tag = "SQE_EnergyFocusing_Kernel" then do
    let a ← coef env as "absorption_cross_section"
    let s ← coef env as "scattering_cross_section"
    let q ← needVal env as "Q-range"
    let e ← needVal env as "energy-range"
    let ef ← needVal env as "Ef"
    let def_ ← needVal env as "dEf"
    .ok (.sqeFocus a s .none none q e ef def_)
  else if tag = "SQkernel" then do
    let q ← needVal env as "Q-range"
    .ok (.sq .none .none none q)
  else if tag = "SvQkernel" then .ok (.svq .none .none none)
  else if tag = "IsotropicKernel" then do
    let a ← coef env as keyAbs
    let s ← coef env as keySc
    .ok (.iso a s)
  else if tag = "DGSSXResKernel" then do
    let p ← needVal env as "target-position"
    let r ← needVal env as "target-radius"
    let t ← needVal env as "tof-at-target"
    let d ← needVal env as "dtof"
    .ok (.dgs p r t d .none .none)
  else if tag = "ConstantEnergyTransferKernel" then do
    let e ← needVal env as "energy-transfer"
    let a ← coef env as keyAbs
    let s ← coef env as keySc
    .ok (.constE e a s)
  else if tag = "ConstantQEKernel" then do
    let e ← needVal env as "energy-transfer"
    let q ← needVal env as "momentum-transfer"
    let a ← coef env as keyAbs
    let s ← coef env as keySc
    .ok (.constQE q e a s)
  else if tag = "ConstantvQEKernel" then do
    let e ← needVal env as "energy-transfer"
    let de ← needVal env as "dE"
    let q ← needVal env as "momentum-transfer"
    let a ← coef env as keyAbs
    let s ← coef env as keySc
    .ok (.constvQE q e de a s)
  else if tag = "E_Q_Kernel" then do
    let eq ← need as "E_Q"
    let sq ← need as "S_Q"
    let q1 ← needVal env as "Qmin"
    let q2 ← needVal env as "Qmax"
    let a ← coef env as keyAbs
    let s ← coef env as keySc
    .ok (.eQ eq sq q1 q2 a s)
  else if tag = "Broadened_E_Q_Kernel" then do
    let eq ← need as "E_Q"
    let sq ← need as "S_Q"
    let sg ← need as "sigma_Q"
    let q1 ← needVal env as "Qmin"
    let q2 ← needVal env as "Qmax"
    let a ← coef env as keyAbs
    let s ← coef env as keySc
    .ok (.broad eq sq sg q1 q2 a s)
  else if tag = "LorentzianBroadened_E_Q_Kernel" then do
    let eq ← need as "E_Q"
    let sq ← need as "S_Q"
    let g ← need as "gamma_Q"
    let q1 ← needVal env as "Qmin"
    let q2 ← needVal env as "Qmax"
    let a ← coef env as keyAbs
    let s ← coef env as keySc
    .ok (.lor eq sq g q1 q2 a s)
  else if tag = "E_vQ_Kernel" then do
    let eq ← need as "E_Q"
    let sq ← need as "S_Q"
    let emax ← needVal env as "Emax"
    let a ← coef env as keyAbs
    let s ← coef env as keySc
    .ok (.evQ eq sq emax a s)
  else .error .keyError

/-- the weight of a kernel, `KernelNode.py:27-29` -/
def weightOf (env : Env) (as : List (String × String)) : Except Err ℝ :=
  match as.lookup "weight" with
  | none => .ok 1
  | some w =>
    if w = "" then .ok 1 else do
      let x ← env.float w
      if x ≤ 0 then .error .valueError else .ok x

/-- the orientation of a kernel, `KernelNode.py:32-38` -/
def rotOf (env : Env) (as : List (String × String)) : Except Err (Option (M3 ℝ)) :=
  match as.lookup "orientation" with
  | none => .ok none
  | some s => do let m ← env.rot s; .ok (some m)

/-- lower case for ASCII letters, `str.lower` in `KernelContainer.py:45` and `GridSQE.py:48` -/
def lower (s : String) : String := String.ofList (s.toList.map Char.toLower)

/-- the attribute `average`, `KernelContainer.py:43-46` -/
def avgOf (as : List (String × String)) : Avg :=
  match as.lookup "average" with
  | none => .none
  | some v => if v = "" then .empty else .bool (decide (lower v ∈ ["1", "on", "yes", "true"]))

/-- a value for `auto-normalization`, `GridSQE.py:46-56`; no value and an empty one mean no -/
def autoNorm (v : Option String) : Except Err Bool :=
  match v with
  | none => .ok false
  | some v =>
    if v = "" then .ok false
    else if lower v ∈ ["on", "yes", "1", "true"] then .ok true
    else if lower v ∈ ["off", "no", "0", "false"] then .ok false
    else .error .valueError

/-- the middle of a bin: the attribute `Q` of a histogram, `GridSQE.py:70` -/
def center (bb : List ℝ) (i : ℕ) : ℝ := (bb.getD i 0 + bb.getD (i + 1) 0) / 2

/-- `_calcNorm`, `GridSQE.py:68-76`: the mean of `I*Q` over all cells.  `n` is the number of cells per
value of Q. -/
def calcNorm (bb : List ℝ) (n : ℕ) (data : List ℝ) : ℝ :=
  (∑ j ∈ Finset.range data.length, data.getD j 0 * center bb (j / n)) / data.length

/-- the number of energies of a histogram S(Q,E), `GridSQE.py:72-73` -/
def Hist.columns (h : Hist) : ℕ := h.shape.getD 1 1

/-- the axis behind `sqe.Q`, `GridSQE.py:70` -/
def Hist.qAxis (h : Hist) : List ℝ := (h.axes.lookup "Q").getD []

/-- the normalization, `GridSQE.py:58-61`.  Simplified: for a norm of 0 numpy goes on with infinities
and NaN; this is an error here. -/
def normalize (h : Hist) : Except Err Hist :=
  let norm := calcNorm h.qAxis h.columns h.data
  if |norm - 1| > 2/10 then
    if norm = 0 then .error .undefinedBehaviour
    else .ok { h with data := h.data.map (· / norm) }
  else .ok h

/-- `elementFactory`, `kernelxml/parser/GridSQE.py:23-63` -/
def createGridSQE (env : Env) (as : List (String × String)) : Except Err Fn := do
  let h ← match as.lookup "idf-data-path" with
    | some p => if p = "" then createHdf else env.readIdf p
    | none => createHdf
  let auto ← autoNorm (as.lookup "auto-normalization")
  let h ← if auto then normalize h else .ok h
  .ok (.gridSQE h)
where
  /-- `GridSQE.py:30-44` -/
  createHdf : Except Err Hist :=
    match as.lookup "histogram-hdf-path" with
    | none => .error .valueError
    | some p => if p = "" then .error .valueError else env.load p

/-- `elementFactory` of `kernelxml/parser/GridSQ.py:14-26` and `GridSvQ.py:11-23`: without a path the
error handler itself fails -/
def createGrid (env : Env) (as : List (String × String)) : Except Err Hist :=
  match as.lookup "histogram-hdf-path" with
  | none => .error .typeError
  | some p => env.load p

/-- what a node holds: a kernel or a functor, `AbstractNode.py:35` -/
inductive Obj (O : Type) where
  | kern (k : Kern O)
  | fn (f : Fn)

/-- `CompositeKernel(**kwds)` with only the keywords of `homogeneous_scatterer/CompositeKernel.py:22` -/
def knownKeys (as : List (String × String)) : Bool :=
  as.all fun a => a.1 == "average" || a.1 == "weight"

/-- the element made when a tag opens, `AbstractNode.py:27-37`: containers (`KernelContainer.py:42-48` with
`KernelNode.py:24-40`; `hsxml/parser/CompositeKernel.py:24-45`), functors (`SQE_fromexpression.py:23-26`,
`SQ_fromexpression.py:14-17`, `GridSQE.py:23-63`, ...) and the other kernels (`KernelNode.py:24-40`). -/
def create {O : Type} (env : Env) (tag : String) (as : List (String × String)) : Except Err (Obj O) :=
  if tag = "KernelContainer" then do
    if knownKeys as then pure () else .error .typeError
    let w ← weightOf env as
    let r ← rotOf env as
    .ok (.kern (.comp (avgOf as) (some w) r []))
  else if tag = "compositekernel" then do
    if knownKeys as then pure () else .error .typeError
    .ok (.kern (.comp (avgOf as) none none []))
  else if tag = "SQE_fromexpression" then .ok (.fn (.exprSQE ((as.lookup "expression").getD "None")))
  else if tag = "SQ_fromexpression" then .ok (.fn (.exprSQ ((as.lookup "expression").getD "None")))
  else if tag = "GridSQE" then do let f ← createGridSQE env as; .ok (.fn f)
  else if tag = "GridSQ" then do let h ← createGrid env as; .ok (.fn (.gridSQ h))
  else if tag = "GridSvQ" then do let h ← createGrid env as; .ok (.fn (.gridSvQ h))
  else do
    let l ← createLeaf env tag as
    let w ← weightOf env as
    let r ← rotOf env as
    .ok (.kern (.leaf l none (some w) r))

/-- the handler `on<Class>` of the parent is called for a finished child, `AbstractNode.py:44-45`:
`SQEkernel.py:32-37`, `SQE_EnergyFocusing_Kernel.py:34-38`, `SQkernel.py:21-26`, `SvQkernel.py:17-22`; containers
take every kernel and fail with `RuntimeError` for anything else (`KernelContainer.py:27-40`: a bare
`raise`); `hsxml/parser/CompositeKernel.py:46-48` takes containers only. -/
def notify {O : Type} (tag : String) (parent child : Obj O) : Except Err (Obj O) :=
  match parent, child with
  | .kern (.leaf (.sqe a s v _ q e) o w r), .fn f =>
    match f with
    | .gridSQE _ | .exprSQE _ => .ok (.kern (.leaf (.sqe a s v (some f) q e) o w r))
    | _ => .error .attributeError
  | .kern (.leaf (.sqeFocus a s v _ q e ef de) o w r), .fn f =>
    match f with
    | .gridSQE _ | .exprSQE _ => .ok (.kern (.leaf (.sqeFocus a s v (some f) q e ef de) o w r))
    | _ => .error .attributeError
  | .kern (.leaf (.sq a s _ q) o w r), .fn f =>
    match f with
    | .gridSQ _ | .exprSQ _ => .ok (.kern (.leaf (.sq a s (some f) q) o w r))
    | _ => .error .attributeError
  | .kern (.leaf (.svq a s _) o w r), .fn f =>
    match f with
    | .gridSvQ _ => .ok (.kern (.leaf (.svq a s (some f)) o w r))
    | _ => .error .attributeError
  | .kern (.comp a w r es), .kern k =>
    if tag = "KernelContainer" then .ok (.kern (.comp a w r (es ++ [k])))
    else match k with
      | .comp .. => .ok (.kern (.comp a w r (es ++ [k])))
      | .leaf .. => .error .attributeError
  | .kern (.comp ..), .fn _ => if tag = "KernelContainer" then .error .runtimeError else .error .attributeError
  | _, _ => .error .attributeError

mutual
/-- an element with its children, in the order the XML parser reports them: `AbstractNode.py:27-45` -/
def parseNode {O : Type} (env : Env) : Xml → Except Err (Obj O)
  | .node tag as cs => do
    let as' ← decode as
    let el ← create env tag as'
    parseKids env tag el cs
/-- the children of an element, `AbstractNode.py:44-45` -/
def parseKids {O : Type} (env : Env) (tag : String) (el : Obj O) : List Xml → Except Err (Obj O)
  | [] => .ok el
  | c :: cs => do
    let o ← parseNode env c
    let el' ← notify tag el o
    parseKids env tag el' cs
end

/-- a homogeneous scatterer without its shape, `homogeneous_scatterer/HomogeneousScatterer.py:21-43` (the
`None`s replaced as there); `mu` is the value given to `InverseVelocityAbsorption` -/
structure Scat (O : Type) where
  mcweights : Val
  loops : ℤ
  minP : ℝ
  packing : ℝ
  mu : Option Val
  kernel : Option (Kern O)

/-- the default of the parser, `hsxml/parser/HomogeneousScatterer.py:33` -/
def defaultWeights : Val := .vec [.num 0, .num 1, .num (5/100)]

/-- `if x: x = float(x)`, `hsxml/parser/HomogeneousScatterer.py:40-51`, and the default for `None` of
`HomogeneousScatterer.py:41-43`.  Simplified: an empty text is an error here already. -/
def option {α : Type} (conv : String → Except Err α) (dflt : α) (v : Option String) : Except Err α :=
  match v with
  | none => .ok dflt
  | some s => if s = "" then .error .typeError else conv s

/-- `__init__`, `hsxml/parser/HomogeneousScatterer.py:25-53`.  `mcweights[2]` is looked at for a warning. -/
def createScat {O : Type} (env : Env) (as : List (String × String)) : Except Err (Scat O) := do
  let w ← match as.lookup "mcweights" with
    | none => .ok defaultWeights
    | some s => if s = "" then .ok defaultWeights else env.parse s
  match w with
    | .vec l => if l.length ≤ 2 then .error .indexError else pure ()
    | _ => .error .typeError
  let n ← option env.int 5 (as.lookup "max_multiplescattering_loops")
  let p ← option env.float 0 (as.lookup "min_neutron_probability")
  let f ← option env.float 1 (as.lookup "packing_factor")
  .ok ⟨w, n, p, f, none, none⟩

/-- the children of a scatterer: `hsxml/parser/HomogeneousScatterer.py:87-107` with the handlers of
`kernelxml/parser/HomogeneousScatterer.py:18-24`; `InverseVelocityAbsorption.py:15-32`.  A later kernel replaces an
earlier one.  Curves of absorption (`InterpolateAbsorptionFromCurve.py`) are left out. -/
def scatKids {O : Type} (env : Env) (h : Scat O) : List Xml → Except Err (Scat O)
  | [] => .ok h
  | .node tag as kids :: cs =>
    if tag = "InverseVelocityAbsorption" then do
      let as' ← decode as
      let vs ← as'.mapM fun a => do let v ← env.parse a.2; .ok (a.1, v)
      match vs with
      | [("mu_at_2200", v)] => scatKids env { h with mu := some v } cs
      | _ => .error .typeError
    else do
      let o ← parseNode env (.node tag as kids)
      match o with
      | .kern k => scatKids env { h with kernel := some k } cs
      | .fn _ => .error .attributeError

/-- `parse_file`, `kernelxml/__init__.py` with `hsxml/parser/HomogeneousScatterer.py:56-84`: without a kernel
`self._kernel` (line 61) fails -/
def parseScat {O : Type} (env : Env) : Xml → Except Err (Scat O)
  | .node tag as cs =>
    if tag = "homogeneous_scatterer" then do
      let as' ← decode as
      let h ← createScat env as'
      let h ← scatKids env h cs
      match h.kernel with
      | none => .error .attributeError
      | some _ => .ok h
    else .error .keyError

/-! ### writing -/

/-- what a renderer run produces: the element and the histogram files written, in order
(`kernelxml/Renderer.py:141,161`) -/
structure Out where
  xml : Xml
  files : List (String × Hist)

/-- the functor inside a kernel, `kernelxml/Renderer.py:136-173`.  There is no handler for S(Q vector). -/
def writeFn : Fn → Except Err Out
  | .gridSQE h => .ok ⟨.node "GridSQE" [("histogram-hdf-path", "sqehist.h5/S(Q,E)")] [], [("sqehist.h5", h)]⟩
  | .exprSQE e => .ok ⟨.node "SQE_fromexpression" [("expression", e)] [], []⟩
  | .gridSQ h => .ok ⟨.node "GridSQ" [("histogram-hdf-path", "sqhist.h5/S(Q)")] [], [("sqhist.h5", h)]⟩
  | .exprSQ e => .ok ⟨.node "SQ_fromexpression" [("expression", e)] [], []⟩
  | .gridSvQ _ => .error .attributeError

/-- the handlers of `kernelxml/Renderer.py:41-133`; `sh` is `'%s' % value`.  `onSQkernel` reads the attribute
`Erange` (line 61) which the class does not have; the handler for `E_vQ_Kernel` is misspelt (line 109), and there are
none for the other kernels. -/
def writeLeaf (sh : Val → String) : Leaf → Except Err Out
  | .sqe _ _ _ f _ e =>
    match f with
    | none => .error .attributeError
    | some f => do
      let o ← writeFn f
      .ok ⟨.node "SQEkernel" [("energy-range", sh e), ("Q-range", sh e)] [o.xml], o.files⟩
  | .iso _ _ => .ok ⟨.node "IsotropicKernel" [] [], []⟩
  | .constE e _ _ => .ok ⟨.node "ConstantEnergyTransferKernel" [("energy-transfer", sh e)] [], []⟩
  | .eQ eq sq q1 q2 _ _ =>
    .ok ⟨.node "E_Q_Kernel" [("E_Q", eq), ("S_Q", sq), ("Qmin", sh q1), ("Qmax", sh q2)] [], []⟩
  | .broad eq sq sg q1 q2 _ _ =>
    .ok ⟨.node "Broadened_E_Q_Kernel"
      [("E_Q", eq), ("S_Q", sq), ("sigma_Q", sg), ("Qmin", sh q1), ("Qmax", sh q2)] [], []⟩
  | .constQE q e _ _ =>
    .ok ⟨.node "ConstantQEKernel" [("momentum-transfer", sh q), ("energy-transfer", sh e)] [], []⟩
  | .constvQE q e de _ _ =>
    .ok ⟨.node "ConstantvQEKernel" [("momentum-transfer", sh q), ("energy-transfer", sh e), ("dE", sh de)] [], []⟩
  | .sq .. => .error .attributeError
  | .evQ .. => .error .attributeError
  | .lor .. => .error .attributeError
  | .sqeFocus .. => .error .attributeError
  | .svq .. => .error .attributeError
  | .dgs .. => .error .attributeError

mutual
/-- a kernel: containers are written by `onCompositeKernel`, `hsxml/Renderer.py:30-40`, since that is the
method `CompositeKernel.identify` calls (`CompositeKernel.py:37`); `kernelxml/Renderer.py:28-38` is never called -/
def write {O : Type} (sh : Val → String) : Kern O → Except Err Out
  | .leaf l _ _ _ => writeLeaf sh l
  | .comp _ _ _ es => do
    let os ← writeAll sh es
    .ok ⟨.node "compositekernel" [] (os.map Out.xml), os.flatMap Out.files⟩
/-- the loop of `hsxml/Renderer.py:34-36` -/
def writeAll {O : Type} (sh : Val → String) : List (Kern O) → Except Err (List Out)
  | [] => .ok []
  | k :: ks => do
    let o ← write sh k
    let os ← writeAll sh ks
    .ok (o :: os)
end

/-- `onHomogeneousScatterer`, `hsxml/Renderer.py:43-57`, without the shape -/
def writeScat {O : Type} (sh : Val → String) (h : Scat O) : Except Err Out :=
  match h.kernel with
  | none => .error .attributeError
  | some k => do
    let o ← write sh k
    .ok ⟨.node "homogeneous_scatterer" [("mcweights", sh h.mcweights)] [o.xml], o.files⟩

/-! ### the kernels in C++ -/

/-- the values of the two units that are no SI units, in SI units (package `pyre`), used in
`ComputationEngineRendererExtension.py:37-40` -/
structure Units where
  meV : ℝ
  angstrom : ℝ
  meV_pos : 0 < meV
  angstrom_pos : 0 < angstrom

/-- `units.energy.meV`, `ComputationEngineRendererExtension.py:37` -/
def Units.energy (U : Units) : Qty := ⟨U.meV, ⟨1, 2, -2⟩⟩
/-- `1./units.length.angstrom`, `ComputationEngineRendererExtension.py:40` -/
def Units.perAngstrom (U : Units) : Qty := ⟨1 / U.angstrom, ⟨0, -1, 0⟩⟩
/-- `units.length.meter`, `ComputationEngineRendererExtension.py:224` -/
def meter : Qty := ⟨1, ⟨0, 1, 0⟩⟩
/-- `units.length.meter**2`, `ComputationEngineRendererExtension.py:60` -/
def meter2 : Qty := ⟨1, ⟨0, 2, 0⟩⟩
/-- `1./units.length.meter`, `ComputationEngineRendererExtension.py:162` -/
def perMeter : Qty := ⟨1, ⟨0, -1, 0⟩⟩
/-- `units.time.second`, `ComputationEngineRendererExtension.py:228` -/
def second : Qty := ⟨1, ⟨0, 0, 1⟩⟩

/-- the ways cross sections are looked up: `cross_sections` with `include_density` false
(`ComputationEngineRendererExtension.py:56`), left out (line 193) or true (line 298), and
`compute_absorption_and_scattering_coeffs` (line 441) -/
inductive XsCall where
  | plain
  | dflt
  | density
  | coeffs

/-- what the package `sampleassembly` knows about the sample: absorption and scattering (`inc + coh`),
`ComputationEngineRendererExtension.py:54-57`, and the volume of the unit cell in cubic ångström (line 66) -/
structure Sample (O : Type) where
  xs : O → XsCall → Except Err (Val × Val)
  vol : O → Except Err ℝ

/-- a call of a C++ constructor, `bindings/BoostPythonBinding.py:25-334`: its name, the numbers and the
texts passed to it in their order, and the functor -/
structure Call (G : Type) where
  name : String
  nums : List ℝ
  strs : List String
  fn : Option G

/-- functors in C++: `b.GridSQE`, `b.SQE_fromexpression`, ... (`bindings/BoostPythonBinding.py:46-56,126-161`); an
axis is begin, end and step -/
inductive CFn where
  | grid (kind : String) (axes : List (ℝ × ℝ × ℝ)) (data : List ℝ)
  | expr (kind : String) (e : String)

/-- Python's `int` of a float, used in `bindings/BoostPythonBinding.py:36` -/
def pyInt (x : ℝ) : ℤ := if 0 ≤ x then ⌊x⌋ else ⌈x⌉

/-- `bb[0], bb[-1], bb[1]-bb[0]` of a named axis, `ComputationEngineRendererExtension.py:12-13` -/
def axis (h : Hist) (name : String) : Except Err (ℝ × ℝ × ℝ) :=
  match h.axes.lookup name with
  | none => .error .keyError
  | some bb =>
    match bb with
    | a :: b :: _ => .ok (a, bb.getLastD 0, b - a)
    | _ => .error .indexError

/-- one condition of the assertions on the shape, `bindings/BoostPythonBinding.py:36-39,108-112,141`: `pad` is 0 in
the first and 0.5 in the others.  A step of 0 makes `int` fail. -/
def fits (n : ℕ) (a : ℝ × ℝ × ℝ) (pad : ℝ) : Except Err Bool :=
  if a.2.2 = 0 then .error .valueError else .ok (decide ((n : ℤ) = pyInt ((a.2.1 - a.1) / a.2.2 + pad)))

/-- all axes fit, `bindings/BoostPythonBinding.py:34-39,106-112,139-141` -/
def allFit (pad : ℝ) : List ℕ → List (ℝ × ℝ × ℝ) → Except Err Bool
  | [], [] => .ok true
  | n :: ns, a :: as => do
    let b ← fits n a pad
    if b then allFit pad ns as else .ok false
  | _, _ => .ok false

/-- the end moved by a fraction of a step, `ComputationEngineRendererExtension.py:24-25,127-129,142` -/
def stretch (f : ℝ) (a : ℝ × ℝ × ℝ) : ℝ × ℝ × ℝ := (a.1, a.2.1 + f * a.2.2, a.2.2)

/-- the checks and the construction, `bindings/BoostPythonBinding.py:25-50,95-131,133-154` -/
def makeGrid (kind : String) (h : Hist) (pad : ℝ) (axes : List (ℝ × ℝ × ℝ)) : Except Err CFn := do
  if h.shape.length = axes.length then pure () else .error .assertionError
  let ok ← allFit pad h.shape axes
  if ok then .ok (.grid kind axes h.data) else .error .assertionError

/-- `onGridSQE`, `onSQE_fromexpression`, `onGridSvQ`, `onGridSQ`, `onSQ_fromexpression`:
`ComputationEngineRendererExtension.py:9-30,117-148` -/
def renderFn : Fn → Except Err CFn
  | .gridSQE h => do
    let q ← axis h "Q"
    let e ← match axis h "E" with
      | .error .keyError => axis h "energy"
      | x => x
    makeGrid "GridSQE" h 0 [stretch (1/2) q, stretch (1/2) e]
  | .exprSQE e => .ok (.expr "SQE_fromexpression" e)
  | .gridSvQ h => do
    let x ← axis h "Qx"
    let y ← axis h "Qy"
    let z ← axis h "Qz"
    makeGrid "GridSvQ" h (1/2) [stretch (1/10) x, stretch (1/10) y, stretch (1/10) z]
  | .gridSQ h => do
    let q ← axis h "Q"
    makeGrid "GridSQ" h (1/2) [stretch (1/100) q]
  | .exprSQ e => .ok (.expr "SQ_fromexpression" e)

/-- an attribute that may be `None` and is asked for its `identify`, `ComputationEngineRendererExtension.py:42` -/
def renderOpt : Option Fn → Except Err CFn
  | none => .error .attributeError
  | some f => renderFn f

/-- a number handed to C++: anything else is refused by the binding (a `TypeError`),
`bindings/BoostPythonBinding.py:72-75` -/
def asNum : Val → Except Err ℝ
  | .sc (.num x) => .ok x
  | _ => .error .typeError

/-- a single quantity: unit removed, then handed to C++, `ComputationEngineRendererExtension.py:246` -/
def num1 (x : Val) (u : Qty) : Except Err ℝ := do
  let y ← removeUnit x u
  asNum y

/-- `Emin, Emax = Erange`, `bindings/BoostPythonBinding.py:70-71`: exactly two elements -/
def pair : Val → Except Err (ℝ × ℝ)
  | .vec [.num a, .num b] => .ok (a, b)
  | .vec [_, _] => .error .typeError
  | .vec _ => .error .valueError
  | _ => .error .typeError

/-- `remove_unit((abs, sctt), unit)`, `ComputationEngineRendererExtension.py:60`.  Texts and vectors among the
two make numpy fail; the error is a `TypeError` here. -/
def removePair (a s : Val) (u : Qty) : Except Err (ℝ × ℝ) :=
  match a, s with
  | .sc a, .sc s => do
    let v ← removeUnit (.vec [a, s]) u
    pair v
  | _, _ => .error .typeError

/-- `is None` in `ComputationEngineRendererExtension.py:46` -/
def Val.isNone : Val → Bool
  | .none => true
  | _ => false

/-- `t.scatterer_origin`, `ComputationEngineRendererExtension.py:54` -/
def needOrigin {O : Type} : Option O → Except Err O
  | none => .error .attributeError
  | some o => .ok o

/-- absorption and scattering: those of the kernel if both are given, otherwise both from the sample,
`ComputationEngineRendererExtension.py:44-60,156-162,183-197,...` -/
def coefs {O : Type} (S : Sample O) (origin : Option O) (c : XsCall) (a s : Val) (u : Qty) : Except Err (ℝ × ℝ) := do
  let p ← if a.isNone || s.isNone then do
      let o ← needOrigin origin
      S.xs o c
    else .ok (a, s)
  removePair p.1 p.2 u

/-- the volume of the unit cell, `ComputationEngineRendererExtension.py:62-68`; a given one is passed on as it is -/
def volume {O : Type} (S : Sample O) (origin : Option O) (v : Val) : Except Err ℝ :=
  if v.isNone then do
    let o ← needOrigin origin
    let x ← S.vol o
    .ok (x * (1 / 10 ^ 30))
  else asNum v

/-- three coordinates, `bindings/BoostPythonBinding.py:209,333`: `exact` for a call with `*args`, otherwise
the first three elements are taken -/
def coords (exact : Bool) : Val → Except Err (List ℝ)
  | .vec (.num a :: .num b :: .num c :: r) =>
    if exact && !r.isEmpty then .error .typeError else .ok [a, b, c]
  | .vec (_ :: _ :: _ :: _) => .error .typeError
  | .vec _ => if exact then .error .typeError else .error .indexError
  | _ => .error .typeError

/-- the handlers of `ComputationEngineRendererExtension.py:32-115,151-419` with the functions of
`bindings/BoostPythonBinding.py:58-92,164-334` they call: the C++ object made for a kernel -/
def renderLeaf {O : Type} (U : Units) (S : Sample O) (origin : Option O) : Leaf → Except Err (Call CFn)
  | .sqe a s v f qr er => do
    let er ← removeUnit er U.energy
    let qr ← removeUnit qr U.perAngstrom
    let g ← renderOpt f
    let c ← coefs S origin .plain a s meter2
    let v ← volume S origin v
    let e ← pair er
    let q ← pair qr
    .ok ⟨"SQEkernel", [c.1, c.2, v, q.1, q.2, e.1, e.2], [], some g⟩
  | .sqeFocus a s v f qr er ef de => do
    let er ← removeUnit er U.energy
    let qr ← removeUnit qr U.perAngstrom
    let ef ← removeUnit ef U.energy
    let de ← removeUnit de U.energy
    let g ← renderOpt f
    if a.isNone != s.isNone then .error .runtimeError else pure ()
    let c ← coefs S origin .plain a s meter2
    let v ← volume S origin v
    let e ← pair er
    let q ← pair qr
    let ef ← asNum ef
    let de ← asNum de
    .ok ⟨"SQE_EnergyFocusing_Kernel", [c.1, c.2, v, q.1, q.2, e.1, e.2, ef, de], [], some g⟩
  | .sq a s f qr => do
    let qr ← removeUnit qr U.perAngstrom
    let g ← renderOpt f
    let c ← coefs S origin .coeffs a s perMeter
    let q ← pair qr
    .ok ⟨"SQkernel", [c.1, c.2, q.1, q.2], [], some g⟩
  | .svq a s f => do
    let g ← renderOpt f
    let c ← coefs S origin .coeffs a s perMeter
    .ok ⟨"SvQkernel", [c.1, c.2], [], some g⟩
  | .iso a s => do
    let c ← coefs S origin .dflt a s perMeter
    .ok ⟨"IsotropicKernel", [c.1, c.2], [], none⟩
  | .dgs p r t d a s => do
    let c ← coefs S origin .dflt a s perMeter
    let p ← removeUnit p meter
    let r ← removeUnit r meter
    let t ← removeUnit t second
    let d ← removeUnit d second
    let p ← coords true p
    let r ← asNum r
    let t ← asNum t
    let d ← asNum d
    .ok ⟨"DGSSXResKernel", p ++ [r, t, d, c.1, c.2], [], none⟩
  | .constE e a s => do
    let c ← coefs S origin .coeffs a s perMeter
    let e ← num1 e U.energy
    .ok ⟨"ConstantEnergyTransferKernel", [e, c.1, c.2], [], none⟩
  | .constQE q e a s => do
    let c ← coefs S origin .coeffs a s perMeter
    let q ← removeUnit q U.perAngstrom
    let e ← num1 e U.energy
    let q ← asNum q
    .ok ⟨"ConstantQEKernel", [q, e, c.1, c.2], [], none⟩
  | .constvQE q e de a s => do
    let c ← coefs S origin .coeffs a s perMeter
    let e ← num1 e U.energy
    let de ← num1 de U.energy
    let q ← coords false q
    .ok ⟨"ConstantvQEKernel", q ++ [e, de, c.1, c.2], [], none⟩
  | .eQ eq sq q1 q2 a s => do
    let c ← coefs S origin .density a s perMeter
    let q1 ← num1 q1 U.perAngstrom
    let q2 ← num1 q2 U.perAngstrom
    .ok ⟨"E_Q_Kernel", [q1, q2, c.1, c.2], [eq, sq], none⟩
  | .broad eq sq sg q1 q2 a s => do
    let c ← coefs S origin .density a s perMeter
    let q1 ← num1 q1 U.perAngstrom
    let q2 ← num1 q2 U.perAngstrom
    .ok ⟨"Broadened_E_Q_Kernel", [q1, q2, c.1, c.2], [eq, sq, sg], none⟩
  | .lor eq sq g q1 q2 a s => do
    let c ← coefs S origin .density a s perMeter
    let q1 ← num1 q1 U.perAngstrom
    let q2 ← num1 q2 U.perAngstrom
    .ok ⟨"LorentzianBroadened_E_Q_Kernel", [q1, q2, c.1, c.2], [eq, sq, g], none⟩
  | .evQ eq sq emax a s => do
    let c ← coefs S origin .density a s perMeter
    let emax ← num1 emax U.energy
    .ok ⟨"E_vQ_Kernel", [emax, c.1, c.2], [eq, sq], none⟩

/-- the C++ kernels: a single one, or a composite with the weights, orientations and the flag
(`KernelComputationEngineRenderer.py:62`) -/
inductive CKern where
  | call (c : Call CFn)
  | comp (kernels : List CKern) (weights : List ℝ) (rots : List (M3 ℝ)) (average : Bool)

/-- `getattr(element, 'weight', None)`, `KernelComputationEngineRenderer.py:41` -/
def Kern.weight {O : Type} : Kern O → Option ℝ
  | .leaf _ _ w _ => w
  | .comp _ w _ _ => w

/-- `getattr(element, 'rotmat', None)`, `KernelComputationEngineRenderer.py:55` -/
def Kern.rot {O : Type} : Kern O → Option (M3 ℝ)
  | .leaf _ _ _ r => r
  | .comp _ _ r _ => r

/-- `w or 1.`, `KernelComputationEngineRenderer.py:52` -/
def cweight (w : Option ℝ) : ℝ :=
  match w with
  | none => 1
  | some w => if w = 0 then 1 else w

/-- `composite.average` converted to a C++ `bool`, `KernelComputationEngineRenderer.py:62`: `None` counts as
false, a text is refused -/
def caverage : Avg → Except Err Bool
  | .none => .ok false
  | .bool b => .ok b
  | .empty => .error .typeError

mutual
/-- `onCompositeKernel`, `KernelComputationEngineRenderer.py:30-62`, and the handlers of the other kernels -/
def engine {O : Type} (U : Units) (S : Sample O) : Kern O → Except Err CKern
  | .leaf l o _ _ => do let c ← renderLeaf U S o l; .ok (.call c)
  | .comp a _ _ es => do
    let ks ← engineAll U S es
    let b ← caverage a
    .ok (.comp ks (es.map fun e => cweight e.weight) (es.map fun e => e.rot.getD M3.one) b)
/-- the loop of `KernelComputationEngineRenderer.py:38-60` -/
def engineAll {O : Type} (U : Units) (S : Sample O) : List (Kern O) → Except Err (List CKern)
  | [] => .ok []
  | k :: ks => do
    let c ← engine U S k
    let cs ← engineAll U S ks
    .ok (c :: cs)
end

/-- the C++ scatterer without its shape, `homogeneous_scatterer/bindings/BoostPythonBinding.py:44-58` -/
structure CScat where
  kernel : CKern
  mcweights : List ℝ
  loops : ℤ
  minP : ℝ
  packing : ℝ
  mu : Option ℝ

/-- `onHomogeneousScatterer` and `onInverseVelocityAbsorption`, `KernelComputationEngineRenderer.py:65-90` -/
def engineScat {O : Type} (U : Units) (S : Sample O) (h : Scat O) : Except Err CScat :=
  match h.kernel with
  | none => .error .attributeError
  | some k => do
    let c ← engine U S k
    let mu ← match h.mu with
      | none => .ok none
      | some v => do let x ← num1 v perMeter; .ok (some x)
    let w ← coords true h.mcweights
    .ok ⟨c, w, h.loops, h.minP, h.packing, mu⟩

/-- a scatterer file and the sample it belongs to become a C++ scatterer:
`sampleassembly_support.py:107-132`, then the renderer (`sample/__init__.py:37-43`) -/
def load {O : Type} (env : Env) (U : Units) (S : Sample O) (origin : O) (x : Xml) : Except Err CScat := do
  let h ← parseScat env x
  engineScat U S { h with kernel := h.kernel.map (setOrigin origin) }

end
end Verif.KernelXml
