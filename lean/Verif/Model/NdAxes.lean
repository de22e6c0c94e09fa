import Verif.Model.Base
import Verif.Model.Vec
import Mathlib.Analysis.Real.Sqrt
import Mathlib.Analysis.SpecialFunctions.Trigonometric.Basic
import Mathlib.Data.Nat.Digits.Defs
/-!
The axes of a monitor `NDMonitor(x, y, ...)` and the file with a packet size:
`packages/mcni/python/mcni/pyre_components/_ndmonitor.py`,
`packages/mcni/python/mcni/utils/conversion.py`,
`packages/mcni/python/mcni/neutron_storage/_neutron_storage_impl/PacketSizeStore.py`.
-/

namespace Verif.NdAxes

/-- the constants of `mcni/utils/constants.py` used by `conversion.py:17-24`.
Simplification: symbols instead of the numbers. -/
structure Consts where
  (hbar mN e : ℝ)

/-- `K2V`, `conversion.py:17` -/
noncomputable def Consts.K2V (k : Consts) : ℝ := k.hbar / k.mN * 1e10
/-- `V2K`, `conversion.py:18` -/
noncomputable def Consts.V2K (k : Consts) : ℝ := 1 / k.K2V
/-- `VS2E`, `conversion.py:22` -/
noncomputable def Consts.VS2E (k : Consts) : ℝ := k.mN / (2e-3 * k.e)
/-- `RV2W`, `conversion.py:24` -/
noncomputable def Consts.RV2W (k : Consts) : ℝ := 2 * Real.pi * k.K2V

/-- the expressions of an axis: those of the table `quantities` (`_ndmonitor.py:45-87`)
and texts of the user (`_ndmonitor.py:123-128`).  Simplification: texts are
arbitrary labels, expressions of the table are names for their texts. -/
inductive Expr where
  | energy | w | q | divx | divy | tof
  | x | y | z | vx | vy | vz | t
  | user (text : String)
deriving DecidableEq

/-- value of an expression of the table on a neutron, `_ndmonitor.py:46-87`; `none`: division
by zero (numpy gives `inf` or `nan`), or a text of the user -/
noncomputable def Expr.value (k : Consts) (n : Event ℝ) : Expr → Option ℝ
  | .energy => some (k.VS2E * (n.v.x * n.v.x + n.v.y * n.v.y + n.v.z * n.v.z))
  | .w =>
    let s := Real.sqrt (n.v.x * n.v.x + n.v.y * n.v.y + n.v.z * n.v.z)
    if s = 0 then none else some (k.RV2W * 1 / s)
  | .q => some (k.V2K * Real.sqrt (n.v.x * n.v.x + n.v.y * n.v.y + n.v.z * n.v.z))
  | .divx => if n.v.z = 0 then none else some (n.v.x / n.v.z)
  | .divy => if n.v.z = 0 then none else some (n.v.y / n.v.z)
  | .tof => some n.t
  | .x => some n.r.x
  | .y => some n.r.y
  | .z => some n.r.z
  | .vx => some n.v.x
  | .vy => some n.v.y
  | .vz => some n.v.z
  | .t => some n.t
  | .user _ => none

/-- the table `quantities`: name, expression and unit, `_ndmonitor.py:45-87` (the
unit 1 of `divx` and `divy` is a number there) -/
def table : List (String × Expr × String) :=
  [("energy", .energy, "meV"), ("w", .w, "angstrom"), ("q", .q, "angstrom**-1"),
   ("divx", .divx, "1"), ("divy", .divy, "1"), ("tof", .tof, "second"),
   ("x", .x, "meter"), ("y", .y, "meter"), ("z", .z, "meter"),
   ("vx", .vx, "meter/second"), ("vy", .vy, "meter/second"), ("vz", .vz, "meter/second"),
   ("t", .t, "second")]

/-- `q2e`, `_ndmonitor.py:91-93` -/
def q2e : List (String × Expr) := table.map fun r => (r.1, r.2.1)
/-- `q2u`, `_ndmonitor.py:91-94` -/
def q2u : List (String × String) := table.map fun r => (r.1, r.2.2)

/-- `neqs` with the expression that is the name itself, `_ndmonitor.py:17-21,233` -/
def neqs : List (String × Expr) :=
  [("x", .x), ("y", .y), ("z", .z), ("vx", .vx), ("vy", .vy), ("vz", .vz), ("t", .t)]

/-- `d[k] = v` followed by lookups: the last assignment counts (`_ndmonitor.py:216-220`) -/
def assign {β : Type} (d : List (String × β)) (k : String) (v : β) : List (String × β) := (k, v) :: d

/-- `d[k]`, `_ndmonitor.py:231,234` -/
def get {β : Type} (d : List (String × β)) (k : String) : Except Err β :=
  match d.find? (fun r => r.1 == k) with
  | some r => .ok r.2
  | none => .error .keyError

/-- a key of `kwds`: `k.endswith('_unit')` is split off by the caller of the model
(`_ndmonitor.py:216-220`); simplification: keys come in parsed form. -/
inductive Key where
  | name (k : String)
  | unitOf (k : String)
deriving DecidableEq

/-- loop over `kwds`, `_ndmonitor.py:216-220` -/
def overlay : List (Key × String) → List (String × Expr) × List (String × String) →
    List (String × Expr) × List (String × String)
  | [], d => d
  | (.unitOf k, v) :: rest, d => overlay rest (d.1, assign d.2 k v)
  | (.name k, v) :: rest, d => overlay rest (assign d.1 k (.user v), d.2)

/-- an axis: name, expression, unit, number of bins and range, `_ndmonitor.py:238-242` -/
structure AxisDef where
  (name : String)
  (expr : Expr)
  (unit : String)
  (bins : ℕ)
  (lo hi : ℝ)

/-- the settings of the component for one quantity, `_ndmonitor.py:150-166` -/
structure Setting where
  (bins : ℕ)
  (lo hi : ℝ)

/-- loop over `quantities` in `_init`, `_ndmonitor.py:229-244` -/
noncomputable def axes (d : List (String × Expr) × List (String × String)) (inv : String → Setting) :
    List String → Except Err (List AxisDef)
  | [] => .ok []
  | q :: qs =>
    match (match get neqs q with
      | .ok e => Except.ok e
      | .error _ => get d.1 q) with
    | .error e => .error e
    | .ok expr => match get d.2 q with
      | .error e => .error e
      | .ok unit => match axes d inv qs with
        | .error e => .error e
        | .ok rest => .ok (⟨q, expr, unit, (inv q).bins, (inv q).lo, (inv q).hi⟩ :: rest)

/-- `_init` of `ndmonitor(*quantities, **kwds)`, `_ndmonitor.py:208-255`: axes and size -/
noncomputable def init (quantities : List String) (kwds : List (Key × String)) (inv : String → Setting) (xwidth yheight : ℝ) :
    Except Err (List AxisDef × ℝ × ℝ) :=
  match axes (overlay kwds (q2e, q2u)) inv quantities with
  | .error e => .error e
  | .ok a =>
    open Classical in
    if xwidth ≤ 0 ∨ yheight ≤ 0 then .error .runtimeError
    else .ok (a, xwidth, yheight)

/-! ### packet size -/

/-- a `PacketSizeStore`: text of the file (digits, most significant first), can the
handle write, how much of the text has been read, `size`.  `PacketSizeStore.py:27-35`.
Simplification: characters are the numbers 0 to 9; what is written is in the file. -/
structure Store where
  text : List ℕ
  writable : Bool
  pos : ℕ
  size : Option ℕ
deriving DecidableEq

/-- `PacketSizeStore.__init__`, `PacketSizeStore.py:27-35`; `none`: the file does not exist -/
def openStore (file : Option (List ℕ)) : Store :=
  match file with
  | some t => ⟨t, false, 0, none⟩
  | none => ⟨[], true, 0, none⟩

/-- `'%s' % size`, `PacketSizeStore.py:51` -/
def render (n : ℕ) : List ℕ := (Nat.digits 10 n).reverse

/-- `int(text)`, `PacketSizeStore.py:42` -/
def parse (t : List ℕ) : ℕ := Nat.ofDigits 10 t.reverse

/-- `getsize`, `PacketSizeStore.py:38-44` -/
def Store.getsize (s : Store) : Store × Option ℕ :=
  match s.size with
  | some n => (s, some n)
  | none =>
    let text := s.text.drop s.pos
    let s := { s with pos := s.text.length }
    if text.length = 0 then (s, none)
    else ({ s with size := some (parse text) }, some (parse text))

/-- `setsize`, `PacketSizeStore.py:47-53`, with `io.UnsupportedOperation` (an `OSError`) for
a handle that cannot write.  `none` is an argument that is not an integer;
simplification: such an argument is positive and differs from the size. -/
def Store.setsize (s : Store) (size : Option ℤ) : Except Err Store :=
  match size with
  | none => if s.size.any (· != 0) then .error .runtimeError else .error .typeError
  | some size =>
    if s.size.any (fun n => n != 0 && size != n) then .error .runtimeError
    else if size ≤ 0 then .error .valueError
    else if s.writable = false then .error .ioError
    else
      .ok { s with text := s.text.take s.pos ++ render size.toNat ++ s.text.drop (s.pos + (render size.toNat).length),
                   pos := s.pos + (render size.toNat).length, size := some size.toNat }

end Verif.NdAxes
