import Verif.Model.IdfNeutron
import Mathlib.Algebra.Order.Floor.Ring
import Mathlib.Analysis.SpecialFunctions.Trigonometric.Basic
/-!
Files of phonon data: `packages/mccomponents/python/mccomponents/sample/idf/DOS.py`, `E.py`, `Q.py`, `Omega2.py`,
`Polarizations.py`, `Sqe.py` and `__init__.py`.

Bytes are `UInt8`.  How a double is stored is left open: numbers are elements of any type `α`, with functions to and from the 64
bits (rounding is then a property of these functions).
-/

namespace Verif.IdfPhonon
open Idf

/-- `struct.pack` and `struct.unpack` of one double, format `<d` (`DOS.py:27, 41`) -/
structure Codec (α : Type) where
  enc : α → UInt64
  dec : UInt64 → α

/-- an array of numpy in C order: its shape and its elements (`Q.py:18-20`) -/
structure Arr (α : Type) where
  shape : List Nat
  data : List α

/-- `pack('<i', n)` for a non-negative integer, `Q.py:18`; too large ones raise `struct.error` -/
def packInt (n : Nat) : Except Err (List UInt8) := if n < 2 ^ 31 then .ok (leBytes 4 n) else .error .valueError

/-- `s.encode('ascii')`, `Q.py:17`: a string is the list of its code points; `UnicodeEncodeError` for others than ascii -/
def ascii (s : List Nat) : Except Err (List UInt8) :=
  if s.all (· < 128) then .ok (s.map UInt8.ofNat) else .error .valueError

/-- `bytes.decode()`, `Q.py:36`.  Simplification: bytes that are not ascii count as an error, though some are valid. -/
def decodeStr (s : List UInt8) : Except Err (List Nat) :=
  if s.all (· < 128) then .ok (s.map UInt8.toNat) else .error .valueError

/-- a sequence of `f.write(...)`, `Q.py:14-21`: what is in the file at the end, and the exception that ended the sequence; the
file is closed and what has been written stays in it -/
def emit : List (Except Err (List UInt8)) → List UInt8 × Except Err Unit
  | [] => ([], .ok ())
  | .error e :: _ => ([], .error e)
  | .ok b :: ps => let (f, r) := emit ps; (b ++ f, r)

/-- the first three writes, `DOS.py:23-25`, the same in all files -/
def header (ft : List UInt8) (comment : List Nat) : List (Except Err (List UInt8)) :=
  [.ok (packS 64 ft), .ok (leBytes 4 1), (ascii comment).map (packS 1024)]

/-- `pack('<%id' % len(Q), *Q)`, `Q.py:20-21` -/
def doubles {α : Type} (c : Codec α) (data : List α) : List UInt8 := tostring (data.map c.enc)

/-- `a.shape[k]`, `Q.py:18-19` -/
def dim {α : Type} (a : Arr α) (k : Nat) : Except Err Nat :=
  match a.shape[k]? with
  | some n => .ok n
  | none => .error .indexError

/-- `b'DOS'`, `DOS.py:23` -/
def tDOS : List UInt8 := [68, 79, 83]
/-- `b'E'`, `E.py:15` -/
def tE : List UInt8 := [69]
/-- `b'Q'`, `Q.py:15` -/
def tQ : List UInt8 := [81]
/-- `b'Sqe'`, `Sqe.py:15` -/
def tSqe : List UInt8 := [83, 113, 101]
/-- `b'Omega2'`, `Omega2.py:15` -/
def tOmega2 : List UInt8 := [79, 109, 101, 103, 97, 50]
/-- `b'Polarizations'`, `Polarizations.py:16` -/
def tPol : List UInt8 := [80, 111, 108, 97, 114, 105, 122, 97, 116, 105, 111, 110, 115]

variable {α : Type}

/-- `write`, `E.py:12-21` -/
def writeE (c : Codec α) (E : List α) (comment : List Nat) : List UInt8 × Except Err Unit :=
  emit (header tE comment ++ [packInt E.length, .ok (doubles c E)])

/-- `write`, `Q.py:12-22` -/
def writeQ (c : Codec α) (a : Arr α) (comment : List Nat) : List UInt8 × Except Err Unit :=
  emit (header tQ comment ++ [dim a 1 >>= packInt, dim a 0 >>= packInt, .ok (doubles c a.data)])

/-- `write`, `Sqe.py:12-22` -/
def writeSqe (c : Codec α) (a : Arr α) (comment : List Nat) : List UInt8 × Except Err Unit :=
  emit (header tSqe comment ++ [dim a 0 >>= packInt, dim a 1 >>= packInt, .ok (doubles c a.data)])

/-- `write`, `Omega2.py:12-25`; `D = 0` raises `ZeroDivisionError` -/
def writeOmega2 (c : Codec α) (a : Arr α) (comment : List Nat) (D : Nat) : List UInt8 × Except Err Unit :=
  emit (header tOmega2 comment ++ [packInt D,
    do let n ← dim a 1; if D = 0 then .error .zeroDivision else packInt (n / D),
    dim a 0 >>= packInt, .ok (doubles c a.data)])

/-- `write`, `Polarizations.py:12-29`: complex numbers are pairs; `res[:,:,:,:,0]` is an `IndexError` unless there are four
dimensions -/
def writePol (c : Codec α) (a : Arr (α × α)) (comment : List Nat) : List UInt8 × Except Err Unit :=
  emit (header tPol comment ++ [if a.shape.length = 4 then .ok [] else .error .indexError,
    dim a 3 >>= packInt, dim a 2 >>= packInt, dim a 0 >>= packInt, .ok (doubles c (a.data.flatMap fun z => [z.1, z.2]))])

/-- one `unpack` of the bytes `f[i:i+k]`, `Q.py:29`: `struct.error` unless there are `k` of them -/
def slice (f : List UInt8) (i k : Nat) : Except Err (List UInt8) :=
  let b := (f.drop i).take k
  if b.length = k then .ok b else .error .valueError

/-- `unpack('<i', f[i:i+4])`, `Q.py:30`.  Simplification: only non-negative integers; files with others are not modelled. -/
def readInt (f : List UInt8) (i : Nat) : Except Err Nat := do .ok (leNat (← slice f i 4))

/-- `numpy.array(unpack('<%id' % n, f[i:]))`, `Q.py:33-34`: the rest of the file must have the right length -/
def readDoubles (c : Codec α) (f : List UInt8) (i n : Nat) : Except Err (List α) :=
  if (f.drop i).length = 8 * n then do
    let ws ← fromstring (f.drop i)
    .ok (ws.map c.dec)
  else .error .valueError

/-- the type, the version and the comment of a file (`Q.py:29-31, 36`) -/
structure Info where
  filetype : List Nat
  version : Nat
  comment : List Nat
  deriving DecidableEq

/-- the first three values, `DOS.py:37-39, 45`, the same for all files -/
def readInfo (f : List UInt8) : Except Err Info := do
  let ft ← slice f 0 64
  let ver ← readInt f 64
  let cm ← slice f 68 1024
  .ok ⟨← decodeStr (stripZeros ft), ver, ← decodeStr (stripZeros cm)⟩

/-- `read`, `E.py:23-34` -/
def readE (c : Codec α) (f : List UInt8) : Except Err (Info × List α) := do
  let info ← readInfo f
  let n ← readInt f 1092
  .ok (info, ← readDoubles c f 1096 n)

/-- `read`, `Q.py:24-36` -/
def readQ (c : Codec α) (f : List UInt8) : Except Err (Info × Arr α) := do
  let info ← readInfo f
  let D ← readInt f 1092
  let Nq ← readInt f 1096
  .ok (info, ⟨[Nq, D], ← readDoubles c f 1100 (Nq * D)⟩)

/-- `read`, `Sqe.py:24-36` -/
def readSqe (c : Codec α) (f : List UInt8) : Except Err (Info × Arr α) := do
  let info ← readInfo f
  let Ne ← readInt f 1092
  let Nq ← readInt f 1096
  .ok (info, ⟨[Ne, Nq], ← readDoubles c f 1100 (Ne * Nq)⟩)

/-- `read`, `Omega2.py:27-41` -/
def readOmega2 (c : Codec α) (f : List UInt8) : Except Err (Info × Arr α) := do
  let info ← readInfo f
  let D ← readInt f 1092
  let Nb ← readInt f 1096
  let Nq ← readInt f 1100
  let data ← readDoubles c f 1104 (Nq * Nb * D)
  if info.filetype = tOmega2.map UInt8.toNat then .ok (info, ⟨[Nq, Nb * D], data⟩) else .error .assertionError

/-- `read`, `Polarizations.py:31-45` -/
def readPol (c : Codec α) (f : List UInt8) : Except Err (Info × Arr α) := do
  let info ← readInfo f
  let D ← readInt f 1092
  let Nb ← readInt f 1096
  let Nq ← readInt f 1100
  .ok (info, ⟨[Nq, Nb * D, Nb, D, 2], ← readDoubles c f 1104 (Nq * Nb * D * Nb * D * 2)⟩)

/-! ### Scattering functions -/

/-- what is used of a histogram (a package outside of the repository), `__init__.py:33-39, 45-58`: the axes in order, each with
name and boundaries, the data in an array and the errors -/
structure Hist (α : Type) where
  axes : List (String × List α)
  data : Arr α
  errors : List α

/-- `axisFromName(...).binBoundaries()`, `__init__.py:45-49`: the first axis of the name; the exception is a `ValueError` -/
def boundaries (h : Hist α) (name : String) : Except Err (List α) :=
  match h.axes.find? (·.1 = name) with
  | some ax => .ok ax.2
  | none => .error .valueError

/-- `writeSQE`, `__init__.py:43-61`: the three files; the comments are empty -/
def writeSQE (c : Codec α) (h : Hist α) : Except Err (List UInt8 × List UInt8 × List UInt8) := do
  let q ← boundaries h "Q"
  let e ← boundaries h "energy"
  let fq := writeQ c ⟨[q.length, 1], q⟩ []
  fq.2
  let fe := writeE c e []
  fe.2
  let fs := writeSqe c h.data []
  fs.2
  .ok (fq.1, fe.1, fs.1)

/-- `readSQE`, `__init__.py:17-39`.  `H.histogram` (not in the repository) refuses data that do not fit the axes; the errors are
all 0. -/
def readSQE [Zero α] (c : Codec α) (f : List UInt8 × List UInt8 × List UInt8) : Except Err (Hist α) := do
  let (_, q) ← readQ c f.1
  let (_, e) ← readE c f.2.1
  let (_, s) ← readSqe c f.2.2
  if s.shape = [q.data.length - 1, e.length - 1] then
    .ok ⟨[("Q", q.data), ("energy", e)], s, List.replicate s.data.length 0⟩
  else .error .valueError

/-! ### Density of states -/

noncomputable section

/-- units of energy known to `write`, `DOS.py:14-21` -/
inductive EUnit where
  | teraHz
  | meV
  | other

/-- `hertz2mev`, `units.py:4-11`: the energy of an angular frequency of 1 Hz, with the value of the electron volt left open -/
def hertz2mev (meV : ℝ) : ℝ := 1.05457148e-34 / meV

/-- `write`, `DOS.py:12-30`, over a file with content `old`: an unknown unit is refused before the file is opened -/
def writeDOS (c : Codec ℝ) (h : ℝ) (old : List UInt8) (E Z : List ℝ) (comment : List Nat) (unit : EUnit) :
    List UInt8 × Except Err Unit :=
  let go (E : List ℝ) := emit (header tDOS comment ++ [packInt Z.length,
    match E[0]?, E[1]? with
    | some e0, some e1 => .ok (doubles c [e1 - e0])
    | _, _ => .error .indexError,
    .ok (doubles c Z)])
  match unit with
  | .teraHz => go E
  | .meV => go (E.map fun e => e / h / 1e12 / 2 / Real.pi)
  | .other => (old, .error .notImplemented)

/-- `numpy.arange(0, stop, step)` (`DOS.py:44`): as many multiples of the step as the quotient rounded up; a step of 0 is a
division by zero -/
def arange0 (stop step : ℝ) : Except Err (List ℝ) :=
  if step = 0 then .error .zeroDivision
  else .ok ((List.range ⌈stop / step⌉.toNat).map fun (i : Nat) => (i : ℝ) * step)

/-- `read`, `DOS.py:32-45` -/
def readDOSFile (c : Codec ℝ) (f : List UInt8) : Except Err (Info × List ℝ × List ℝ) := do
  let info ← readInfo f
  let n ← readInt f 1092
  let dE ← readDoubles c ((f.drop 1096).take 8) 0 1
  let Z ← readDoubles c f 1104 n
  let dE := dE.getD 0 0
  let E ← arange0 ((n - 0.1) * dE) dE
  .ok (info, E, Z)

/-- `readDOS`, `__init__.py:121-128`: energies in meV from frequencies in THz -/
def readDOS (c : Codec ℝ) (h : ℝ) (f : List UInt8) : Except Err (List ℝ × List ℝ) := do
  let (_, v, Z) ← readDOSFile c f
  .ok (v.map (fun v => v * 2 * Real.pi * 1e12 * h), Z)

end

end Verif.IdfPhonon
