import Verif.Model.Base
/-!
Model of the neutron storage: `packages/mcni/python/mcni/neutron_storage/Storage.py`,
`_merge.py`, `__init__.py` and the record level of `idf_usenumpy.py`.

Neutron records are elements of an arbitrary type `α`; the byte level is in
`Verif.Model.IdfNeutron`.
-/

namespace Verif.Storage

/-- State of a `Storage` opened with mode `'w'` or `'a'` (or `'r'`, when
`readonly` is set, for the refusal branch).
`packages/mcni/python/mcni/neutron_storage/Storage.py:39-96` (`__init__`).

`disk` is what another process would see in the file, `pending` what has been
handed to the Python stream but still sits in the stream's own io buffer (the
code never calls `stream.flush()`); `buffer` is `self._buffer`.
Simplification: the header is left out, contents are whole records. -/
structure Writer (α : Type) where
  readonly : Bool
  closed : Bool
  bufsize : Nat
  buffer : List α
  pending : List α
  disk : List α

/-- `Storage.__init__` for a freshly created (`'w'`) or existing (`'a'`) file,
`Storage.py:69-87`: empty buffer, stream positioned at the end of the existing
records. -/
def openWrite {α} (bufsize : Nat) (existing : List α) : Writer α :=
  { readonly := false, closed := false, bufsize := bufsize, buffer := [],
    pending := [], disk := existing }

/-- `Storage._write_neutrons`, `Storage.py:271-278`: append the records to the
stream.  A closed stream raises `ValueError`. -/
def writeNeutrons {α} (w : Writer α) (ns : List α) : Except Err (Writer α) :=
  if w.closed then .error .valueError
  else .ok { w with pending := w.pending ++ ns }

/-- `Storage._dump`, `Storage.py:246-268`. -/
def dump {α} (w : Writer α) (ns : List α) : Except Err (Writer α) :=
  if w.buffer.length + ns.length ≥ w.bufsize then do
    let w ← writeNeutrons w w.buffer
    let w ← writeNeutrons w ns
    return { w with buffer := [] }
  else
    .ok { w with buffer := w.buffer ++ ns }

/-- `Storage.write`, `Storage.py:99-108`. -/
def write {α} (w : Writer α) (ns : List α) : Except Err (Writer α) :=
  if w.readonly then .error .runtimeError
  else dump w ns

/-- `Storage.flush`, `Storage.py:227-231` (note: no `stream.flush()`). -/
def flush {α} (w : Writer α) : Except Err (Writer α) := do
  let w ← writeNeutrons w w.buffer
  return { w with buffer := [] }

/-- The io layer of Python moving the first `k` pending records to the file on
its own account; it may do so at any time.  Not a function of the repository:
behaviour of `open(path, mode+'b')`, `Storage.py:74`. -/
def drain {α} (w : Writer α) (k : Nat) : Writer α :=
  { w with disk := w.disk ++ w.pending.take k, pending := w.pending.drop k }

/-- `Storage.close`, `Storage.py:234-240`; `stream.close()` drains the io
buffer. -/
def close {α} (w : Writer α) : Except Err (Writer α) :=
  if w.closed then .ok w
  else do
    let w ← if w.readonly then pure w else flush w
    return { drain w w.pending.length with closed := true }

/-- One step in the life of a writer: a call of the user or the io layer
draining its buffer (`Storage.py:74,99-108,227-231`). -/
inductive WOp (α : Type) where
  | write (ns : List α)
  | flush
  | drain (k : Nat)

/-- Run one step (`Storage.py:99-108,227-231`). -/
def wstep {α} (w : Writer α) : WOp α → Except Err (Writer α)
  | .write ns => write w ns
  | .flush => flush w
  | .drain k => .ok (drain w k)

/-- Run a history of calls (any client of `Storage.py:99-108,227-231`). -/
def wrun {α} (w : Writer α) : List (WOp α) → Except Err (Writer α)
  | [] => .ok w
  | op :: ops => do
    let w ← wstep w op
    wrun w ops

/-! ### reading -/

/-- State of a `Storage` opened with mode `'r'`, `Storage.py:89-95`.
`file` are the complete records of the file, `self._ntotal` is
`idfio.count(stream)` = `file.length`; `packetsize` as given by the user. -/
structure Reader (α : Type) where
  file : List α
  pos : Int
  packetsize : Option Int

/-- `Storage.__init__` in mode `'r'`, `Storage.py:89-95`. -/
def openRead {α} (file : List α) (packetsize : Option Int := none) : Reader α :=
  { file := file, pos := 0, packetsize := packetsize }

/-- `whence` argument of `seek`, `Storage.py:117-127`. -/
inductive Whence where
  | start | current | «end» | other
  deriving DecidableEq

/-- `Storage.seek`, `Storage.py:111-135`.  Returns the outcome together with
the state after the call (the position has been overwritten when the
out-of-bound exception is raised). -/
def seek {α} (s : Reader α) (offset : Int) (whence : Whence) (wrap : Bool := true) :
    Except Err Unit × Reader α :=
  let ntotal : Int := s.file.length
  let fin (p : Int) : Except Err Unit × Reader α :=
    let s := { s with pos := p }
    if wrap then
      if ntotal = 0 then (.error .zeroDivision, s)
      else (.ok (), { s with pos := p % ntotal })
    else if p ≥ ntotal ∨ p < 0 then (.error .runtimeError, s)
    else (.ok (), s)
  match whence with
  | .start => fin offset
  | .current => fin (s.pos + offset)
  | .end => fin (ntotal + offset)
  | .other => (.error .valueError, s)

/-- `Storage.tell`, `Storage.py:138-139`. -/
def tell {α} (s : Reader α) : Int := s.pos

/-- `idf_usenumpy.read` with `start` and `n` given, record level,
`packages/mcni/python/mcni/neutron_storage/idf_usenumpy.py:58-80`:
`none` is Python's `None`. -/
def idfRead {α} (file : List α) (start n : Int) : Except Err (Option (List α)) :=
  if n = 0 then .ok none
  else if start ≥ 0 ∧ n > 0 then
    .ok (some ((file.drop start.toNat).take n.toNat))
  else .error .assertionError

/-- `idf_usenumpy.read` with neither `start` nor `n`,
`idf_usenumpy.py:63-80`. -/
def idfReadAll {α} (file : List α) : Except Err (Option (List α)) :=
  idfRead file 0 file.length

/-- `numpy.concatenate((a, b))` where an argument may be `None` (then numpy
raises `ValueError`), used in `Storage.py:200,209`. -/
def npConcat {α} : Option (List α) → Option (List α) → Except Err (Option (List α))
  | some a, some b => .ok (some (a ++ b))
  | _, _ => .error .valueError

/-- The `for i in range(ntimes)` loop, `Storage.py:199-201`. -/
def repeatConcat {α} (acc all : Option (List α)) : Nat → Except Err (Option (List α))
  | 0 => .ok acc
  | k + 1 => do
    let acc ← npConcat acc all
    repeatConcat acc all k

/-- `n = n or self._packetsize` (`Storage.py:157`): Python's `or` takes the
second operand when the first is `None` **or zero**. -/
def orDefault (n packetsize : Option Int) : Option Int :=
  match n with
  | none => packetsize
  | some k => if k = 0 then packetsize else some k

/-- The wrapping branch, `Storage.py:191-210`, given `n1` and what was read up
to the end of file; returns the array and the new position. -/
def readWrap {α} (s : Reader α) (n n1 : Int) (arr : Option (List α)) :
    Except Err (Option (List α) × Int) := do
  let ntotal : Int := s.file.length
  let n2 := n - n1
  let (arr, n2) ←
    if n2 ≥ ntotal then
      if ntotal = 0 then Except.error Err.zeroDivision
      else do
        let ntimes := n2 / ntotal
        let all ← idfReadAll s.file
        let arr ← repeatConcat arr all ntimes.toNat
        let n2 := n2 - ntimes * ntotal
        if n2 < ntotal then pure (arr, n2) else Except.error Err.assertionError
    else pure (arr, n2)
  if n2 > 0 then do
    let arr2 ← idfRead s.file 0 n2
    let arr ← npConcat arr arr2
    return (arr, n2)
  else
    return (arr, n2)

/-- `Storage.read`, `Storage.py:142-220`, with `asnpyarr=True` (the conversion
to a neutron buffer at 217-218 copies the records).  The state is unchanged
when an exception is raised because `_position` is assigned last. -/
def read {α} (s : Reader α) (n : Option Int) (wrap : Bool := true) :
    Except Err (Option (List α) × Reader α) := do
  let ntotal : Int := s.file.length
  let n : Int := match orDefault n s.packetsize with
    | none => ntotal - s.pos
    | some k => k
  if n = 0 then return (none, s)
  let nextpos := s.pos + n
  if nextpos < ntotal then do
    let arr ← idfRead s.file s.pos n
    return (arr, { s with pos := nextpos })
  else do
    let n1 := ntotal - s.pos
    let arr ← idfRead s.file s.pos n1
    if wrap then do
      let (arr, p) ← readWrap s n n1 arr
      return (arr, { s with pos := p })
    else
      return (arr, { s with pos := ntotal })

/-- A client calling `read(n)` for each `n` of a list and collecting the
neutrons (`None` contributes nothing), e.g. the loop in
`packages/mcni/python/mcni/neutron_storage/__init__.py:113-124`. -/
def readMany {α} (s : Reader α) : List Int → Except Err (List α × Reader α)
  | [] => .ok ([], s)
  | n :: ns => do
    let (a, s) ← read s (some n)
    let (rest, s) ← readMany s ns
    return (a.getD [] ++ rest, s)

end Verif.Storage
