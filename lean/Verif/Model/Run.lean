import Verif.Model.Base
import Mathlib.Algebra.Field.Defs
import Mathlib.Algebra.Group.Pi.Basic
/-!
Division of a simulation over MPI nodes and batches, output directories and the
parallel reduction of histograms:
`packages/mcni/python/mcni/pyre_support/Instrument.py`,
`packages/mcvine/python/mcvine/run_script.py`,
`packages/mcni/python/mcni/SimulationContext.py`,
`packages/mcni/python/mcni/components/HistogramBasedMonitorMixin.py`.
-/

namespace Verif.Run

/-! ### partitions -/

/-- `int(ceil(a*1./b))`, `Instrument.py:545`.  Simplification: exact arithmetic
instead of a floating point quotient. -/
def ceilDiv (a b : Nat) : Nat := (a + b - 1) / b

/-- `getPartitionIterator(N, n)`, `Instrument.py:537-552`: `while residual`, the
last bin (`nbins <= 1`) takes everything that is left.  Simplification: whole
numbers of neutrons. -/
def getPartitions : (residual nbins : Nat) → List Nat
  | 0, _ => []
  | r + 1, 0 => [r + 1]
  | r + 1, 1 => [r + 1]
  | r + 1, n + 2 =>
    let size := ceilDiv (r + 1) (n + 2)
    size :: getPartitions (r + 1 - size) (n + 1)

/-- `partitions[rank]`, `Instrument.py:266-268` and `run_script.py:103-104`. -/
def shareOf (N n rank : Nat) : Except Err Nat :=
  match (getPartitions N n)[rank]? with
  | some s => .ok s
  | none => .error .indexError

/-! ### batches: list of (iteration number, number of neutrons) -/

/-- `Instrument.main`, `Instrument.py:131-150`.  Simplification: whole numbers. -/
def appBatches (ncount buffer_size : Nat) : Except Err (List (Nat × Nat)) :=
  let buffer_size := if ncount < buffer_size then ncount else buffer_size
  if buffer_size = 0 then .error .zeroDivision
  else
    let n := ncount / buffer_size
    let loops := (List.range n).map fun i => (i, buffer_size)
    let remain := ncount % buffer_size
    .ok (loops ++ if remain ≠ 0 then [(n, remain)] else [])

/-- The loop of `run1`, `run_script.py:152-158`: `k` iterations are left,
`i` is the iteration number; result is the list of batches and `remained`. -/
def scriptLoop (buffer_size : Nat) : (k i remained : Nat) → List (Nat × Nat) × Nat
  | 0, _, remained => ([], remained)
  | k + 1, i, remained =>
    let n := min remained buffer_size
    let r := scriptLoop buffer_size k (i + 1) (remained - n)
    ((i, n) :: r.1, r.2)

/-- `run1`, `run_script.py:151-158`; `(ncount-1)//buffer_size+1` in Python
integers (for `ncount = 0` this is `-1+1`). -/
def scriptBatches (ncount buffer_size : Nat) : Except Err (List (Nat × Nat)) :=
  if buffer_size = 0 then .error .zeroDivision
  else
    let N : Int := ((ncount : Int) - 1) / (buffer_size : Int) + 1
    let r := scriptLoop buffer_size N.toNat 0 ncount
    if r.2 = 0 then .ok r.1 else .error .assertionError

/-- Choice of the number of nodes and of the buffer size in `run_mpi`,
`run_script.py:36-44`. -/
def runMpiSizes (ncount nodes buffer_size : Nat) : Except Err (Nat × Nat) :=
  if buffer_size = 0 then .error .assertionError
  else if ncount < 100 then .ok (1, ncount)
  else if nodes = 0 then .error .zeroDivision
  else
    let max_buffer_size := ncount / nodes / 5
    let b := min max_buffer_size buffer_size
    .ok (nodes, max 20 b)

/-- `_computeBufferSize`, `Instrument.py:354-364`, with `_maximumBufferSize` given
as a number. -/
def computeBufferSize (ncount mpisize maximum : Nat) : Nat :=
  let mpisize := if mpisize = 0 then 1 else mpisize
  let candidate := ncount / 5 / mpisize
  let candidate := if candidate < 1 then
      let c := ncount / mpisize
      if c < 1 then ncount else c
    else candidate
  min maximum candidate

/-! ### output directories -/

/-- decimal digits of `%s` for a non-negative integer, `SimulationContext.py:48,50` -/
def decimal (n : Nat) : List Char := Nat.toDigits 10 n

/-- The name part of `getOutputDirInProgress`, `SimulationContext.py:47-50`;
`mpiSize` of 0 stands for Python's `None` or 0. -/
def stepDir (mpiSize rank step : Nat) : List Char :=
  if mpiSize ≠ 0 then
    "rank".toList ++ decimal rank ++ "-step".toList ++ decimal step
  else "step".toList ++ decimal step

/-- `getOutputDirInProgress`, `SimulationContext.py:42-57`: `none` when no output
directory was set.  Simplification: `os.path.join` always inserts a separator
(the output directory does not end with one). -/
def outputDirInProgress (outputdir : Option (List Char)) (mpiSize rank step : Nat) : Option (List Char) :=
  outputdir.map fun d => d ++ '/' :: stepDir mpiSize rank step

/-! ### parallel reduction of histograms -/

/-- What one step of one monitor writes: intensity histogram and squared error
histogram (`HistogramBasedMonitorMixin.py:73-86`). -/
structure Hist (H : Type) where
  I : H
  E2 : H

/-- `h1.I += h.I; h1.E2 += h.E2`, `HistogramBasedMonitorMixin.py:84-85,134-135,153-155` -/
def Hist.add {H} [Add H] (a b : Hist H) : Hist H := ⟨a.I + b.I, a.E2 + b.E2⟩

/-- `hist_mcs_sum`, `HistogramBasedMonitorMixin.py:58-89`; the arguments are the
contents of the globbed files. -/
def histSum {H F} [Add H] [Zero F] [Add F] (hists : List (Hist H)) (mcs : List F) :
    Except Err (Option (Hist H × F)) :=
  if hists.length ≠ mcs.length then .error .assertionError
  else match hists with
    | [] => .ok none
    | h1 :: hs => .ok (some (hs.foldl Hist.add h1, mcs.foldl (· + ·) 0))

/-- messages sent to rank 0, `HistogramBasedMonitorMixin.py:159-166` -/
inductive Msg (H F : Type) where
  | hasdata (b : Bool)
  | arrI (a : H)
  | arrE2 (a : H)
  | mcs (x : F)

/-- slice `npernode*rank : npernode*(rank+1)`, `HistogramBasedMonitorMixin.py:121-124` -/
def slice {α} (l : List α) (size rank : Nat) : List α :=
  let npernode := (l.length - 1) / size + 1
  (l.drop (npernode * rank)).take (npernode * (rank + 1) - npernode * rank)

/-- the local part of `hist_mcs_sum_parallel`, `HistogramBasedMonitorMixin.py:126-143`.
The same slice object is applied to both lists; they have equal lengths. -/
def localSum {H F} [Add H] [Zero F] [Add F] (hists : List (Hist H)) (mcs : List F) (size rank : Nat) :
    Option (Hist H × F) :=
  match slice hists size rank with
  | [] => none
  | h1 :: hs => some (hs.foldl Hist.add h1, (slice mcs size rank).foldl (· + ·) 0)

/-- what a rank other than 0 sends, `HistogramBasedMonitorMixin.py:158-166` -/
def sendAll {H F} : Option (Hist H × F) → List (Msg H F)
  | none => [.hasdata false]
  | some (h, m) => [.hasdata true, .arrI h.I, .arrE2 h.E2, .mcs m]

/-- what rank 0 does with the messages of one other rank,
`HistogramBasedMonitorMixin.py:149-157`; `none` means it would wait forever for a
message that was not sent. -/
def recvOne {H F} [Add H] [Add F] (acc : Hist H × F) : List (Msg H F) → Option (Hist H × F)
  | [.hasdata false] => some acc
  | [.hasdata true, .arrI a, .arrE2 b, .mcs m] => some (⟨acc.1.I + a, acc.1.E2 + b⟩, acc.2 + m)
  | _ => none

/-- rank 0 receiving from the listed ranks in turn, `HistogramBasedMonitorMixin.py:149-157` -/
def recvFrom {H F} [Add H] [Add F] (inbox : Nat → List (Msg H F)) :
    List Nat → Hist H × F → Option (Hist H × F)
  | [], acc => some acc
  | r :: rs, acc => (recvOne acc (inbox r)).bind (recvFrom inbox rs)

/-- result of `hist_mcs_sum_parallel` on rank 0, `HistogramBasedMonitorMixin.py:97-170`;
`.error .recursionError` stands for a deadlock. -/
def histSumParallel {H F} [Add H] [Zero F] [Add F] (hists : List (Hist H)) (mcs : List F) (size : Nat) :
    Except Err (Option (Hist H × F)) :=
  if hists.length ≠ mcs.length then .error .assertionError
  else if hists.length = 0 then .ok none
  else if size = 0 then .error .zeroDivision
  else match localSum hists mcs size 0 with
    | none => .error .attributeError
    | some acc =>
      match recvFrom (fun r => sendAll (localSum hists mcs size r)) ((List.range size).drop 1) acc with
      | some x => .ok (some x)
      | none => .error .recursionError

/-- `merge_and_normalize` on rank 0, `HistogramBasedMonitorMixin.py:37-43`: a
histogram is a map from bins to numbers.  `h` is `None` when there were no files
and `h.I` then raises `AttributeError`. -/
def mergeAndNormalize {ι F : Type} [Field F] (hists : List (Hist (ι → F))) (mcs : List F) (size : Nat) :
    Except Err (Hist (ι → F)) :=
  match histSumParallel hists mcs size with
  | .error e => .error e
  | .ok none => .error .attributeError
  | .ok (some (h, n)) => .ok ⟨fun i => h.I i / n, fun i => h.E2 i / (n * n)⟩

end Verif.Run
