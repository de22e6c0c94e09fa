import Verif.Model.Base
/-!
Workers of a parallel script run sharing one work directory:
`packages/mcvine/python/mcvine/run_script.py:97-168,186-192`.

Every worker executes `run1`, which first calls `_check_workdir` and later, for
every batch, writes its output under the work directory.  The model is a
transition system; a schedule is the order in which the workers' file system
accesses happen.
-/

namespace Verif.WorkDir

/-- Where a worker is in `run1` (`run_script.py:134-158`):
before the check, seen-existing and about to `rmtree` (`overwrite_datafiles`),
running with `done` batches written, or stopped by the `IOError`. -/
inductive Pc where
  | start
  | removing
  | running (done : Nat)
  | failed
  deriving DecidableEq

/-- Shared state: `dir` is `none` when the work directory does not exist, otherwise
the list of outputs `(rank, step)` in it.  Simplification: an output is one
item; `rmtree` (`run_script.py:189`) is one step. -/
structure State where
  dir : Option (List (Nat × Nat))
  pc : Nat → Pc

/-- change the position of one worker (`run_script.py:134-158`) -/
def State.setPc (s : State) (i : Nat) (p : Pc) : State :=
  { s with pc := fun j => if j = i then p else s.pc j }

/-- One access by worker `i`:
* `_check_workdir`, `run_script.py:186-192`: existence test, then error or removal;
* `shutil.rmtree`, `run_script.py:189`;
* one iteration of the batch loop, `run_script.py:153-157`, which creates the
  directory if necessary (`SimulationContext.py:54-55`) and writes its output.
A failed worker does nothing. -/
def step (overwrite : Bool) (s : State) (i : Nat) : State :=
  match s.pc i with
  | .start =>
    match s.dir with
    | none => s.setPc i (.running 0)
    | some _ => if overwrite then s.setPc i .removing else s.setPc i .failed
  | .removing => { s.setPc i (.running 0) with dir := none }
  | .running k => { s.setPc i (.running (k + 1)) with dir := some ((i, k) :: s.dir.getD []) }
  | .failed => s

/-- run a schedule (a list of worker numbers), `run_script.py:134-158` -/
def run (overwrite : Bool) (s : State) (sched : List Nat) : State :=
  sched.foldl (step overwrite) s

/-- all workers before `_check_workdir`, in a work directory which `run_mpi`
(`run_script.py:35`) has already checked and removed -/
def init : State := { dir := none, pc := fun _ => .start }

end Verif.WorkDir
