import Mathlib.Data.List.Basic
import Mathlib.Logic.Function.Basic
import Mathlib.Logic.Relation
/-!
Nodes of a parallel run that exchange messages:
`packages/mcni/python/mcni/components/ParallelComponent.py`,
`packages/mcni/python/mcni/utils/mpi/use_mpi4py.py`,
`packages/mcni/python/mcni/pyre_components/EventAreaMonitor.py`,
`packages/mcni/python/mcni/pyre_support/Instrument.py`.

A node runs a list of operations.  The state of the machine says for each node
what it has done and what it still has to do, and which messages are on the way.
-/

namespace Verif.Parallel

/-- operations of a node: `send` and `receive` with a peer and a tag,
`use_mpi4py.py:39-44`; everything else is an action with a name.
Simplification: the contents of a message are left out (`barrier` sends `''`). -/
inductive Op (α : Type) where
  | send (dst tag : Nat)
  | recv (src tag : Nat)
  | act (a : α)
deriving DecidableEq

/-- the nodes between two operations; a message is (source, destination, tag), `use_mpi4py.py:39-44` -/
structure State (α : Type) where
  todo : Nat → List (Op α)
  done : Nat → List (Op α)
  mail : List (Nat × Nat × Nat)

/-- the state before anything has happened, `use_mpi4py.py:29-31` -/
def start {α : Type} (prog : Nat → List (Op α)) : State α := ⟨prog, fun _ => [], []⟩

/-- node `r` completes its next operation (`use_mpi4py.py:39-44`) -/
def State.next {α : Type} (s : State α) (r : Nat) (o : Op α) (rest : List (Op α)) (mail : List (Nat × Nat × Nat)) : State α :=
  ⟨Function.update s.todo r rest, Function.update s.done r (s.done r ++ [o]), mail⟩

/-- one operation of one node, when the system keeps sent messages until they are
received: `world.send` in standard mode with a small message, `world.recv`
blocks until there is a matching message (`use_mpi4py.py:39-44`).
Assumption on MPI: messages are neither lost nor duplicated. -/
inductive Step {α : Type} : State α → State α → Prop
  | act {s : State α} {r : Nat} {a : α} {rest : List (Op α)} (h : s.todo r = .act a :: rest) :
      Step s (s.next r (.act a) rest s.mail)
  | send {s : State α} {r d t : Nat} {rest : List (Op α)} (h : s.todo r = .send d t :: rest) :
      Step s (s.next r (.send d t) rest (s.mail ++ [(r, d, t)]))
  | recv {s : State α} {r c t : Nat} {rest : List (Op α)} (h : s.todo r = .recv c t :: rest) (hm : (c, r, t) ∈ s.mail) :
      Step s (s.next r (.recv c t) rest (s.mail.erase (c, r, t)))

/-- one operation when a message is handed over only when the receiver waits for
it: `world.send` in standard mode is allowed to block until then
(`use_mpi4py.py:39-44`). -/
inductive SyncStep {α : Type} : State α → State α → Prop
  | act {s : State α} {r : Nat} {a : α} {rest : List (Op α)} (h : s.todo r = .act a :: rest) :
      SyncStep s (s.next r (.act a) rest s.mail)
  | meet {s : State α} {r d t : Nat} {rest rest' : List (Op α)} (hr : r ≠ d) (h : s.todo r = .send d t :: rest)
      (h' : s.todo d = .recv r t :: rest') :
      SyncStep s ((s.next r (.send d t) rest s.mail).next d (.recv r t) rest' s.mail)

/-- `UniqueChannelGenerator.__call__`, `ParallelComponent.py:45-48`: the channel
and the number kept for the next call.  The generator belongs to the class
(`ParallelComponent.py:80-82`), so each node (process) has one. -/
def newChannel (number : Nat) : Nat × Nat := (number, number + 1)

/-- `MPI.barrier`, `ParallelComponent.py:101-111`: the operations of a node and the
new number of its generator -/
def barrier (α : Type) (size rank number : Nat) : List (Op α) × Nat :=
  if size < 2 then ([], number)
  else
    let c := newChannel number
    if rank = 0 then ((List.range' 1 (size - 1)).map fun i => .send i c.1, c.2)
    else ([.recv 0 c.1], c.2)

/-- the `k`-th call of `barrier` begins and ends; marks for `ParallelComponent.py:101-111` -/
inductive Mark where
  | enter (k : Nat)
  | leave (k : Nat)
deriving DecidableEq

/-- `m` calls of `barrier` by one node, numbered from `k` (`ParallelComponent.py:101-111`) -/
def session (size rank : Nat) : (number k m : Nat) → List (Op Mark)
  | _, _, 0 => []
  | number, k, m + 1 =>
    let b := barrier Mark size rank number
    .act (.enter k) :: (b.1 ++ .act (.leave k) :: session size rank b.2 (k + 1) m)

/-- what a node does with the events of an area monitor: it writes its own files
in `process`; node 0 merges all of them (`pyre_components/EventAreaMonitor.py:66-70,117-120`) -/
inductive Merge where
  | write
  | merge
deriving DecidableEq

/-- the end of a run with an area monitor, `pyre_components/EventAreaMonitor.py:66-70,112-121`:
the files are written, then "make sure every node reaches here", then node 0
merges.  Simplification: the node has called `process` once; `time.sleep(5)`
of line 119 puts no bound on what the other nodes do meanwhile and is left out. -/
def areaMonitor (size rank number : Nat) : List (Op Merge) :=
  .act .write :: ((barrier Merge size rank number).1 ++ if rank = 0 then [.act .merge] else [])

/-- operations on the output directory, `Instrument.py:225-237` and `SimulationContext.py:52-55` -/
inductive Dir where
  /-- `os.path.exists(outputdir)`, which must be false (`Instrument.py:229-231`) -/
  | check
  /-- `os.makedirs(outputdir)`, `Instrument.py:233-234` -/
  | make
  /-- `os.makedirs(outputdir/rankR-step0)`, `SimulationContext.py:52-55`, which
  makes `outputdir` too -/
  | makeOwn
deriving DecidableEq

/-- `_setup_outputdir` of a worker without `--overwrite-datafiles`, `Instrument.py:225-237`,
followed by the first use of the directory in the simulation,
`SimulationContext.py:36-57` -/
def setupOutput (size rank number : Nat) : List (Op Dir) :=
  (barrier Dir size rank number).1 ++
    if rank = 0 then [.act .check, .act .make, .act .makeOwn] else [.act .makeOwn]

end Verif.Parallel
