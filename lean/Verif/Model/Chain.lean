import Verif.Model.Frames
import Verif.Model.Buffer
/-!
The chain of simulation nodes:
`packages/mcni/python/mcni/instrument_simulator/SimulationChain.py` and `SimulationNode.py`.
`W` is the state of the world outside the buffer (files, random numbers, monitors).
-/

namespace Verif.Chain
open Verif.Frames
variable {W F : Type} [Field F] [LinearOrder F]

/-- A component with what the geometer says about it (`SimulationChain.py:69-70`). -/
structure Comp (W F : Type) where
  name : String
  frame : Frame F
  process : W → List (Event F) → Except Err (W × List (Event F))

/-- `DummyComponent`, `mcni/python/mcni/DummyComponent.py:17-25`, registered at the origin by
`SimulationChain._enclosure`, `SimulationChain.py:44-51` -/
def dummy (name : String) : Comp W F :=
  { name := name, frame := ⟨0, M3.one⟩, process := fun w buf => .ok (w, buf) }

/-- dictionary assignment `d[k] = v`, as used for the nodes in `SimulationChain.py:61-84` (insertion order kept, existing key overwritten) -/
def dictSet {V : Type} (d : List (String × V)) (k : String) (v : V) : List (String × V) :=
  if d.any (fun x => decide (x.1 = k)) then d.map (fun x => if x.1 = k then (k, v) else x) else d ++ [(k, v)]

/-- The loop of `_create`, `SimulationChain.py:61-84`: nodes by name and connections
(one per pair of neighbours; the three sockets go together). -/
def createLoop (previous : String) : List (Comp W F) → List (String × Comp W F) → List (String × String) →
    List (String × Comp W F) × List (String × String) × String
  | [], nodes, conns => (nodes, conns, previous)
  | c :: cs, nodes, conns =>
    createLoop c.name cs (dictSet nodes c.name c) (conns ++ [(previous, c.name)])

/-- `__init__` with `_enclosure` and `_create`, `SimulationChain.py:22-89` -/
def create (comps : List (Comp W F)) : List (String × Comp W F) × List (String × String) :=
  let all := dummy "dummyBegin" :: (comps ++ [dummy "dummyEnd"])
  let r := createLoop "self" all [] []
  (r.1, r.2.1 ++ [(r.2.2, "self")])

/-- `SimulationNode._update` and its processor, `SimulationNode.py:41-60,63-78`: change to the frame of
the component, drop dead neutrons, process.  Input and output carry the current frame. -/
def nodeUpdate (c : Comp W F) (inp : W × List (Event F) × Frame F) : Except Err (W × List (Event F) × Frame F) :=
  let (w, neutrons, f) := inp
  let neutrons1 := transport f c.frame neutrons
  match Buffer.snapshot neutrons1 neutrons1.length with
  | .error e => .error e
  | .ok neutrons2 =>
    match c.process w neutrons2 with
    | .error e => .error e
    | .ok (w', neutrons3) => .ok (w', neutrons3, c.frame)

/-- The value on the output of a node, pulled through the connections.
The data-flow engine (`danse.ins.dsm.Composite`) is not part of the repository; this is the
meaning of the connections made in `SimulationChain.py:61-89`. -/
def output (nodes : List (String × Comp W F)) (conns : List (String × String))
    (inp : W × List (Event F) × Frame F) : Nat → String → Except Err (W × List (Event F) × Frame F)
  | 0, _ => .error .recursionError
  | fuel + 1, name =>
    if name = "self" then .ok inp
    else match conns.find? (fun x => decide (x.2 = name)) with
      | none => .error .keyError
      | some (up, _) =>
        match output nodes conns inp fuel up with
        | .error e => .error e
        | .ok v => match nodes.find? (fun x => decide (x.1 = name)) with
          | none => .error .keyError
          | some (_, c) => nodeUpdate c v

/-- `AbstractInstrumentSimulator.run`, `AbstractInstrumentSimulator.py:25-48`: set the input
(frame at the origin, `SimulationChain.py:38-39`), get the output of the composite. -/
def simulate (comps : List (Comp W F)) (w : W) (neutrons : List (Event F)) : Except Err (W × List (Event F)) :=
  let cc := create comps
  match cc.2.find? (fun x => decide (x.2 = "self")) with
  | none => .error .keyError
  | some (up, _) =>
    match output cc.1 cc.2 (w, neutrons, ⟨0, M3.one⟩) (cc.1.length + 1) up with
    | .error e => .error e
    | .ok (w', n', _) => .ok (w', n')

end Verif.Chain
