import Verif.Model.Buffer
import Verif.Model.Frames
/-!
Groups of components that get the same neutrons: `packages/mcni/python/mcni/components/ComponentGroup.py`.
-/

namespace Verif.Group
variable {F : Type}

/-- the buffers of neutrons in memory: Python names refer to buffers, so that two names may share one
(`ComponentGroup.py:52-71`); the number of the next new buffer, and the contents -/
structure Heap (F : Type) where
  next : Nat
  get : Nat → List (Event F)

/-- a new buffer, made by `snapshot` (`ComponentGroup.py:57`, `NeutronEventBuffer::snapshot`) -/
def Heap.alloc (h : Heap F) (buf : List (Event F)) : Nat × Heap F :=
  (h.next, ⟨h.next + 1, fun r => if r = h.next then buf else h.get r⟩)

/-- changing a buffer in place (`ComponentGroup.py:62-64`) -/
def Heap.set (h : Heap F) (r : Nat) (buf : List (Event F)) : Heap F := ⟨h.next, fun r' => if r' = r then buf else h.get r'⟩

/-- a member of a group: its frame in the group (`ComponentGroup.py:60-61`), and what `process` does (`ComponentGroup.py:69`).
`process` gets a buffer and can change everything in memory, and the state `S` that the members may share; it may raise an
exception. -/
structure Member (F S : Type) where
  frame : Frames.Frame F
  process : S → Heap F → Nat → Except Err (S × Heap F)

/-- the frame of the group itself, `ComponentGroup.py:63` -/
def origin [Ring F] : Frames.Frame F := ⟨⟨0, 0, 0⟩, ⟨⟨1, 0, 0⟩, ⟨0, 1, 0⟩, ⟨0, 0, 1⟩⟩⟩

variable {S : Type} [Field F] [LinearOrder F]

/-- the loop of `ComponentGroup.process`, `ComponentGroup.py:55-70`.  The last part of the result is not in the code: it is what
each member finds in its buffer when it is called. -/
def loop (n input : Nat) : List (Member F S) → S → Heap F → Except Err (S × Heap F × List (List (Event F)))
  | [], s, h => .ok (s, h, [])
  | c :: cs, s, h => do
    let buf ← Buffer.snapshot (h.get input) n
    let (copy, h) := h.alloc buf
    let h := h.set copy (Frames.transport origin c.frame (h.get copy))
    let got := h.get copy
    let (s, h) ← c.process s h copy
    let (s, h, gots) ← loop n input cs s h
    .ok (s, h, got :: gots)

/-- `ComponentGroup.process`, `ComponentGroup.py:52-71`: the buffer returned is the one given -/
def process (cs : List (Member F S)) (s : S) (h : Heap F) (input : Nat) :
    Except Err (Nat × S × Heap F × List (List (Event F))) := do
  let (s, h, gots) ← loop (h.get input).length input cs s h
  .ok (input, s, h, gots)

end Verif.Group
