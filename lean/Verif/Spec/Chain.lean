import Verif.Model.Chain
/-!
What simulating an instrument means: one component after the other.
-/

namespace Verif.Chain
open Verif.Frames
variable {W F : Type} [Field F] [LinearOrder F]

/-- the neutrons with positive probability, in order -/
def live (buf : List (Event F)) : List (Event F) := buf.filter (fun e => decide (0 < e.p))

/-- Send neutrons, given in frame `f`, through the components in order and then to
the frame `last`: before each component they are expressed in its frame and the dead ones dropped. -/
def through (last : Frame F) : Frame F → List (Comp W F) → W → List (Event F) → Except Err (W × List (Event F))
  | f, [], w, buf => .ok (w, live (transport f last buf))
  | f, c :: cs, w, buf =>
    match c.process w (live (transport f c.frame buf)) with
    | .error e => .error e
    | .ok (w', buf') => through last c.frame cs w' buf'

/-- the instrument frame -/
def lab : Frame F := ⟨⟨0, 0, 0⟩, ⟨⟨1, 0, 0⟩, ⟨0, 1, 0⟩, ⟨0, 0, 1⟩⟩⟩

end Verif.Chain
