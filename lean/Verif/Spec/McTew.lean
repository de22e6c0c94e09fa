import Verif.Model.McTew
import Verif.Spec.McMonitors
/-!
Specification for the monitor of position and time, energy or wavelength.
-/

namespace Verif.McTew
open McStas McMon Flight
noncomputable section
open Classical

/-- the flight enters the box at the time `s` -/
def Entry (e : Event ℝ) (d : V3 ℝ) (s : ℝ) : Prop := InBox e.r e.v d s ∧ ∀ s', InBox e.r e.v d s' → s ≤ s'

/-- `x` is in channel `i`; the last one includes its upper limit -/
def InCell (lo hi : ℝ) (n i : Nat) (x : ℝ) : Prop := InBin lo hi n i x ∨ (i + 1 = n ∧ x = hi)

/-- the neutron comes from outside: what it flies through the box is ahead of it, and it meets no edge -/
def Ahead (e : Event ℝ) (d : V3 ℝ) : Prop := e.v ≠ 0 ∧ NoEdge e.r e.v d ∧ ∀ s, InBox e.r e.v d s → 0 ≤ s

/-- what a monitor with this keyword shows, if it does not depend on the place; for the time of flight: the time, in milliseconds, when the neutron
arrives from the component before -/
def Shows (V2K VS2E : ℝ) (type : String) (Q : Event ℝ → ℝ) : Prop :=
  (type = "time" ∧ Q = fun e => 1000 * e.t) ∨ (type = "energy" ∧ Q = energy VS2E) ∨ (type = "wavelength" ∧ Q = wavelength V2K)

/-- the sum of the squared deviations of weights from their mean -/
def spread (ws : List ℝ) : ℝ := (ws.map fun w => (w - ws.sum / ws.length) ^ 2).sum

end
end Verif.McTew
