import Verif.Spec.Flight
import Verif.Spec.Homog
/-!
Specification of a gas that absorbs with a cross section inversely proportional to the speed, and
of a pixel that detects at a given time.
-/

namespace Verif.ResPixel
open Solid Flight
noncomputable section

/-- the inverse length over which a gas of the number density `n` absorbs, for the cross section
`xs0` at the speed `v0` -/
def oneOverV (n xs0 v0 v : ℝ) : ℝ := n * xs0 * (v0 / v)

/-- the neutron `a` at which the passage begins -/
def Enters (tol par : ℝ) (s : Shape) (ev a : Ev) : Prop :=
  ∃ l, locate tol s ev.r = .ok l ∧
    ((l = .inside ∧ a = ev) ∨ (l ≠ .inside ∧ toIncident tol par s ev = .ok a))

/-- the neutron enters the shape as `a` and leaves it as `b`, after the time `τ` -/
structure Passage (ev a b : Ev) (τ : ℝ) : Prop where
  first : ∃ t, 0 ≤ t ∧ FliesFor ev a t
  second : FliesFor a b τ
  forward : 0 ≤ τ

end
end Verif.ResPixel
