import Verif.Model.Composite
import Verif.Spec.Flight
/-!
Specification vocabulary for composite scatterers.
-/

namespace Verif.Composite
open Solid Flight Homog

variable {S : Type}

/-- the sum of the probabilities -/
def total (l : List Ev) : ℝ := (l.map (·.p)).sum

/-- the path of the neutron goes through the interior of the shape -/
def Traverses (s : Shape) (ev : Ev) : Prop := ∃ t, 0 ≤ t ∧ Interior (Mem s) (at' ev.r ev.v t)

/-- each interaction multiplies the intensity by at most `κ`, and attenuation is a number between 0
and 1 -/
structure Gain (κ : ℝ) (e : Elem S) : Prop where
  interactM : ∀ s ev s' new i, 0 ≤ ev.p → e.interactM s ev = .ok (s', new, i) →
    (∀ n ∈ new, 0 ≤ n.p) ∧ total new ≤ κ * ev.p
  atten : ∀ ev q a, e.atten ev q = .ok a → 0 ≤ a ∧ a ≤ 1

/-- an interaction in the single mode never increases the probability -/
structure Lossy (e : Elem S) : Prop where
  interact1 : ∀ s ev s' ev' i, 0 ≤ ev.p → e.interact1 s ev = .ok (s', ev', i) → i ≠ .absorption →
    0 ≤ ev'.p ∧ ev'.p ≤ ev.p
  atten : ∀ ev q a, e.atten ev q = .ok a → 0 ≤ a ∧ a ≤ 1

/-- the constituent is called only for good reasons: whenever it is called with a neutron that is
not below the threshold and whose path, in the frame of the constituent, goes through its interior,
the property `I` of the state is kept -/
def KeptByCalls (minP : ℝ) (I : S → Prop) (e : Elem S) : Prop :=
  ∀ s ev s' new i, I s → ¬ (0 ≤ ev.p ∧ ev.p < minP) → Traverses e.shape ev →
    e.interactM s ev = .ok (s', new, i) → I s'

/-- the same for the single mode -/
def KeptByCalls1 (I : S → Prop) (e : Elem S) : Prop :=
  ∀ s ev s' ev' i, I s → Traverses e.shape ev → e.interact1 s ev = .ok (s', ev', i) → I s'

end Verif.Composite
