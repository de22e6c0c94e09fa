import Verif.Model.CKernel
import Verif.Spec.Homog
/-!
Specification vocabulary for the composite kernel.
-/

namespace Verif.CKernel
open Flight Homog
noncomputable section

variable {S : Type}

/-- a method of a kernel whose answer does not depend on the statistical weight of the neutron: a
neutron of `c` times the probability gives the same outcome with `c` times the probability -/
def WeightLinear (f : S → Ev → Except Err (S × Ev)) : Prop :=
  ∀ s ev c, f s { ev with p := c * ev.p } =
    (f s ev).map fun o => (o.1, { o.2 with p := c * o.2.p })

/-- what is expected of a kernel (`AbstractScatteringKernel.h:41-57`): the factor applied to the
probability by `scatter` is the scattering coefficient, which depends on the velocity only -/
def Honest (k : Kern S) : Prop :=
  (∀ s ev, ∃ s' ev', k.scatter s ev = .ok (s', ev') ∧ ev'.p = ev.p * k.sigma ev) ∧
  ∀ ev ev', ev.v = ev'.v → k.sigma ev = k.sigma ev'

/-- the weighted value of an observable for the outcome of an interaction -/
def value (G : Obs) (x : Except Err (S × Ev)) : ℝ := score x fun o => o.2.p * G o.2.r o.2.v o.2.t

/-- the outcome when the neutron interacts with one kernel only, in the frame of which the axes are
the columns of `m` -/
def alone (f : Kern S → S → Ev → Except Err (S × Ev)) (k : Kern S) (m : M3 ℝ) (s : S) (ev : Ev) :
    Except Err (S × Ev) :=
  (f k s { ev with v := m.transpose.mulVec ev.v }).map
    fun o => (o.1, { o.2 with v := m.mulVec o.2.v })

/-- how often the random number selects the `i`-th kernel -/
def frequency (c : CK S) (i : Nat) : ℝ := mean fun x => if c.select x = i then 1 else 0

end
end Verif.CKernel
