import Verif.Model.Group
/-!
Specification of groups of components.
-/

namespace Verif.Group
variable {F S : Type}

/-- a member that does not get hold of the buffer `input` by other ways than its argument, and does not free buffers -/
def Discreet (input : Nat) (c : Member F S) : Prop :=
  ∀ s h r s' h', r ≠ input → c.process s h r = .ok (s', h') → h'.get input = h.get input ∧ h.next ≤ h'.next

end Verif.Group
