/-!
Specifications for the neutron storage, independent of the model.
-/

namespace Verif.Spec

/-- Everything a history of calls hands to the storage, in call order, where
each call is described by the neutrons it carries (empty for calls that carry
none). -/
def written {α} (batches : List (List α)) : List α := batches.flatten

/-- `n` consecutive records starting with number `p`, going around the end of
the file: the `k`-th is record `(p+k) mod N`. -/
def IsCyclicWindow {α} (file : List α) (p n : Nat) (out : List α) : Prop :=
  out.length = n ∧ ∀ k, k < n → out[k]? = file[(p + k) % file.length]?

end Verif.Spec
