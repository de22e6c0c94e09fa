/-! Specification of batch division. -/

namespace Verif.Run

/-- `l` is a division of `ncount` neutrons in batches: iteration numbers
`0,1,2,…`, every batch non-empty and at most `b` neutrons, sizes add up. -/
def IsBatching (ncount b : Nat) (l : List (Nat × Nat)) : Prop :=
  (∀ k, (l[k]?).map Prod.fst = if k < l.length then some k else none) ∧
  (∀ x ∈ l, 0 < x.2 ∧ x.2 ≤ b) ∧ (l.map Prod.snd).sum = ncount

end Verif.Run
