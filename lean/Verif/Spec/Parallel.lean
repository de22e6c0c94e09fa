import Verif.Model.Parallel
/-!
What synchronization means, for any list of operations and any way of taking steps.
-/

namespace Verif.Parallel.Spec
open Verif.Parallel
variable {α : Type}

/-- states that can be reached -/
def Reach (step : State α → State α → Prop) (prog : Nat → List (Op α)) (s : State α) : Prop :=
  Relation.ReflTransGen step (start prog) s

/-- node `r` has performed the action -/
def Did (s : State α) (r : Nat) (a : α) : Prop := Op.act a ∈ s.done r

/-- node `r` has finished its list of operations -/
def Finished (s : State α) (r : Nat) : Prop := s.todo r = []

/-- whenever a node has left the `k`-th barrier all `n` nodes have entered it -/
def Barrier (step : State Mark → State Mark → Prop) (n : Nat) (prog : Nat → List (Op Mark)) : Prop :=
  ∀ s, Reach step prog s → ∀ k, ∀ r < n, ∀ q < n, Did s r (.leave k) → Did s q (.enter k)

/-- whenever `b` has been done by node `r`, node `q` had done `a` -/
def After (step : State α → State α → Prop) (prog : Nat → List (Op α)) (r : Nat) (b : α) (q : Nat) (a : α) : Prop :=
  ∀ s, Reach step prog s → Did s r b → Did s q a

/-- no node is stuck: while one of the `n` nodes has not finished, a step is possible -/
def Live (step : State α → State α → Prop) (n : Nat) (prog : Nat → List (Op α)) : Prop :=
  ∀ s, Reach step prog s → (∃ r < n, ¬ Finished s r) → ∃ s', step s s'

/-- `k` steps in a row -/
inductive Run (step : State α → State α → Prop) : Nat → State α → State α → Prop
  | nil (s : State α) : Run step 0 s s
  | cons {k : Nat} {s u v : State α} (h : step s u) (hr : Run step k u v) : Run step (k + 1) s v

/-- the programs of `n` nodes; there are no others -/
def nodes (n : Nat) (f : Nat → List (Op α)) (r : Nat) : List (Op α) := if r < n then f r else []

end Verif.Parallel.Spec
