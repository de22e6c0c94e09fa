import Verif.Model.Detector
/-!
What event mode detectors should record.
-/

namespace Verif.Detector

/-- position of an index tuple in row-major order -/
def rowMajor : List Nat → List Nat → Nat
  | c :: cs, _ :: ds => c * ds.prod + rowMajor cs ds
  | _, _ => 0

/-- every index is below its dimension -/
def InRange (cs dims : List Nat) : Prop := List.Forall₂ (· < ·) cs dims

/-- containers met when going from an element, at some level, down through its elements -/
inductive Occurs : Elem → Nat → Elem → Prop
  | self (e) : Occurs e 0 e
  | inside {t es e e' l} : e ∈ es → Occurs e l e' → Occurs (.container t es) (l + 1) e'

/-- the elements at the end of a path of indexes, copies being replaced by what they refer to -/
inductive Located : Elem → List Nat → List Elem → Prop
  | here (t es) : Located (.container t es) [] es
  | step {t es i c path es'} : es[i]? = some c → Located c path es' → Located (.container t es) (i :: path) es'
  | copy {t r path es} : Located r path es → Located (.copy t r) path es

/-- every copy refers to an element which is itself in the system, at the same level -/
def CopiesInside (system : Elem) : Prop :=
  ∀ l t r, Occurs system l (.copy t r) → Occurs system l r

end Verif.Detector
