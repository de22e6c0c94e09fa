import Verif.Model.IdfPhonon
/-!
Specification of files of phonon data.
-/

namespace Verif.IdfPhonon

/-- a comment that has a chance to survive: ascii, not too long, and without zeros at the ends -/
structure Plain (comment : List Nat) : Prop where
  ascii : ∀ c ∈ comment, c < 128
  short : comment.length ≤ 1024
  head : comment.head? ≠ some 0
  last : comment.getLast? ≠ some 0

/-- numbers that are stored exactly -/
def Stored {α : Type} (c : Codec α) (x : α) : Prop := c.dec (c.enc x) = x

/-- an array of the given shape -/
structure Has {α : Type} (a : Arr α) (shape : List Nat) : Prop where
  form : a.shape = shape
  size : a.data.length = shape.foldl (· * ·) 1
  small : ∀ n ∈ shape, n < 2 ^ 31

end Verif.IdfPhonon
