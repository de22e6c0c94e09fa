import Verif.Model.PyBuf
/-!
What is meant by the properties of buffers of neutrons in python (C352-C354).
-/

namespace Verif.PyBuf.Spec

variable {E F : Type}

/-- what an argument says about an index: nothing means `d`, otherwise it is the number -/
inductive Means (d : Nat) : Arg → Nat → Prop
  | none : Means d .none d
  | int (n : Nat) : Means d (.int n) n

/-- the buffer `self` has got the elements `i`, ..., `j - 1` of the buffer `src`, and nothing else has changed -/
structure Appended (h h' : Heap E) (self src i j : Nat) : Prop where
  len : (h' self).data.length = (h self).data.length + (j - i)
  old : ∀ k < (h self).data.length, (h' self).data[k]? = (h self).data[k]?
  new : ∀ k < j - i, (h' self).data[(h self).data.length + k]? = (h src).data[i + k]?
  others : ∀ k, k ≠ self → h' k = h k

/-- the number of neutrons of an array, and the entry of an array in a row and a column as numpy shows it -/
def rowsOf : Shape → Nat
  | .flat n => n / 10
  | .rows n _ => n

/-- the distance between the rows of an array, in entries -/
def strideOf : Shape → Int
  | .flat _ => 10
  | .rows _ s => s

/-- the entry of an array in a row and a column as numpy shows it -/
def entry (arr : Arr F) (r : Nat) (c : Nat) : Option F := arr.mem (strideOf arr.shape * r + c)

/-- the event `e` has the values of the row `r` -/
structure IsRow (arr : Arr F) (r : Nat) (e : Event F) : Prop where
  x : entry arr r 0 = some e.r.x
  y : entry arr r 1 = some e.r.y
  z : entry arr r 2 = some e.r.z
  vx : entry arr r 3 = some e.v.x
  vy : entry arr r 4 = some e.v.y
  vz : entry arr r 5 = some e.v.z
  s1 : entry arr r 6 = some e.s1
  s2 : entry arr r 7 = some e.s2
  t : entry arr r 8 = some e.t
  p : entry arr r 9 = some e.p

/-- an array whose entries all exist -/
def Whole (arr : Arr F) : Prop := ∀ r < rowsOf arr.shape, ∀ c < 10, (entry arr r c).isSome

/-- the neutrons are those of the array -/
def Holds (arr : Arr F) (l : List (Event F)) : Prop :=
  l.length = rowsOf arr.shape ∧ ∀ r (h : r < l.length), IsRow arr r l[r]

end Verif.PyBuf.Spec
