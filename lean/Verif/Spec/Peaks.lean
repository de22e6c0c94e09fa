import Verif.Model.Peaks
import Mathlib.Algebra.BigOperators.Group.Finset.Basic
import Mathlib.Order.Interval.Finset.Defs
import Mathlib.Data.Int.Interval
/-!
Specification of lists of reflections.
-/

namespace Verif.Peaks
noncomputable section

/-- `recbase` is the inverse of `base` -/
structure Lat.Valid (L : Lat) : Prop where
  left : L.recbase.mul L.base = M3.one
  right : L.base.mul L.recbase = M3.one

/-- the three vectors `b` are reciprocal to the three vectors `a` -/
def Reciprocal (a b : M3 ℝ) : Prop :=
  (V3.dot a.r0 b.r0 = 1 ∧ V3.dot a.r0 b.r1 = 0 ∧ V3.dot a.r0 b.r2 = 0) ∧
  (V3.dot a.r1 b.r0 = 0 ∧ V3.dot a.r1 b.r1 = 1 ∧ V3.dot a.r1 b.r2 = 0) ∧
  (V3.dot a.r2 b.r0 = 0 ∧ V3.dot a.r2 b.r1 = 0 ∧ V3.dot a.r2 b.r2 = 1)

/-- basis vectors as `diffpy` makes them from lengths and angles: the third along z, the second in the plane of y and z -/
def Standard (a : M3 ℝ) : Prop := a.r1.x = 0 ∧ a.r2.x = 0 ∧ a.r2.y = 0

/-- basis vectors along the axes -/
def Orthogonal (a : M3 ℝ) : Prop := a.r0.y = 0 ∧ a.r0.z = 0 ∧ a.r1.x = 0 ∧ a.r1.z = 0 ∧ a.r2.x = 0 ∧ a.r2.y = 0

/-- the point with coordinates `u` in fractions of the basis vectors -/
def point (a : M3 ℝ) (u : V3 ℝ) : V3 ℝ := u.x • a.r0 + u.y • a.r1 + u.z • a.r2

/-- a matrix of integers as one of numbers -/
def mat (R : M3 ℤ) : M3 ℝ := ⟨vec R.r0, vec R.r1, vec R.r2⟩

/-- the linear map `R` in fractional coordinates does not change lengths -/
def LatticeSymmetry (L : Lat) (R : M3 ℤ) : Prop :=
  ∀ u, V3.length2 (point L.base ((mat R).mulVec u)) = V3.length2 (point L.base u)

/-- the atoms are mapped to each other, up to lattice vectors, by `R` and a translation -/
def StructureSymmetry (atoms : List Atom) (R : M3 ℤ) : Prop :=
  ∃ (t : V3 ℝ) (atoms' : List Atom), atoms'.Perm atoms ∧ List.Forall₂ (fun a a' : Atom => a'.o = a.o ∧ a'.b = a.b ∧ a'.B = a.B ∧
    ∃ n : V3 ℤ, a'.xyz = (mat R).mulVec a.xyz + t + vec n) atoms atoms'

/-- a finite group of matrices -/
structure IsGroup (ops : List (M3 ℤ)) : Prop where
  one : M3.one ∈ ops
  mul : ∀ a ∈ ops, ∀ b ∈ ops, a.mul b ∈ ops
  inv : ∀ a ∈ ops, ∃ b ∈ ops, b.mul a = M3.one

/-- rotations and reflections of the cube: the inverse is the transposed matrix -/
def Cubic (R : M3 ℤ) : Prop := R.transpose.mul R = M3.one

/-- the reflections at the three planes -/
def Mirrors (ops : List (M3 ℤ)) : Prop :=
  (⟨⟨-1, 0, 0⟩, ⟨0, 1, 0⟩, ⟨0, 0, 1⟩⟩ : M3 ℤ) ∈ ops ∧ (⟨⟨1, 0, 0⟩, ⟨0, -1, 0⟩, ⟨0, 0, 1⟩⟩ : M3 ℤ) ∈ ops ∧
    (⟨⟨1, 0, 0⟩, ⟨0, 1, 0⟩, ⟨0, 0, -1⟩⟩ : M3 ℤ) ∈ ops

/-- the sum over all reflections with indexes up to `N` in size -/
def total (N : ℕ) (w : HKL → ℝ) : ℝ :=
  ∑ h ∈ Finset.Icc (-N : ℤ) N, ∑ k ∈ Finset.Icc (-N : ℤ) N, ∑ l ∈ Finset.Icc (-N : ℤ) N,
    if h = 0 ∧ k = 0 ∧ l = 0 then 0 else w ⟨h, k, l⟩

end

end Verif.Peaks
