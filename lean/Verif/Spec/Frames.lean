import Verif.Model.Vec
import Mathlib.Algebra.Field.Defs
import Mathlib.Algebra.Order.Ring.Abs
/-!
Specification vocabulary for frames (written with plain coordinates).
-/

namespace Verif.Frames
variable {F : Type}

/-- The rows of `m` are orthonormal. -/
def IsOrtho [CommRing F] (m : M3 F) : Prop :=
  (V3.dot m.r0 m.r0 = 1 ∧ V3.dot m.r1 m.r1 = 1 ∧ V3.dot m.r2 m.r2 = 1) ∧
  V3.dot m.r0 m.r1 = 0 ∧ V3.dot m.r0 m.r2 = 0 ∧ V3.dot m.r1 m.r2 = 0

/-- Proper rotation: orthonormal rows and determinant one. -/
def IsRotation [CommRing F] (m : M3 F) : Prop := IsOrtho m ∧ M3.det m = 1

/-- The instrument-frame vector whose coordinates in a frame with axes
`m.r0, m.r1, m.r2` are `v`: the linear combination of the axes. -/
def labVec [CommRing F] (m : M3 F) (v : V3 F) : V3 F :=
  v.x • m.r0 + v.y • m.r1 + v.z • m.r2

/-- The instrument-frame point with coordinates `r` in the frame at `pos` with axes `m`. -/
def labPos [CommRing F] (pos : V3 F) (m : M3 F) (r : V3 F) : V3 F := pos + labVec m r

/-- all components at most `10⁻⁸` in size -/
def NearlyZero [Field F] [LinearOrder F] (v : V3 F) : Prop :=
  |v.x| ≤ 1 / 10 ^ 8 ∧ |v.y| ≤ 1 / 10 ^ 8 ∧ |v.z| ≤ 1 / 10 ^ 8

/-- all entries within `10⁻⁸` of the identity matrix -/
def NearlyOne [Field F] [LinearOrder F] (m : M3 F) : Prop :=
  NearlyZero ⟨m.r0.x - 1, m.r0.y, m.r0.z⟩ ∧ NearlyZero ⟨m.r1.x, m.r1.y - 1, m.r1.z⟩ ∧
  NearlyZero ⟨m.r2.x, m.r2.y, m.r2.z - 1⟩

/-- A displacement and rotation which are trivial if they are nearly trivial. -/
def Sharp [Field F] [LinearOrder F] (d : V3 F) (m : M3 F) : Prop :=
  (NearlyOne m → m = ⟨⟨1, 0, 0⟩, ⟨0, 1, 0⟩, ⟨0, 0, 1⟩⟩) ∧ (NearlyZero d → d = ⟨0, 0, 0⟩)

/-- sum of the sizes of the components -/
def norm1 [Field F] [LinearOrder F] (v : V3 F) : F := |v.x| + |v.y| + |v.z|

/-- every component of `a` is within `e` of that of `b` -/
def Within [Field F] [LinearOrder F] (e : F) (a b : V3 F) : Prop :=
  |a.x - b.x| ≤ e ∧ |a.y - b.y| ≤ e ∧ |a.z - b.z| ≤ e

end Verif.Frames
