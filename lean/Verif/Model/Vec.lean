import Mathlib.Algebra.Ring.Defs
import Mathlib.Algebra.Group.Basic
/-!
Three-vectors and 3x3 matrices: `packages/mcni/lib/geometry/Vector3.icc`,
`Matrix3.icc`, `matrix3_operators.h`, and the numpy products used by the Python
side.  The number type is any ring (rounding is not modelled).
-/

namespace Verif

/-- `mcni::Vector3<T>`, `mcni/lib/geometry/Vector3.icc:17-52` (also a numpy array
of shape 3). -/
@[ext] structure V3 (F : Type) where
  x : F
  y : F
  z : F
  deriving DecidableEq

namespace V3
variable {F : Type}

/-- `operator+`, `Vector3.icc:102-106` -/
instance [Add F] : Add (V3 F) := ⟨fun a b => ⟨a.x + b.x, a.y + b.y, a.z + b.z⟩⟩
/-- `operator-`, `Vector3.icc:118-122` -/
instance [Sub F] : Sub (V3 F) := ⟨fun a b => ⟨a.x - b.x, a.y - b.y, a.z - b.z⟩⟩
/-- unary `operator-`, `Vector3.icc:134-138` -/
instance [Neg F] : Neg (V3 F) := ⟨fun a => ⟨-a.x, -a.y, -a.z⟩⟩
/-- default constructor, `Vector3.icc:33-38` -/
instance [Zero F] : Zero (V3 F) := ⟨⟨0, 0, 0⟩⟩
/-- `operator*(T n)` and `n * v`, `Vector3.icc:140-144,158-162` -/
instance [Mul F] : SMul F (V3 F) := ⟨fun n a => ⟨n * a.x, n * a.y, n * a.z⟩⟩

/-- `operator|` (dot product), `Vector3.icc:152-156` -/
def dot [Add F] [Mul F] (a b : V3 F) : F := a.x * b.x + a.y * b.y + a.z * b.z

/-- `operator*` (cross product), `Vector3.icc:146-150` -/
def cross [Sub F] [Mul F] (a b : V3 F) : V3 F :=
  ⟨a.y * b.z - a.z * b.y, a.z * b.x - a.x * b.z, a.x * b.y - a.y * b.x⟩

/-- `length2`, `Vector3.icc:69-74`.  The code multiplies absolute values, which is
the same number. -/
def length2 [Add F] [Mul F] (a : V3 F) : F := a.x * a.x + a.y * a.y + a.z * a.z

@[simp] theorem add_x [Add F] (a b : V3 F) : (a + b).x = a.x + b.x := rfl
@[simp] theorem add_y [Add F] (a b : V3 F) : (a + b).y = a.y + b.y := rfl
@[simp] theorem add_z [Add F] (a b : V3 F) : (a + b).z = a.z + b.z := rfl
@[simp] theorem sub_x [Sub F] (a b : V3 F) : (a - b).x = a.x - b.x := rfl
@[simp] theorem sub_y [Sub F] (a b : V3 F) : (a - b).y = a.y - b.y := rfl
@[simp] theorem sub_z [Sub F] (a b : V3 F) : (a - b).z = a.z - b.z := rfl
@[simp] theorem neg_x [Neg F] (a : V3 F) : (-a).x = -a.x := rfl
@[simp] theorem neg_y [Neg F] (a : V3 F) : (-a).y = -a.y := rfl
@[simp] theorem neg_z [Neg F] (a : V3 F) : (-a).z = -a.z := rfl
@[simp] theorem zero_x [Zero F] : (0 : V3 F).x = 0 := rfl
@[simp] theorem zero_y [Zero F] : (0 : V3 F).y = 0 := rfl
@[simp] theorem zero_z [Zero F] : (0 : V3 F).z = 0 := rfl
@[simp] theorem smul_x [Mul F] (n : F) (a : V3 F) : (n • a).x = n * a.x := rfl
@[simp] theorem smul_y [Mul F] (n : F) (a : V3 F) : (n • a).y = n * a.y := rfl
@[simp] theorem smul_z [Mul F] (n : F) (a : V3 F) : (n • a).z = n * a.z := rfl

end V3

/-- `mcni::Matrix3<T>`: a vector of three row vectors, `mcni/lib/geometry/Matrix3.icc:29-66`
(also a numpy array of shape (3,3)). -/
@[ext] structure M3 (F : Type) where
  r0 : V3 F
  r1 : V3 F
  r2 : V3 F
  deriving DecidableEq

namespace M3
variable {F : Type}

/-- matrix times vector, `matrix3_operators.h:20-28` (`dot_mv`), numpy `dot(m, v)` -/
def mulVec [Add F] [Mul F] (m : M3 F) (v : V3 F) : V3 F :=
  ⟨m.r0.x * v.x + m.r0.y * v.y + m.r0.z * v.z,
   m.r1.x * v.x + m.r1.y * v.y + m.r1.z * v.z,
   m.r2.x * v.x + m.r2.y * v.y + m.r2.z * v.z⟩

/-- `transpose`, `Matrix3.icc:97-107`; numpy `.T` -/
def transpose (m : M3 F) : M3 F :=
  ⟨⟨m.r0.x, m.r1.x, m.r2.x⟩, ⟨m.r0.y, m.r1.y, m.r2.y⟩, ⟨m.r0.z, m.r1.z, m.r2.z⟩⟩

/-- numpy `mat(a) * mat(b)`, used in `neutron_coordinates_transformers/mcstas.py:12` and
`coordinate_system_transformers/mcstas.py:30` -/
def mul [Add F] [Mul F] (a b : M3 F) : M3 F :=
  transpose ⟨a.mulVec b.transpose.r0, a.mulVec b.transpose.r1, a.mulVec b.transpose.r2⟩

/-- the identity matrix, `mcni/python/mcni/Geometer2.py:23-25` -/
def one [Zero F] [One F] : M3 F := ⟨⟨1, 0, 0⟩, ⟨0, 1, 0⟩, ⟨0, 0, 1⟩⟩

/-- determinant (vocabulary for specifications about the matrices of `Geometer2.py:23-25`; the code never computes it) -/
def det [Sub F] [Add F] [Mul F] (m : M3 F) : F := V3.dot m.r0 (V3.cross m.r1 m.r2)

end M3

/-- `mcni::Neutron::Event`, `mcni/lib/neutron/Event.h:54-79`: position, velocity,
spin (two numbers), time, probability. -/
@[ext] structure Event (F : Type) where
  r : V3 F
  v : V3 F
  s1 : F
  s2 : F
  t : F
  p : F
  deriving DecidableEq

end Verif
