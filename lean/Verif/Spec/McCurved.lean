import Verif.Model.McCurved
import Verif.Spec.McGuide
/-!
Specification for the curved monochromator of McStas.
-/

namespace Verif.McCurved
open McStas Kinem Flight Solid McGuide
noncomputable section
open Classical

/-- the centre of the slab in column `col` and row `row` of `nh` by `nv` slabs, at equal distances around the origin in the plane `x = 0` -/
def place (c : Curved) (nh nv col row : ℕ) : V3 ℝ :=
  ⟨0, (row - (nv + 1) / 2) * (c.H + c.gap), (col - (nh + 1) / 2) * (c.W + c.gap)⟩

/-- the normal of a slab that is turned by `h` and `v` -/
def normal (h v : ℝ) : V3 ℝ := ⟨Real.cos h * Real.cos v, Real.sin v, -(Real.sin h * Real.cos v)⟩
/-- the upward side of a slab that is turned by `h` and `v` -/
def upward (h v : ℝ) : V3 ℝ := ⟨-(Real.cos h * Real.sin v), Real.cos v, Real.sin h * Real.sin v⟩
/-- the horizontal side of a slab that is turned by `h` and `v` -/
def along (h v : ℝ) : V3 ℝ := ⟨Real.sin h, 0, Real.cos h⟩

/-- the components of a vector for a slab that is turned by `h` and `v` -/
def inSlab (h v : ℝ) (w : V3 ℝ) : V3 ℝ := ⟨w.dot (normal h v), w.dot (upward h v), w.dot (along h v)⟩

/-- the slab at `a` is turned so that its normal meets the horizontal plane at the distance `RV` and, seen from above, the beam at the
distance `RH`; it is not turned for a radius of 0 -/
def Focused (c : Curved) (a : V3 ℝ) (h v : ℝ) : Prop :=
  (|h| ≤ Real.pi / 2 ∧ if c.RH = 0 then h = 0 else c.RH * Real.sin h = a.z) ∧
  (|v| ≤ Real.pi / 2 ∧ if c.RV = 0 then v = 0 else a.y + c.RV * Real.sin v = 0)

/-- the point is on the slab at `a` -/
def OnSlab (c : Curved) (a : V3 ℝ) (h v : ℝ) (r : V3 ℝ) : Prop :=
  (r - a).dot (normal h v) = 0 ∧ |(r - a).dot (along h v)| ≤ c.W / 2 ∧ |(r - a).dot (upward h v)| ≤ c.H / 2

/-- a value of a table times a factor, in the range from 0 to 1 (the code takes 0.999 for values above 1) -/
def capped (x : ℝ) : ℝ := if 1 < x then 0.999 else max x 0

/-- a table or the constant 1 -/
def tabled (f : Option (ℝ → ℝ)) (k : ℝ) : ℝ := f.elim 1 (· k)

/-- the reflectivity for the wave vector `k`, in the order `n`, of a slab that is turned by `h` and `v` -/
def slabR (c : Curved) (h v : ℝ) (k : V3 ℝ) (n : ℕ) : ℝ :=
  mosaicR (capped (c.r0 * tabled c.rTable (length k))) c.rmsY c.rmsZ (misset c.Q (inSlab h v k) n) (inSlab h v k)

/-- the neutron `e` is scattered elastically after the time `s`, with the scattering vector of length `n Q` -/
def BraggAt (Q : ℝ) (n : ℕ) (e r : Event ℝ) (s : ℝ) : Prop :=
  ∃ q, r = { flown Off e s with v := r.v } ∧ r.v = K2V • (V2K • e.v + q) ∧ length q = n * Q ∧ length (V2K • e.v + q) = length (V2K • e.v)

/-- the neutron passes through the slab: the result and the factor of the weight; it is absorbed if nothing is transmitted -/
def Passes (c : Curved) (e : Event ℝ) (s : ℝ) (res : Event ℝ × Option ℝ) : Prop :=
  let T := capped (c.t0 * tabled c.tTable (length (V2K • e.v)))
  (0 < T → res = (flown Off e s, some T)) ∧ (T = 0 → res.1.p = -1 ∧ res.2 = some 1)

end
end Verif.McCurved
