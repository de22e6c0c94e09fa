import Verif.Model.McCrystal
import Verif.Spec.Sampling
import Verif.Spec.Bragg
/-!
Specification for the single crystal of McStas.
-/

namespace Verif.McCrystal
open McStas
noncomputable section

/-- three edges have the given lengths and angles (degrees): `aa` between b and c, `bb` between a and c, `cc` between a and b -/
structure HasShape (a b c : V3 ℝ) (la lb lc aa bb cc : ℝ) : Prop where
  hla : a.dot a = la ^ 2
  hlb : b.dot b = lb ^ 2
  hlc : c.dot c = lc ^ 2
  haa : b.dot c = lb * lc * Real.cos (aa * (Real.pi / 180))
  hbb : a.dot c = la * lc * Real.cos (bb * (Real.pi / 180))
  hcc : a.dot b = la * lb * Real.cos (cc * (Real.pi / 180))

/-- the reciprocal lattice of three edges -/
structure IsRecip (a b c ra rb rc : V3 ℝ) : Prop where
  aa : a.dot ra = 2 * Real.pi
  ab : a.dot rb = 0
  ac : a.dot rc = 0
  ba : b.dot ra = 0
  bb : b.dot rb = 2 * Real.pi
  bc : b.dot rc = 0
  ca : c.dot ra = 0
  cb : c.dot rb = 0
  cc : c.dot rc = 2 * Real.pi

/-- full width at half maximum of an angle in minutes to the standard deviation in radians -/
def radians (x : ℝ) : ℝ := FWHM2RMS * (Real.pi / 10800) * x

/-- exponent (twice) of the normal distribution of the rotation `w` of a mosaic block, for the widths around the axes -/
def blockForm (m : Mosaic) (w : V3 ℝ) : ℝ := (w.x / radians m.n) ^ 2 + (w.y / radians m.h) ^ 2 + (w.z / radians m.v) ^ 2

/-- the form of two vectors that belongs to `blockForm` -/
def blockBi (m : Mosaic) (x y : V3 ℝ) : ℝ := x.x * y.x / radians m.n ^ 2 + x.y * y.y / radians m.h ^ 2 + x.z * y.z / radians m.v ^ 2

/-- how a neutron that leaves counts for an observable of it; a neutron that goes on counts in the same way.  Absorbed neutrons do not count. -/
def weighT (f : Event ℝ → ℝ) (o : Except Err Turn) : ℝ := match o with
  | .ok (.left e) => if e.p = -1 then 0 else e.p * f { e with p := 1 }
  | .ok (.again e) => if e.p = -1 then 0 else e.p * f { e with p := 1 }
  | .error _ => 0

/-- the same for a neutron -/
def weighE (f : Event ℝ → ℝ) (o : Except Err (Event ℝ)) : ℝ := match o with
  | .ok e => if e.p = -1 then 0 else e.p * f { e with p := 1 }
  | .error _ => 0

/-- a neutron that goes on into a direction which is the same for all directions of its velocity, with its weight -/
def evenly (f : Event ℝ → ℝ) (e : Event ℝ) (i1 i2 : ℝ) : ℝ :=
  Sampling.observe (fun r => e.p * f { e with v := r.1, p := 1 }) (targetCircle e.v 0 i1 i2)

end
end Verif.McCrystal
