import Verif.Model.NdAxes
/-!
What the quantities of a monitor mean, in SI units; written without the
conversion factors of the code.
-/

namespace Verif.NdAxes.Spec
open Verif.NdAxes

/-- the speed of a neutron -/
noncomputable def speed (n : Event ℝ) : ℝ := Real.sqrt (n.v.x ^ 2 + n.v.y ^ 2 + n.v.z ^ 2)

/-- the documented quantities: name, unit and the relation between the neutron and the value -/
noncomputable def documented (k : Consts) (n : Event ℝ) : List (String × String × (ℝ → Prop)) :=
  [-- kinetic energy: value·10⁻³·e joule are m v²/2
   ("energy", "meV", fun v => v * 1e-3 * k.e = k.mN * speed n ^ 2 / 2),
   -- wavelength: de Broglie, m v λ = h = 2πħ
   ("w", "angstrom", fun v => k.mN * speed n * (v * 1e-10) = 2 * Real.pi * k.hbar),
   -- wave vector: ħ k = m v
   ("q", "angstrom**-1", fun v => k.hbar * (v * 1e10) = k.mN * speed n),
   -- divergence: tangent of the angle with the beam
   ("divx", "1", fun v => v * n.v.z = n.v.x),
   ("divy", "1", fun v => v * n.v.z = n.v.y),
   ("tof", "second", fun v => v = n.t),
   ("x", "meter", fun v => v = n.r.x),
   ("y", "meter", fun v => v = n.r.y),
   ("z", "meter", fun v => v = n.r.z),
   ("vx", "meter/second", fun v => v = n.v.x),
   ("vy", "meter/second", fun v => v = n.v.y),
   ("vz", "meter/second", fun v => v = n.v.z),
   ("t", "second", fun v => v = n.t)]

end Verif.NdAxes.Spec
