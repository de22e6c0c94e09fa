import Verif.Spec.McStas
import Verif.Spec.Kinem
/-!
Specification of the powder sample with many lines.
-/

namespace Verif.McPowderN
open McStas
noncomputable section
open Classical

/-- what a neutron that comes out adds to the reading `g` of an instrument; an absorbed one (weight -1) adds nothing -/
def reading (g : Event ℝ → ℝ) : Except Err (Event ℝ × ℝ) → ℝ
  | .ok (e, _) => if e.p < 0 then 0 else e.p * g e
  | .error _ => 0

/-- the neutron `e` at time `s` later, without gravity, with velocity `v` and weight `p` -/
def outAt (e : Event ℝ) (s : ℝ) (v : V3 ℝ) (p : ℝ) : Event ℝ :=
  { e with r := e.r + s • e.v, t := e.t + s, v := v, p := p }

/-- the cross section per volume of a powder line (in 1/m) for a wavelength: `λ³ j F² / (4 V0² sin θ)` with the Bragg angle
`sin θ = q λ / 4π` -/
def powderLine (lam V0 q j F2 : ℝ) : ℝ := lam ^ 3 * j * F2 / (4 * V0 ^ 2 * (q * lam / (4 * Real.pi)))

end
end Verif.McPowderN
