import Verif.Model.MonoConf
/-!
Words for the property of the settings of the monochromatic source (C366).
-/

namespace Verif.MonoConf.Spec

/-- the direction of one velocity is that of another; see `MonochromaticSource.py:29-35` -/
def SameDirection (a b : V3 ℝ) : Prop := ∃ f : ℝ, 0 < f ∧ a = ⟨f * b.x, f * b.y, f * b.z⟩

/-- energy in meV: half the mass times the square of the speed, over the charge of the electron and 1000; see
`mcni/utils/constants.py` and `mcni/utils/conversion.py:22` -/
noncomputable def meV (v : V3 ℝ) : ℝ :=
  (1.6749286e-27 * (v.x ^ 2 + v.y ^ 2 + v.z ^ 2) / 2) / 1.60217733e-19 * 1000

end Verif.MonoConf.Spec
