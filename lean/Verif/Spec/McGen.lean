import Verif.Model.McGen
import Verif.Spec.McSource
/-!
Specification for `Source_gen`.
-/

namespace Verif.McGen
noncomputable section
open Classical

/-- the part of a Maxwell spectrum below the wave length `l`, where `a` is the square of the wave length that belongs to the temperature -/
def below (a l : ℝ) : ℝ := (1 + a / l ^ 2) * Real.exp (-(a / l ^ 2))

/-- the flux of a Maxwell spectrum between two wave lengths; none for the temperature 0 or the flux 0 -/
def part (I T a lo hi : ℝ) : ℝ := if 0 < T ∧ 0 < I then I * (below a hi - below a lo) else 0

end
end Verif.McGen
