import Verif.Model.McGuide
/-!
Constants of the McStas components, `packages/legacycomponents/mcstas2/lib/phys_constants.h` (`K2V` and `V2K` are in `Verif.Model.McGuide`).
-/

namespace Verif.McConst
noncomputable section

/-- `SE2V`, `lib/phys_constants.h:31` -/
def SE2V : ℝ := 437.3949
/-- `VS2E`, `lib/phys_constants.h:32` -/
def VS2E : ℝ := 5.227e-6

end
end Verif.McConst
