import Verif.Spec.Homog
/-!
Specification vocabulary for the multiple scattering mode and the packing factor.
-/

namespace Verif.Homog
open Solid Flight
noncomputable section

/-- the same material without packing factor but with coefficients that are smaller by this factor, for
attenuation as well as for the weight of scattered neutrons -/
def dilute {K : Type} (h : Scat K) : Scat K :=
  { h with
    packing := 1
    mu0 := fun e => h.mu0 e * h.packing
    sigma0 := fun e => h.sigma0 e * h.packing
    kscatter := fun k e => match h.kscatter k e with
      | .ok (k', e') => .ok (k', { e' with p := e'.p * h.packing })
      | .error x => .error x }

end
end Verif.Homog
