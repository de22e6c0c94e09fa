import Verif.Model.Phonon
import Verif.Spec.Kinem
import Verif.Spec.Dos
/-!
Specification vocabulary for incoherent phonon scattering.
-/

namespace Verif.Phonon
open Solid Flight Homog Kinem Dos
noncomputable section

/-- average over all directions -/
def sphere (f : V3 ℝ → ℝ) : ℝ :=
  1 / (4 * Real.pi) * ∫ c in (-1 : ℝ)..1, ∫ ph in (0 : ℝ)..2 * Real.pi,
    f ⟨√(1 - c ^ 2) * Real.cos ph, √(1 - c ^ 2) * Real.sin ph, c⟩

/-- velocity with the direction `n` and the energy `E` -/
def velocity (E : ℝ) (n : V3 ℝ) : V3 ℝ := √(E / vsq2e) • n

/-- length of the momentum transfer from velocity `v` to `v'` -/
def transfer (v v' : V3 ℝ) : ℝ := √((wave v - wave v').dot (wave v - wave v'))

/-- the one-phonon cross section for scattering from velocity `v` to `v'`, for the energy `R` of the recoil:
`(k'/k) exp(-2W) R Z(|w|) / (w (1 - exp(-w/kT)))`, per energy and per 4 pi of solid angle, in units of the
incoherent cross section -/
def phononXs (K : Inel) (R : ℝ) (v v' : V3 ℝ) : ℝ :=
  let w := energy v - energy v'
  √(v'.dot v') / √(v.dot v) * Real.exp (-K.DW (transfer v v')) *
    (R * K.dos |w| / (w * (1 - Real.exp (-(w / kT K.T)))))

/-- energy of a neutron at rest after it took up the momentum `Q` -/
def neutronRecoil (Q : ℝ) : ℝ := vsq2e * (k2v * Q) ^ 2

/-- weight of the outcome times an observable of the velocity; 0 if the outcome is not a number -/
def outWeight (H : V3 ℝ → ℝ) (o : Option Ev) : ℝ := match o with
  | none => 0
  | some ev' => ev'.p * H ev'.v

/-- width of the range of final energies that can be reached with phonons of energy up to `emax` -/
def width (emax E : ℝ) : ℝ := E + emax - max 0 (E - emax)

/-- an observable that does not see energy transfers below one percent of the largest phonon energy -/
def Inelastic (K : Inel) (v : V3 ℝ) (H : V3 ℝ → ℝ) : Prop :=
  ∀ v', |energy v - energy v'| < 1e-2 * K.emax → H v' = 0

end
end Verif.Phonon
