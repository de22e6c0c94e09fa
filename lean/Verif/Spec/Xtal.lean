import Verif.Model.Xtal
import Verif.Spec.Kinem
/-!
Specification for coherent one-phonon scattering.
-/

namespace Verif.Xtal
open Solid Flight Homog Kinem Dos
noncomputable section
open Classical

/-- the scattered wave of one phonon mode (Squires, chapter 3): sum over the atoms of `b/√M exp(iQ·d) Q·e` with the
amplitudes `e` as they are -/
def waveSum (Q : V3 ℝ) (atoms : List Atom) (e : List (V3 ℂ)) : ℂ :=
  ((atoms.zip e).map fun (a, e) => ((a.b / √a.mass : ℝ) : ℂ) * Complex.exp (Complex.I * (Q.dot a.pos : ℝ)) *
    (Q.x * e.x + Q.y * e.y + Q.z * e.z)).sum

/-- squared length of a complex vector -/
def sqLen (e : V3 ℂ) : ℝ := Complex.normSq e.x + Complex.normSq e.y + Complex.normSq e.z

/-- weight of the outcome times an observable of the final velocity; 0 if there is no finite outcome -/
def weighV (h : V3 ℝ → ℝ) (o : Except Err (Option Ev)) : ℝ := match o with
  | .ok (some ev) => ev.p * h ev.v
  | _ => 0

/-- mean number of phonons of energy `w` plus one for the creation of a phonon (`w > 0`) -/
def thermal (w T : ℝ) : ℝ := (if w > 0 then 1 else 0) + 1 / (Real.exp (|w| / (T * kelvin2meV)) - 1)

/-- energy mismatch of the phonon of branch `br` and a neutron that is scattered from velocity `v` to `v'` -/
def mismatch (D : Phonons) (br : Nat) (v v' : V3 ℝ) : ℝ :=
  D.energy br (wave v - wave v') - |energy v - energy v'|

/-- the speeds found along the direction `n` -/
def speeds (K : Single) (br : Nat) (v n : V3 ℝ) : List ℝ :=
  Root.solve (fun s => mismatch K.D br v (s • n)) K.xacc K.nSteps 0 (2 * √(v.dot v))

/-- slope of the energy mismatch with the speed, by the symmetric difference quotient of width `2 d` -/
def slopeOf (D : Phonons) (br : Nat) (v n : V3 ℝ) (d s : ℝ) : ℝ :=
  |mismatch D br v ((s + d) • n) - mismatch D br v ((s - d) • n)| / (2 * d)

/-- weight of the scattering to the speed `s` along `n` by branch `br`, relative to the coherent cross section: the
one-phonon cross section per solid angle, integrated over the final energy; `F` is the scattered wave (fm/√amu/Å), the
cross section of the atoms is in barn -/
def onePhonon (K : Single) (br : Nat) (v n : V3 ℝ) (s : ℝ) (F : ℂ) : ℝ :=
  let w := energy v - energy (s • n)
  let Q := wave v - wave (s • n)
  s / √(v.dot v) * Real.exp (-K.DW √(Q.dot Q)) * thermal w K.T *
    (vsq2e * k2v ^ 2 * (Complex.normSq F / 100 / totalCoh K.atoms) / |w|) *
    (2 * vsq2e * s / slopeOf K.D br v n (K.dV * √(v.dot v)) s)

/-- everything that is divided by is not zero -/
structure Regular (K : Single) (br : Nat) (v n : V3 ℝ) (s : ℝ) (F : ℂ) : Prop where
  wave : sumLen K.D (wave v - wave (s • n)) br K.atoms = some F
  inelastic : energy v ≠ energy (s • n)
  slope : slopeOf K.D br v n (K.dV * √(v.dot v)) s ≠ 0

/-- wave number of a neutron with the energy `E` -/
def kE (E : ℝ) : ℝ := v2k * √(E / vsq2e)

/-- number of energies a neutron of energy `E` can have after it created or destroyed a phonon of energy `w` -/
def choices (w E : ℝ) : ℝ := if w < E then 2 else 1

/-- weight of the scattering in a powder with the energy loss `w` and a momentum transfer `Q` that is evenly distributed
in a volume `vol`, per branch and final energy, relative to the coherent cross section -/
def onePhononPoly (K : Poly) (v Q : V3 ℝ) (w vol : ℝ) (F : ℂ) : ℝ :=
  let ki := kE (energy v)
  let kf := kE (energy v - w)
  let q := √(Q.dot Q)
  kf / ki * Real.exp (-K.DW q) * thermal w K.T * (vsq2e * k2v ^ 2 * (Complex.normSq F / 100 / totalCoh K.atoms) / |w|) *
    (vol / (2 * ki * kf * q))

/-- the volume that the kernel uses -/
def reach (maxOmega E : ℝ) : ℝ :=
  4 / 3 * physPi * (kE E + kE (E + maxOmega / (1 + 7.6 * (kE E / kE maxOmega) ^ 4))) ^ 3

end
end Verif.Xtal
