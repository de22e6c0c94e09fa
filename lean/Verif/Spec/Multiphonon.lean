import Verif.Model.Multiphonon
/-!
Specification vocabulary for multiphonon scattering.
-/

namespace Verif.Mph
noncomputable section

/-- value of a spectrum at the energy `k dE`; a spectrum of length `2z + 1` covers `-z..z` -/
def amp (l : List ℝ) (k : ℤ) : ℝ := if 0 ≤ k + (l.length / 2 : ℕ) then l.getD (k + (l.length / 2 : ℕ)).toNat 0 else 0

/-- half of the length of a spectrum -/
def half (l : List ℝ) : ℤ := (l.length / 2 : ℕ)

/-- convolution of two spectra at the energy `k dE`, without the factor `dE` -/
def conv (b a : List ℝ) (k : ℤ) : ℝ := ∑ i ∈ Finset.Icc (-half b) (half b), amp b i * amp a (k - i)

/-- the generating function of a spectrum -/
def gen (l : List ℝ) (x : ℝ) : ℝ := ∑ k ∈ Finset.Icc (-half l) (half l), amp l k * x ^ k

/-- the spectrum is zero for energies above `m dE` -/
def Within (l : List ℝ) (m : ℤ) : Prop := ∀ k, m < |k| → amp l k = 0

/-- energy gain is less likely by the Boltzmann factor -/
def Balanced (b : ℝ) (l : List ℝ) : Prop := ∀ k : ℤ, amp l (-k) = Real.exp (-(b * k)) * amp l k

/-- the energies `0, dE, 2 dE, ...` -/
def Grid (E : List ℝ) (dE : ℝ) : Prop := ∀ k < E.length, E.getD k 0 = k * dE

end
end Verif.Mph
