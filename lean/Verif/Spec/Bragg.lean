import Verif.Model.Bragg
import Verif.Spec.Kinem
import Mathlib.MeasureTheory.Integral.Bochner.Set
/-!
Specification for Bragg diffraction by a single crystal.
-/

namespace Verif.Bragg
open Solid Flight Homog Kinem
noncomputable section

/-- three orthogonal vectors of length 1 -/
structure Frame (u1 u2 u3 : V3 ℝ) : Prop where
  l1 : u1.dot u1 = 1
  l2 : u2.dot u2 = 1
  l3 : u3.dot u3 = 1
  o12 : u1.dot u2 = 0
  o13 : u1.dot u3 = 0
  o23 : u2.dot u3 = 0

/-- width of the distribution of lattice vectors along a lattice vector of length `q`, for the relative spread of
lattice spacings (full width at half maximum) -/
def alongWidth (dd q : ℝ) : ℝ := fwhm2rms * dd * q

/-- width across, for the mosaic spread -/
def acrossWidth (mosaic q : ℝ) : ℝ := fwhm2rms * q * mosaic

/-- component of a vector along another -/
def along (τ d : V3 ℝ) : ℝ := τ.dot d / √(τ.dot τ)

/-- exponent of the normal distribution of lattice vectors around `τ` for the deviation `d` -/
def exponent (mosaic dd : ℝ) (τ d : V3 ℝ) : ℝ :=
  along τ d ^ 2 / (2 * alongWidth dd √(τ.dot τ) ^ 2) + (d.dot d - along τ d ^ 2) / (2 * acrossWidth mosaic √(τ.dot τ) ^ 2)

/-- density of that distribution -/
def density (mosaic dd : ℝ) (τ d : V3 ℝ) : ℝ :=
  Real.exp (-exponent mosaic dd τ d) /
    ((2 * Real.pi) ^ (3 / 2 : ℝ) * (alongWidth dd √(τ.dot τ) * acrossWidth mosaic √(τ.dot τ) ^ 2))

/-- the wave vector of a neutron -/
def waveVec (v : V3 ℝ) : V3 ℝ := v2k • v

/-- the plane that touches the sphere of wave vectors of the length of `k` in the direction of `k - τ` -/
def OnPlane (k τ k' : V3 ℝ) : Prop :=
  k'.dot (k - τ) = √(k.dot k) * √((k - τ).dot (k - τ))

/-- the reflection is within five widths of its condition `|k - τ| = |k|` -/
def Near (mosaic dd : ℝ) (k τ : V3 ℝ) : Prop :=
  |√((k - τ).dot (k - τ)) - √(k.dot k)| ≤ 5 * max (alongWidth dd √(τ.dot τ)) (acrossWidth mosaic √(τ.dot τ))

/-- the lattice vector of a reflection (h k l) of the crystal with the edges `a`, `b`, `c` of its cell -/
def IsTau (a b c : V3 ℝ) (q : HKL) (τ : V3 ℝ) : Prop :=
  a.dot τ = 2 * Real.pi * q.h ∧ b.dot τ = 2 * Real.pi * q.k ∧ c.dot τ = 2 * Real.pi * q.l

/-- what a call returns if the kernel has not been called before -/
def answer (K : Crystal) : Call → Option (Ev ⊕ ℝ)
  | .scatter u z1 z2 ev =>
    (taus K.V0 K.dd K.peaks ev.v).bind fun ts => (scatter K.V0 ts u z1 z2 ev).map .inl
  | .coefficient ev => (taus K.V0 K.dd K.peaks ev.v).bind fun ts => (coefficient K.V0 ts).map .inr

/-- weight of the outcome times an observable of the velocity; 0 if the outcome is not a number -/
def weighB (h : V3 ℝ → ℝ) (o : Option Ev) : ℝ := match o with
  | none => 0
  | some ev => ev.p * h ev.v

end
end Verif.Bragg
