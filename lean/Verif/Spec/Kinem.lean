import Verif.Model.Kinem
import Verif.Spec.Homog
/-!
Specification vocabulary for scattering with energy and momentum transfer.
-/

namespace Verif.Kinem
open Solid Flight Homog
noncomputable section

/-- energy (meV) of a neutron with velocity `v` (m/s) -/
def energy (v : V3 ℝ) : ℝ := vsq2e * v.dot v

/-- wave vector (1/Å) of a neutron with velocity `v` -/
def wave (v : V3 ℝ) : V3 ℝ := v2k • v

/-- the neutron lost the energy `E`, and its wave vector changed by a vector of length `|Q|` -/
def Transfer (ev ev' : Ev) (Q E : ℝ) : Prop :=
  energy ev.v - energy ev'.v = E ∧
  (wave ev.v - wave ev'.v).dot (wave ev.v - wave ev'.v) = Q ^ 2

/-- nothing but velocity and probability changed -/
def SamePlace (ev ev' : Ev) : Prop :=
  ev'.r = ev.r ∧ ev'.t = ev.t ∧ ev'.s1 = ev.s1 ∧ ev'.s2 = ev.s2

/-- the velocity is exactly vertical or has a horizontal component above the tolerance -/
def Clear (eps : ℝ) (v : V3 ℝ) : Prop :=
  (v.x = 0 ∧ v.y = 0) ∨ eps * √(v.dot v) < |v.x| ∨ eps * √(v.dot v) < |v.y|

/-- length of the wave vector -/
def kOf (v : V3 ℝ) : ℝ := v2k * √(v.dot v)

/-- energy transfer `E` at the fraction `u1` of the range, final wave number `kf` for it, and the range
of momentum transfers that the kernel offers and the kinematics allows -/
structure Drawn (Emin Emax Qmin Qmax : ℝ) (ev : Ev) (u1 E kf Qlo Qhi : ℝ) : Prop where
  loss : E = Emin + u1 * (Emax - Emin)
  nonneg : 0 ≤ kf
  final : vsq2e * (k2v * kf) ^ 2 = energy ev.v - E
  lo : Qlo = max Qmin |kOf ev.v - kf|
  hi : Qhi = min Qmax (kOf ev.v + kf)
  nonempty : Qlo ≤ Qhi

/-- wave number after the loss of the energy `E` -/
def kFinal (v : V3 ℝ) (E : ℝ) : ℝ := v2k * √((energy v - E) / vsq2e)

/-- the triangle of wave vectors closes -/
def Closes (v : V3 ℝ) (Q E : ℝ) : Prop :=
  E ≤ energy v ∧ |kOf v - kFinal v E| ≤ Q ∧ Q ≤ kOf v + kFinal v E

/-- energy of a neutron that flies the distance `L` between the times `t` and `tof` -/
def energyAt (L t tof : ℝ) : ℝ := vsq2e * (L / (tof - t)) ^ 2

/-- weight of the outcome times an observable of energy loss and length of the momentum transfer; 0 if
the outcome is not a number -/
def weigh (G : ℝ → ℝ → ℝ) (ev : Ev) (o : Option Ev) : ℝ := match o with
  | none => 0
  | some ev' => ev'.p * G (energy ev.v - energy ev'.v)
      √((wave ev.v - wave ev'.v).dot (wave ev.v - wave ev'.v))

/-- expectation over three uniform random numbers -/
def mean3 (f : ℝ → ℝ → ℝ → ℝ) : ℝ := mean fun u1 => mean fun u2 => mean fun u3 => f u1 u2 u3

/-- expectation over `n` uniform random numbers -/
def meanN : Nat → (List ℝ → ℝ) → ℝ
  | 0, f => f []
  | n + 1, f => mean fun u => meanN n fun us => f (u :: us)

/-- probability of the outcome, 0 if it is not a number -/
def prob (o : Option Ev) : ℝ := match o with
  | none => 0
  | some ev => ev.p

end
end Verif.Kinem
