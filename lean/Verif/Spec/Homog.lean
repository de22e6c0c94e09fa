import Verif.Model.Homog
import Verif.Spec.Flight
import Mathlib.MeasureTheory.Integral.IntervalIntegral.Basic
/-!
Specification of the interaction of a neutron with a homogeneous material: expectation over
uniform random numbers, neutrons handed to the kernel as seen by a probe.
-/

namespace Verif.Homog
open Solid Flight
noncomputable section

/-- expectation over one uniform random number -/
def mean (f : ℝ → ℝ) : ℝ := ∫ u in (0 : ℝ)..1, f u

/-- expectation over two independent uniform random numbers -/
def mean2 (f : ℝ → ℝ → ℝ) : ℝ := mean fun u1 => mean fun u2 => f u1 u2

/-- the same scatterer with a kernel that only notes down the neutrons it gets: first list for
absorption, second list for scattering; it returns neutrons of probability 0 -/
def probe {K : Type} (h : Scat K) : Scat (List Ev × List Ev) :=
  { shape := h.shape, wT := h.wT, wA := h.wA, wS := h.wS, packing := h.packing, mu0 := h.mu0,
    sigma0 := h.sigma0, maxLoops := h.maxLoops, minP := h.minP,
    kscatter := fun k e => .ok ((k.1, k.2 ++ [e]), { e with p := 0 }),
    kabsorb := fun k e => .ok (k.1 ++ [e], k.2) }

/-- an observable: a function of place, velocity and time -/
abbrev Obs := V3 ℝ → V3 ℝ → ℝ → ℝ

/-- weighted sum of an observable over a list of neutrons -/
def tally (G : Obs) (l : List Ev) : ℝ := (l.map fun e => e.p * G e.r e.v e.t).sum

/-- a number computed from a result; nothing for an exception -/
def score {α : Type} (x : Except Err α) (g : α → ℝ) : ℝ :=
  match x with
  | .ok a => g a
  | .error _ => 0

/-- value of the observable for the neutron `ev` after it flew the distance `x` -/
def along (G : Obs) (ev : Ev) (x : ℝ) : ℝ :=
  G (at' ev.r ev.v (x / √(ev.v.dot ev.v))) ev.v (ev.t + x / √(ev.v.dot ev.v))

end
end Verif.Homog
