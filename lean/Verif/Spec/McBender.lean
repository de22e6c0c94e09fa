import Verif.Model.McBender
import Verif.Spec.McOptics
import Verif.Spec.McMonitors
import Mathlib.Analysis.SpecialFunctions.Complex.Circle
/-!
Specification of a curved guide: straight flights and mirror reflections between two circles, and between a floor and a ceiling.
-/

namespace Verif.McBend
open McStas Kinem McGuide McOpt McMon
noncomputable section
open Classical

/-- a point moving in the plane: its distance `ρ` and angle `θ` seen from the centre of the circles, its velocity `u` outwards and `w`
along the circle, and the time -/
@[ext] structure Ray where
  (ρ θ u w t : ℝ)

/-- where it is -/
def Ray.place (a : Ray) : ℂ := a.ρ * Complex.exp (a.θ * Complex.I)
/-- its velocity -/
def Ray.velocity (a : Ray) : ℂ := (a.u + a.w * Complex.I) * Complex.exp (a.θ * Complex.I)

/-- two circles around the same centre -/
structure Ring where
  (inner outer : ℝ)

/-- which circle -/
inductive Side
  | outer
  | inner

/-- a straight flight, forward in time and less than half a turn, that does not leave the ring -/
def Ring.Flies (g : Ring) (a b : Ray) : Prop :=
  a.t ≤ b.t ∧ b.place = a.place + (b.t - a.t) * a.velocity ∧ b.velocity = a.velocity ∧ a.θ ≤ b.θ ∧ b.θ < a.θ + Real.pi ∧ 0 < b.ρ ∧
    ∀ s : ℝ, 0 ≤ s → s ≤ b.t - a.t → g.inner ≤ ‖a.place + s * a.velocity‖ ∧ ‖a.place + s * a.velocity‖ ≤ g.outer

/-- at a wall and moving into it -/
def Ring.Hits (g : Ring) (a : Ray) : Side → Prop
  | .outer => a.ρ = g.outer ∧ 0 < a.u
  | .inner => a.ρ = g.inner ∧ a.u < 0

/-- flights and reflections, with the list of the reflections: the wall and the speed towards it -/
inductive Ring.Path (g : Ring) : Ray → List (Side × ℝ) → Ray → Prop
  | flies {a b : Ray} : g.Flies a b → g.Path a [] b
  | reflects {a b c : Ray} {s : Side} {L : List (Side × ℝ)} :
      g.Flies a b → g.Hits b s → g.Path { b with u := -b.u } L c → g.Path a ((s, |b.u|) :: L) c

/-- flight for the time `T` from the height `y` with the velocity `v` between floor and ceiling, reflected `n` times -/
inductive Bounces (h : ℝ) : ℝ → ℝ → ℝ → ℕ → ℝ → ℝ → Prop
  | flies {y v T : ℝ} : 0 ≤ T → |y + T * v| ≤ h / 2 → Bounces h y v T 0 (y + T * v) v
  | reflects {y v s T : ℝ} {n : ℕ} {y' v' : ℝ} : 0 ≤ s → |y + s * v| = h / 2 → 0 < (y + s * v) * v →
      Bounces h (y + s * v) (-v) T n y' v' → Bounces h y v (s + T) (n + 1) y' v'

/-- the reflectivity for the speed `u` towards the mirror: `R0` in the region of total reflection, then a linear decrease and a smooth edge -/
def Coat.R (c : Coat) (u : ℝ) : ℝ :=
  let q := 2 * (V2K * u)
  if q ≤ c.Qc then c.R0 else c.R0 * (1 - c.alpha * (q - c.Qc)) / (1 + Real.exp (2 * ((q - c.m * c.Qc) / c.W)))

/-- far behind the edge -/
def Coat.Dark (c : Coat) (u : ℝ) : Prop := c.Qc < 2 * (V2K * u) ∧ 10 < (2 * (V2K * u) - c.m * c.Qc) / c.W

/-- the coating of a wall -/
def Bender.wall (c : Bender) : Side → Coat
  | .outer => c.a
  | .inner => c.i

/-- the width of a channel: `k` channels and `k - 1` walls of the thickness `d` make the width `w` -/
def Bender.width (c : Bender) : ℝ := (c.w - (c.k - 1) * c.d) / c.k

/-- the angle of the bend: from the length if that is given -/
def Bender.angle (c : Bender) : ℝ := if c.l = 0 then c.Win else c.l / c.r

/-- the circles of a channel; the outer wall of the bender has the radius `r` -/
def Bender.ring (c : Bender) (n : ℤ) : Ring :=
  ⟨c.r - n * (c.width + c.d) - c.width, c.r - n * (c.width + c.d)⟩

/-- the neutron at the entrance, seen from the centre of the bend -/
def Bender.enters (c : Bender) (e : Event ℝ) : Ray := ⟨e.r.x + (c.r - c.w / 2), 0, e.v.x, e.v.z, e.t⟩

/-- the neutron at the exit: with `x` from the middle of the bender, and `z` along its length -/
def Bender.leaves (c : Bender) (b : Ray) (y vy p : ℝ) (e : Event ℝ) : Event ℝ :=
  { e with r := ⟨b.ρ - (c.r - c.w / 2), y, c.r * b.θ⟩, v := ⟨b.u, vy, b.w⟩, t := b.t, p := p }

/-- the neutron is in the opening of a channel (not in that of a wall) -/
def Bender.In (c : Bender) (n : ℤ) (x : ℝ) : Prop :=
  (c.ring n).inner < x + (c.r - c.w / 2) ∧ x + (c.r - c.w / 2) ≤ (c.ring n).outer

end
end Verif.McBend
