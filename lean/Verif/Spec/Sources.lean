import Verif.Model.Sources
import Verif.Spec.Kinem
/-!
Specification of the test sources and the radial collimator.
-/

namespace Verif.Sources
noncomputable section

/-- coordinates in the horizontal plane (along the beam, to the side) at time `t` after the start -/
def track (ev : Event ℝ) (t : ℝ) : ℝ × ℝ := (ev.r.z + ev.v.z * t, ev.r.x + ev.v.x * t)

/-- height at time `t` after the start -/
def heightAt (ev : Event ℝ) (t : ℝ) : ℝ := ev.r.y + ev.v.y * t

/-- square of the distance from the axis -/
def dist2 (P : ℝ × ℝ) : ℝ := P.1 ^ 2 + P.2 ^ 2

/-- the point is on the ray from the axis at angle `a` -/
def OnRay (a : ℝ) (P : ℝ × ℝ) : Prop := ∃ rho : ℝ, 0 < rho ∧ P.1 = rho * Real.cos a ∧ P.2 = rho * Real.sin a

/-- the angles of the blades -/
def Blades.angles : Blades → Set ℝ
  | .even a b d => { x | ∃ j : ℕ, x = a + j * d ∧ x ≤ b }
  | .list l => { x | x ∈ l }

/-- on its way out the neutron hits a blade, turned back by the angle `o` -/
def Hits (c : Collimator) (o : ℝ) (ev : Event ℝ) : Prop :=
  ∃ t, 0 ≤ t ∧ c.radius1 ^ 2 ≤ dist2 (track ev t) ∧ dist2 (track ev t) ≤ c.radius2 ^ 2 ∧
    ∃ b ∈ c.blades.angles, OnRay (b - o) (track ev t)

/-- at the inner and the outer cylinder the neutron is within the window -/
def Within (c : Collimator) (ev : Event ℝ) : Prop :=
  ∀ t, 0 ≤ t → (dist2 (track ev t) = c.radius1 ^ 2 → |heightAt ev t| < c.height1 / 2) ∧
    (dist2 (track ev t) = c.radius2 ^ 2 → |heightAt ev t| < c.height2 / 2)

/-- at the inner and the outer cylinder the neutron is in the sector between first and last blade, turned back by `o` -/
def InSector (c : Collimator) (o : ℝ) (ev : Event ℝ) : Prop :=
  ∀ t, 0 ≤ t → dist2 (track ev t) = c.radius1 ^ 2 ∨ dist2 (track ev t) = c.radius2 ^ 2 →
    ∃ a, OnRay (a - o) (track ev t) ∧ c.blades.min < a ∧ a < c.blades.max

/-- at the inner and the outer cylinder the neutron does not touch the edge of a blade -/
def NotOnEdge (c : Collimator) (o : ℝ) (ev : Event ℝ) : Prop :=
  ∀ t, 0 ≤ t → dist2 (track ev t) = c.radius1 ^ 2 ∨ dist2 (track ev t) = c.radius2 ^ 2 →
    ∀ b ∈ c.blades.angles, ¬ OnRay (b - o) (track ev t)

/-- a neutron that starts within the inner cylinder and moves horizontally -/
structure Starts (c : Collimator) (ev : Event ℝ) : Prop where
  inside : dist2 (ev.r.z, ev.r.x) < c.radius1 ^ 2
  pos : 0 < c.radius1
  lt : c.radius1 < c.radius2
  moves : 0 < ev.v.z ^ 2 + ev.v.x ^ 2

/-- a reasonable arrangement of blades: channels of at most half a turn; an increasing list -/
def Blades.Proper : Blades → Prop
  | .even a b d => a < b ∧ 0 < d ∧ d ≤ Real.pi
  | .list l => l.Pairwise (· < ·) ∧ 2 ≤ l.length ∧ ∀ x y, x < y → y - x ≥ Real.pi → l.headD 0 < x → y < l.getLastD 0 →
      ∃ b ∈ l, x < b ∧ b < y

end
end Verif.Sources
