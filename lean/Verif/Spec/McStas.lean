import Verif.Model.McStas
import Verif.Spec.Sampling
import Verif.Spec.Frames
/-!
Specification for the library of the McStas components.
-/

namespace Verif.McStas
open Solid Flight Homog Kinem
noncomputable section
open Classical

/-- the acceleration of a neutron -/
def accel (G : Gravity) : V3 ℝ := if G.on then G.g else 0

/-- the neutron after it has flown for the time `s` -/
def flown (G : Gravity) (e : Event ℝ) (s : ℝ) : Event ℝ :=
  { e with r := e.r + s • e.v + (s ^ 2 / 2) • accel G, v := e.v + s • accel G, t := e.t + s }

/-- the neutron is on the plane where the coordinate `c` is 0 after the time `s`, and not before -/
def Arrives (c : V3 ℝ → ℝ) (G : Gravity) (e : Event ℝ) (s : ℝ) : Prop :=
  0 ≤ s ∧ c (flown G e s).r = 0 ∧ ∀ s', 0 ≤ s' → s' < s → c (flown G e s').r ≠ 0

/-- the vector `v` turned by the angle `φ` around the unit vector `e` -/
def turned (e : V3 ℝ) (φ : ℝ) (v : V3 ℝ) : V3 ℝ :=
  (e.dot v) • e + Real.cos φ • (v - (e.dot v) • e) + Real.sin φ • e.cross v

/-- the direction with longitude `θ` and latitude `φ`, where `t` has longitude and latitude 0 -/
def globe (t a b : V3 ℝ) (θ φ : ℝ) : V3 ℝ :=
  Real.cos φ • (Real.cos θ • t + Real.sin θ • a) + Real.sin φ • b

/-- integral over the directions of the unit sphere with longitude up to `width / 2` and latitude up to `height / 2` on both
sides of `t` (area element `cos φ dφ dθ`) -/
def globeIntegral (t a b : V3 ℝ) (width height : ℝ) (f : V3 ℝ → ℝ) : ℝ :=
  ∫ θ in (-width / 2)..(width / 2), ∫ φ in (-height / 2)..(height / 2), Real.cos φ * f (globe t a b θ φ)

/-- integral over the directions to the points of a rectangle with the centre `t` and perpendicular to it.  An area element
`dx dy` at the distance `d` fills a solid angle of `cos α / d² dx dy`, where `cos α = |t| / d`. -/
def rectIntegral (t n m : V3 ℝ) (width height : ℝ) (f : V3 ℝ → ℝ) : ℝ :=
  ∫ x in (-width / 2)..(width / 2), ∫ y in (-height / 2)..(height / 2),
    length t / length (t + x • n + y • m) / length (t + x • n + y • m) ^ 2 * f (t + x • n + y • m)

/-- the ray is in the box (with its surface) at the time `s` -/
def InBox (r v d : V3 ℝ) (s : ℝ) : Prop :=
  |r.x + s * v.x| ≤ d.x / 2 ∧ |r.y + s * v.y| ≤ d.y / 2 ∧ |r.z + s * v.z| ≤ d.z / 2

/-- the ray meets no edge of the box -/
def NoEdge (r v d : V3 ℝ) : Prop := ∀ s, InBox r v d s →
  ¬ (|r.x + s * v.x| = d.x / 2 ∧ |r.y + s * v.y| = d.y / 2) ∧ ¬ (|r.x + s * v.x| = d.x / 2 ∧ |r.z + s * v.z| = d.z / 2) ∧
  ¬ (|r.y + s * v.y| = d.y / 2 ∧ |r.z + s * v.z| = d.z / 2)

/-- the ray is in the cylinder (along y) at the time `s` -/
def InCylinder (p v : V3 ℝ) (r h s : ℝ) : Prop :=
  (p.x + s * v.x) ^ 2 + (p.z + s * v.z) ^ 2 ≤ r ^ 2 ∧ |p.y + s * v.y| ≤ h / 2

/-- where the ray is on the surface of the cylinder at the time `s`: 0 the mantle, `top`, `bottom` -/
def OnCylinder (p v : V3 ℝ) (r h s : ℝ) (top bottom : Nat) (k : Nat) : Prop :=
  (k = 0 ∧ (p.x + s * v.x) ^ 2 + (p.z + s * v.z) ^ 2 = r ^ 2) ∨ (k = top ∧ p.y + s * v.y = h / 2) ∨
  (k = bottom ∧ p.y + s * v.y = -h / 2)

/-- the ray is in the sphere at the time `s` -/
def InSphere (p v : V3 ℝ) (r s : ℝ) : Prop :=
  (p.x + s * v.x) ^ 2 + (p.y + s * v.y) ^ 2 + (p.z + s * v.z) ^ 2 ≤ r ^ 2

/-- expectation with two independent normal distributions of mean 0 and variance 1 -/
def normalMean2 (F : ℝ × ℝ → ℝ) : ℝ :=
  ∫ p : ℝ × ℝ, F p * (Real.exp (-p.1 ^ 2 / 2) / √(2 * Real.pi)) * (Real.exp (-p.2 ^ 2 / 2) / √(2 * Real.pi))

end
end Verif.McStas
