import Verif.Model.McGuide
import Verif.Spec.McOptics
import Mathlib.Logic.Relation
/-!
Specification for guides, mirrors and monochromators of McStas.
-/

namespace Verif.McGuide
open McStas Kinem Flight Solid Homog McMon
noncomputable section
open Classical

/-- no gravity -/
def Off : Gravity := ⟨false, 0⟩

/-- half of the width of a guide at the distance `z` from the entrance -/
def Guide.halfW (g : Guide) (z : ℝ) : ℝ := (g.w1 + (g.w2 - g.w1) * (z / g.l)) / 2
/-- half of the height of a guide at the distance `z` from the entrance -/
def Guide.halfH (g : Guide) (z : ℝ) : ℝ := (g.h1 + (g.h2 - g.h1) * (z / g.l)) / 2

/-- between the walls of a guide -/
def Guide.Inside (g : Guide) (r : V3 ℝ) : Prop := |r.x| ≤ g.halfW r.z ∧ |r.y| ≤ g.halfH r.z

/-- the point is on a wall of the guide with the inner normal `n` -/
def Guide.Face (g : Guide) (n r : V3 ℝ) : Prop :=
  (r.x = -g.halfW r.z ∧ n = ⟨1, 0, (g.w2 - g.w1) / (2 * g.l)⟩) ∨ (r.x = g.halfW r.z ∧ n = ⟨-1, 0, (g.w2 - g.w1) / (2 * g.l)⟩) ∨
  (r.y = -g.halfH r.z ∧ n = ⟨0, 1, (g.h2 - g.h1) / (2 * g.l)⟩) ∨ (r.y = g.halfH r.z ∧ n = ⟨0, -1, (g.h2 - g.h1) / (2 * g.l)⟩)

/-- `v'` is the mirror image of `v` for a mirror with the normal `n` -/
def Mirrored (n v v' : V3 ℝ) : Prop := (∃ k : ℝ, v' - v = k • n) ∧ v'.dot n = -v.dot n

/-- a neutron in the guide flies straight between the walls until it hits a wall, not behind the exit, and is mirrored.  `q`: the momentum
transfer -/
def Guide.Hit (g : Guide) (e e' : Event ℝ) (q : ℝ) : Prop :=
  ∃ s n, 0 ≤ s ∧ g.Face n (flown Off e s).r ∧ n.dot e.v < 0 ∧
    (∀ τ, 0 ≤ τ → τ ≤ s → g.Inside (flown Off e τ).r ∧ (flown Off e τ).r.z < g.l) ∧
    Mirrored n e.v e'.v ∧ e' = { flown Off e s with v := e'.v } ∧ q = V2K * length (e'.v - e.v)

/-- the reflectivity of a coating: constant below `Qc`, then it falls linearly with the slope `alpha` until the smooth edge of the width `W`
at `m Qc`, cut off at ten times the width behind it; `none`: no reflection -/
def Coating.R (c : Coating) (q : ℝ) : Option ℝ :=
  if c.m = 0 then none
  else match c.table with
    | some f => some (f q)
    | none =>
      if q ≤ c.Qc then some c.R0
      else if 10 ≤ (q - c.m * c.Qc) / c.W then none
      else some (c.R0 * (1 - c.alpha * (q - c.Qc)) / (1 + Real.exp (2 * ((q - c.m * c.Qc) / c.W))))

/-- a reflection in a guide -/
def Guide.Step (g : Guide) (e e' : Event ℝ) : Prop :=
  ∃ e1 q w, g.Hit e e1 q ∧ g.coat.R q = some w ∧ e' = { e1 with p := e1.p * w }

/-- the neutron flies back, or straight to the exit without hitting a wall -/
def Guide.Leaves (g : Guide) (e : Event ℝ) : Prop :=
  e.v.z < 0 ∨ ∀ s, 0 ≤ s → (flown Off e s).r.z ≤ g.l → g.Inside (flown Off e s).r

/-- the neutron `b` leaves the guide as `r`, or is stopped in the next reflection -/
def Guide.Ends (g : Guide) (b r : Event ℝ) : Prop :=
  (g.Leaves b ∧ r = b) ∨ ∃ e1 q, g.Hit b e1 q ∧ g.coat.R q = none ∧ r = McOpt.stopped e1

/-- the rectangle of a mirror: with a corner or the centre at the origin -/
def Mirror.Area (c : Mirror) (x y : ℝ) : Prop :=
  if c.center then |x| ≤ c.xlength / 2 ∧ |y| ≤ c.yheight / 2 else (0 ≤ x ∧ x ≤ c.xlength) ∧ 0 ≤ y ∧ y ≤ c.yheight

/-- the reflectivity between 0 and 1 -/
def Coating.unit (c : Coating) (q : ℝ) : ℝ := max 0 (min 1 ((c.R q).getD 0))

/-- `n` is an order of reflection from planes with the scattering vector `Q` along `x`, possible for the wave vector `ki` and closest to the
condition of Bragg -/
def Nearest (Q : ℝ) (ki : V3 ℝ) (n : Nat) : Prop :=
  0 < n ∧ n * Q ≤ 2 * length ki ∧ ∀ j : Nat, 0 < j → j * Q ≤ 2 * length ki → |n - 2 * |ki.x| / Q| ≤ |j - 2 * |ki.x| / Q|

/-- the angle by which a crystal must be turned for the reflection of order `n` -/
def misset (Q : ℝ) (ki : V3 ℝ) (n : Nat) : ℝ := Real.arcsin (|ki.x| / length ki) - Real.arcsin (n * Q / (2 * length ki))

/-- the reflectivity of a mosaic crystal turned by `δ`, for the mosaic `σy` around the axis `y` and `σz` around the axis `z` -/
def mosaicR (r0 σy σz δ : ℝ) (ki : V3 ℝ) : ℝ :=
  r0 * Real.exp (-(δ ^ 2 / 2) * ((ki.z ^ 2 / σy ^ 2 + ki.y ^ 2 / σz ^ 2) / (ki.y ^ 2 + ki.z ^ 2)))

/-- the neutron `e` is scattered elastically where it meets the plane `x = 0`, with the scattering vector of length `n Q` -/
def Bragg (Q : ℝ) (n : Nat) (e r : Event ℝ) : Prop :=
  ∃ s q, 0 ≤ s ∧ (flown Off e s).r.x = 0 ∧ r = { flown Off e s with v := r.v } ∧ r.v = K2V • (V2K • e.v + q) ∧ length q = n * Q ∧
    length (V2K • e.v + q) = length (V2K • e.v)

end
end Verif.McGuide
