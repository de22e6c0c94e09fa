import Verif.Model.McGravGuide
import Verif.Spec.McGuide
/-!
Specification for the guide with gravity of McStas.
-/

namespace Verif.McGrav
open McStas McGuide Kinem Solid Homog Flight
noncomputable section
open Classical

/-- an acceleration `G` along the axis `y` -/
def Par.grav (c : Par) : Gravity := ⟨true, ⟨0, c.G, 0⟩⟩

/-- the position of the lower side of the channel `i`, if a width `w` around 0 is divided into `k` channels by walls of thickness `d` -/
def edge (w k d i : ℝ) : ℝ := -w / 2 + i * ((w + d) / k)

/-- the positions of the sides of the channels `i` (along `x`) and `j` (along `y`) at the distance `z` from the entrance: they run straight
from the entrance to the exit -/
def Par.xlo (c : Par) (i z : ℝ) : ℝ := edge c.w1 c.k c.d i + (edge c.w2 c.k c.d i - edge c.w1 c.k c.d i) * (z / c.l)
/-- see `xlo` -/
def Par.xhi (c : Par) (i z : ℝ) : ℝ := c.xlo (i + 1) z - c.d
/-- see `xlo` -/
def Par.ylo (c : Par) (j z : ℝ) : ℝ := edge c.h1 c.kh c.d j + (edge c.h2 c.kh c.d j - edge c.h1 c.kh c.d j) * (z / c.l)
/-- see `xlo` -/
def Par.yhi (c : Par) (j z : ℝ) : ℝ := c.ylo (j + 1) z - c.d

/-- the change of the position of a side along `x` with `z` -/
def Par.xslope (c : Par) (i : ℝ) : ℝ := (edge c.w2 c.k c.d i - edge c.w1 c.k c.d i) / c.l
/-- the change of the position of a side along `y` with `z` -/
def Par.yslope (c : Par) (j : ℝ) : ℝ := (edge c.h2 c.kh c.d j - edge c.h1 c.kh c.d j) / c.l

/-- between the walls of a channel -/
def Par.Inside (c : Par) (i j : ℝ) (r : V3 ℝ) : Prop :=
  (c.xlo i r.z ≤ r.x ∧ r.x ≤ c.xhi i r.z) ∧ c.ylo j r.z ≤ r.y ∧ r.y ≤ c.yhi j r.z

/-- the value for one of the walls, or that for the guide if it is negative -/
def Par.mOf (c : Par) (own : ℝ) : ℝ := if own < 0 then c.m else own

/-- the point is on a wall of the channel with the outer normal `n` and the value `M` of the coating; the left is at positive `x` -/
def Par.Face (c : Par) (i j : ℝ) (n : V3 ℝ) (M : ℝ) (r : V3 ℝ) : Prop :=
  (r.x = c.xlo i r.z ∧ n = ⟨-1, 0, c.xslope i⟩ ∧ M = c.mOf c.mright) ∨
  (r.x = c.xhi i r.z ∧ n = ⟨1, 0, -c.xslope (i + 1)⟩ ∧ M = c.mOf c.mleft) ∨
  (r.y = c.ylo j r.z ∧ n = ⟨0, -1, c.yslope j⟩ ∧ M = c.mOf c.mbottom) ∨
  (r.y = c.yhi j r.z ∧ n = ⟨0, 1, -c.yslope (j + 1)⟩ ∧ M = c.mOf c.mtop)

/-- a neutron in a channel falls freely between the walls until it hits a wall, before the exit, and is mirrored.  `q`: the momentum
transfer -/
def Par.Hit (c : Par) (i j : ℝ) (n : V3 ℝ) (M : ℝ) (e e' : Event ℝ) (q : ℝ) : Prop :=
  ∃ s, 0 < s ∧ c.Face i j n M (flown c.grav e s).r ∧ 0 ≤ n.dot (flown c.grav e s).v ∧
    (∀ τ, 0 ≤ τ → τ ≤ s → c.Inside i j (flown c.grav e τ).r ∧ (flown c.grav e τ).r.z < c.l) ∧
    Mirrored n (flown c.grav e s).v e'.v ∧ e' = { flown c.grav e s with v := e'.v } ∧
    q = V2K * length (e'.v - (flown c.grav e s).v)

/-- limited to [0, 1] -/
def unitClip (x : ℝ) : ℝ := max 0 (min 1 x)

/-- the reflectivity: from a table, or constant below `Qc`, then it falls linearly with the slope `alpha` until the smooth edge of the width
`W` at `M Qc`, cut off at ten times the width behind it; `none`: no reflection -/
def Par.R (c : Par) (M q : ℝ) : Option ℝ :=
  if M = 0 ∨ c.Qc = 0 ∨ c.R0 = 0 then none
  else match c.table with
    | some f => some (unitClip (f q))
    | none =>
      let W := if c.W > 0 then c.W else 0.0001
      if q ≤ c.Qc then some (unitClip c.R0)
      else if 10 ≤ (q - M * c.Qc) / W then none
      else some (unitClip (c.R0 * (1 - c.alpha * (q - c.Qc)) / (1 + Real.exp (2 * ((q - M * c.Qc) / W)))))

/-- the chamfers: one value for all, or one for the ends of the elements, one for the sides of the left and right walls, one for those of top
and bottom -/
def Par.Cz (c : Par) : ℝ := if c.chamfers_z = 0 ∧ c.chamfers_lr = 0 ∧ c.chamfers_tb = 0 then c.chamfers else c.chamfers_z
/-- see `Cz` -/
def Par.Clr (c : Par) : ℝ := if c.chamfers_z = 0 ∧ c.chamfers_lr = 0 ∧ c.chamfers_tb = 0 then c.chamfers else c.chamfers_lr
/-- see `Cz` -/
def Par.Ctb (c : Par) : ℝ := if c.chamfers_z = 0 ∧ c.chamfers_lr = 0 ∧ c.chamfers_tb = 0 then c.chamfers else c.chamfers_tb

/-- the point of a wall with the normal `n` is on a chamfer: at an end of one of the `nelements` elements of the guide, or at a side of the
wall -/
def Par.Chamfer (c : Par) (n r : V3 ℝ) : Prop :=
  (∃ k : ℤ, |r.z - k * (c.l / c.nelements)| < c.Cz) ∨
  (n.y = 0 ∧ c.Clr ≠ 0 ∧ (c.h1 + (c.h2 - c.h1) * (r.z / c.l)) / 2 - |r.y| < c.Clr) ∨
  (n.x = 0 ∧ c.Ctb ≠ 0 ∧ (c.w1 + (c.w2 - c.w1) * (r.z / c.l)) / 2 - |r.x| < c.Ctb)

/-- a reflection in a channel -/
def Par.Step (c : Par) (i j : ℝ) (e e' : Event ℝ) : Prop :=
  ∃ n M e1 q w, c.Hit i j n M e e1 q ∧ ¬ c.Chamfer n e1.r ∧ c.R M q = some w ∧ e' = { e1 with p := e1.p * w }

/-- a number of reflections -/
inductive Par.Reach (c : Par) (i j : ℝ) : Nat → Event ℝ → Event ℝ → Prop
  | refl (e : Event ℝ) : Par.Reach c i j 0 e e
  | step {N : Nat} {e e' e'' : Event ℝ} : c.Step i j e e' → Par.Reach c i j N e' e'' → Par.Reach c i j (N + 1) e e''

/-- the neutron `b` falls freely between the walls to the exit as `r`, or it is absorbed where it hits a wall next -/
def Par.Ends (c : Par) (i j : ℝ) (b r : Event ℝ) : Prop :=
  (∃ s, 0 < s ∧ (flown c.grav b s).r.z = c.l ∧ (∀ τ, 0 ≤ τ → τ ≤ s → c.Inside i j (flown c.grav b τ).r) ∧ r = flown c.grav b s) ∨
  (∃ n M e1 q, c.Hit i j n M b e1 q ∧ (c.Chamfer n e1.r ∨ c.R M q = none) ∧ r.p = -1)

/-- the neutron is at a wall and does not move away from it, or at the exit, within the time 1e-10 (seconds) -/
def Par.Grazes (c : Par) (i j : ℝ) (e : Event ℝ) : Prop :=
  ∃ s, 0 ≤ s ∧ s ≤ 1e-10 ∧
    ((flown c.grav e s).r.z = c.l ∨ ∃ n M, c.Face i j n M (flown c.grav e s).r ∧ 0 ≤ n.dot (flown c.grav e s).v)

/-- no waviness -/
def Par.Flat (c : Par) : Prop := c.wavy = 0 ∧ c.wavy_z = 0 ∧ c.wavy_lr = 0 ∧ c.wavy_tb = 0

/-- kinetic and potential energy, divided by half of the mass, in a gravity `G` along `y` -/
def Par.energy (c : Par) (e : Event ℝ) : ℝ := e.v.dot e.v - 2 * c.G * e.r.y

end
end Verif.McGrav
