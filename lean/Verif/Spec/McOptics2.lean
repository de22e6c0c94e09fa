import Verif.Model.McOptics2
import Verif.Spec.McGuide
/-!
Specification for the components of `Verif.Model.McOptics2`.
-/

namespace Verif.McOptB
open McStas Kinem Flight Solid McGuide McOpt Homog McMon
noncomputable section
open Classical

/-- the largest momentum transfer with total reflection -/
def Reflec.total (c : Reflec) : ℝ := c.Qc * min c.m 1

/-- the reflectivity behind the total reflection: a linear decrease and a smooth edge of the width `W` at `m Qc` -/
def Reflec.beyond (c : Reflec) (q : ℝ) : ℝ := c.R0 * (1 - c.alpha * (q - c.total)) / (1 + Real.exp (2 * ((q - c.m * c.Qc) / c.W)))

/-! ### disk chopper -/

/-- the height of the slits: the radius if none is given -/
def Disk2Par.height (c : Disk2Par) : ℝ := if c.yheight = 0 then c.radius else c.yheight

/-- the height of a point above the axis of the disk: the beam goes through the middle of the slits -/
def Disk2Par.above (c : Disk2Par) (e : Event ℝ) : ℝ := e.r.y + (c.radius - c.height / 2)

/-- the point is between the solid inner part and the edge of the disk (or out of it, if that is open) -/
def Disk2Par.Ring (c : Disk2Par) (e : Event ℝ) : Prop :=
  (c.radius - c.height) ^ 2 ≤ e.r.x ^ 2 + c.above e ^ 2 ∧ (c.absOut → e.r.x ^ 2 + c.above e ^ 2 ≤ c.radius ^ 2)

/-- the angle of a point from the top of the disk, to the side of `x` -/
def Disk2Par.angle (c : Disk2Par) (e : Event ℝ) : ℝ := Complex.arg ⟨c.above e, e.r.x⟩

/-- the time when a slit is at the top: that of the angle `phase` for the turning disk, or `delay` -/
def Disk2Par.late (c : Disk2Par) : ℝ := if c.phase ≠ 0 then c.phase / 360 / |c.nu| else c.delay

/-- the neutron finds an opening of the disk, with the time of the disk moved by `δ` -/
def Disk2Par.Opens (c : Disk2Par) (θ δ : ℝ) (e : Event ℝ) : Prop :=
  c.Ring e ∧ SlitAt (2 * Real.pi * c.nu) c.nslit (θ * (Real.pi / 180)) c.late (c.angle e) (e.t - δ)

/-! ### filter -/

/-- the table has equal steps: the first column is `x0 + i h` -/
def Even (t : McTable.Table) : Prop :=
  2 ≤ t.rows ∧ 2 ≤ t.columns ∧ 0 < t.stepX ∧ ∀ i < t.rows, t.data (i * t.columns) = t.minX + i * t.stepX

/-- the value `y` is on the straight line between two rows of the table, around `X` -/
def OnLine (t : McTable.Table) (X y : ℝ) : Prop :=
  ∃ i s, i + 1 < t.rows ∧ 0 ≤ s ∧ s ≤ 1 ∧ X = (1 - s) * t.data (i * t.columns) + s * t.data ((i + 1) * t.columns) ∧
    y = (1 - s) * t.data (i * t.columns + 1) + s * t.data ((i + 1) * t.columns + 1)

/-- the first and the last value of the variable in the table -/
def Covers (t : McTable.Table) (X : ℝ) : Prop := t.data 0 ≤ X ∧ X < t.data ((t.rows - 1) * t.columns)

/-- the variable that a kind of table is for -/
def quantity (k : Kind) (v : V3 ℝ) : ℝ :=
  match k with
  | .energy => McConst.VS2E * length v ^ 2
  | .wavevector => V2K * length v
  | .wavelength => 2 * Real.pi / (V2K * length v)
  | .unknown => 0

/-- the weight of a neutron after a filter with the value `D` -/
def weighted (m : Mode) (p D : ℝ) : ℝ :=
  match m with
  | .set => D
  | .mult => p * D
  | .add => p + D

/-- the neutron is in the window of the filter -/
def Filter.Window (f : Filter) (e : Event ℝ) : Prop := (f.xmin < e.r.x ∧ e.r.x < f.xmax) ∧ f.ymin < e.r.y ∧ e.r.y < f.ymax

/-! ### radial collimator -/

/-- the direction of flight as seen from above -/
def direction (e : Event ℝ) : ℝ := Complex.arg ⟨e.v.z, e.v.x⟩

/-- a neutron that flies horizontally from the axis of the collimator, at the height `y` -/
def FromAxis (e : Event ℝ) : Prop := e.r.x = 0 ∧ e.r.z = 0 ∧ e.v.y = 0 ∧ e.v ≠ 0

/-- the middle of a channel; the channels divide the angles from `theta_min` -/
def Radial.middle (d : Radial) (k : ℤ) : ℝ := d.theta_min + (k + 1 / 2) * d.window

/-- the direction points into the opening of the channel, at the inner and the outer radius -/
def Radial.Into (d : Radial) (k : ℤ) (θ : ℝ) : Prop := |θ - d.middle k| ≤ d.soller1 / 2 ∧ |θ - d.middle k| ≤ d.soller2 / 2

/-- the neutron when it has flown the distance `s` from the axis (without gravity) -/
def flownFar (e : Event ℝ) (s : ℝ) : Event ℝ := flown Off e (s / length e.v)

/-! ### guide with channels -/

/-- the left side of a channel at the entrance: the channels with the walls between them divide the width -/
def Chan.left (c : Chan) (n : ℤ) : ℝ := -c.w1 / 2 + n * ((c.w1 + c.d) / c.k)
/-- the width of a channel without the wall, at the entrance -/
def Chan.wide (c : Chan) : ℝ := (c.w1 + c.d) / c.k - c.d
/-- the middle of a channel -/
def Chan.mid (c : Chan) (n : ℤ) : ℝ := c.left n + c.wide / 2

/-- the coordinate is between the sides of a channel at the entrance -/
def Chan.In (c : Chan) (n : ℤ) (x : ℝ) : Prop := c.left n ≤ x ∧ x ≤ c.left n + c.wide

/-- a guide with the walls of one channel around the axis (the coating does not matter) -/
def Chan.tube (c : Chan) : Guide := ⟨c.wide, c.h1, (c.w2 + c.d) / c.k - c.d, c.h2, c.l, ⟨0, 0, 0, 0, 0, none⟩⟩

/-- as `Guide.Hit`, at a wall with the normal `n` -/
def HitOn (g : Guide) (n : V3 ℝ) (e e' : Event ℝ) (q : ℝ) : Prop :=
  ∃ s, 0 ≤ s ∧ g.Face n (flown Off e s).r ∧ n.dot e.v < 0 ∧
    (∀ τ, 0 ≤ τ → τ ≤ s → g.Inside (flown Off e τ).r ∧ (flown Off e τ).r.z < g.l) ∧
    Mirrored n e.v e'.v ∧ e' = { flown Off e s with v := e'.v } ∧ q = V2K * length (e'.v - e.v)

/-- the coating of the wall with the normal `n`: the walls at the sides and those above and below -/
def Chan.coating (c : Chan) (n : V3 ℝ) : Coating :=
  if n.y = 0 then ⟨c.R0, c.Qcx, c.alphax, c.mx, c.W, none⟩ else ⟨c.R0, c.Qcy, c.alphay, c.my, c.W, none⟩

/-- the neutron as seen from the middle of a channel -/
def Chan.seen (c : Chan) (n : ℤ) (e : Event ℝ) : Event ℝ := { e with r := ⟨e.r.x - c.mid n, e.r.y, e.r.z⟩ }

/-- a reflection in a channel around the axis -/
def Chan.Step0 (c : Chan) (e e' : Event ℝ) : Prop :=
  ∃ n e1 q w, HitOn c.tube n e e1 q ∧ (c.coating n).R q = some w ∧ e' = { e1 with p := e1.p * w }

/-- the neutron leaves a channel around the axis, or is stopped in the next reflection -/
def Chan.Ends0 (c : Chan) (b r : Event ℝ) : Prop :=
  (c.tube.Leaves b ∧ r = b) ∨ ∃ n e1 q, HitOn c.tube n b e1 q ∧ (c.coating n).R q = none ∧ r = stopped e1

/-- a reflection in the channel `n` -/
def Chan.Step (c : Chan) (n : ℤ) (e e' : Event ℝ) : Prop := c.Step0 (c.seen n e) (c.seen n e')
/-- the neutron leaves the channel `n`, or is stopped in the next reflection -/
def Chan.Ends (c : Chan) (n : ℤ) (b r : Event ℝ) : Prop := c.Ends0 (c.seen n b) (c.seen n r)

end
end Verif.McOptB
