import Verif.Model.Monitor
/-!
What monitors should record.
-/

namespace Verif.Monitor
variable {F : Type} [Field F] [LinearOrder F]

/-- `e'` is the neutron `e` at the moment when it crosses the plane of the monitor -/
def Crosses (e e' : Event F) : Prop :=
  e.v.z ≠ 0 ∧ e'.v = e.v ∧ e'.p = e.p ∧ e'.s1 = e.s1 ∧ e'.s2 = e.s2 ∧
  ∃ dt, e'.t = e.t + dt ∧ e'.r = e.r + dt • e.v ∧ e'.r.z = 0

/-- the neutron crosses the area of the monitor within the time window -/
def Area.Hit (a : Area F) (e : Event F) : Prop :=
  ∃ e', Crosses e e' ∧ a.xmin ≤ e'.r.x ∧ e'.r.x < a.xmax ∧ a.ymin ≤ e'.r.y ∧ e'.r.y < a.ymax ∧
    a.tofmin ≤ e'.t ∧ e'.t < a.tofmax

/-- `v` is in the `k`-th of `n` equal parts of `[lo, hi)` -/
def InPart (lo hi : F) (n : Nat) (v : F) (k : Int) : Prop :=
  0 ≤ k ∧ k < n ∧ lo + k * ((hi - lo) / n) ≤ v ∧ v < lo + (k + 1) * ((hi - lo) / n)

/-- the right record of a neutron, apart from the pixel number -/
def Area.TimeAndWeight (a : Area F) (e : Event F) (r : Rec F) : Prop :=
  r.p = e.p ∧ ∃ e', Crosses e e' ∧ InPart a.tofmin a.tofmax a.ntof e'.t r.tofChannelNo

/-- the pixel number of the pixel in which the neutron crosses the monitor -/
def Area.RightPixel (a : Area F) (e : Event F) (r : Rec F) : Prop :=
  ∃ e' ix iy, Crosses e e' ∧ InPart a.xmin a.xmax a.nx e'.r.x ix ∧ InPart a.ymin a.ymax a.ny e'.r.y iy ∧
    r.pixelID = ix * a.ny + iy

/-- `v` belongs to bin `k` of the axis (half-open bins, the last one closed) -/
def Axis.InBin (a : Axis F) (v : F) (k : Nat) : Prop :=
  InPart a.lo a.hi a.bins v k ∨ (v = a.hi ∧ k + 1 = a.bins)

/-- the neutron is counted in cell `c` -/
def Counted (axes : List (Axis F)) (xwidth yheight : F) (c : List Nat) (e : Event F) : Prop :=
  ∃ e', Crosses e e' ∧ -xwidth / 2 ≤ e'.r.x ∧ e'.r.x ≤ xwidth / 2 ∧ -yheight / 2 ≤ e'.r.y ∧ e'.r.y ≤ yheight / 2 ∧
    List.Forall₂ (fun (a : Axis F) k => a.InBin (a.expr e') k) axes c

/-- a usable axis -/
def Axis.Valid (a : Axis F) : Prop := 0 < a.bins ∧ a.lo < a.hi

end Verif.Monitor
