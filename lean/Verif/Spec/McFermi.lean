import Verif.Model.McFermi
/-!
What a chopper whose slots turn with it should do: the path is the circle through three points, it is tested between the entrance and
the exit of the slot, the walls and the blades stop the neutron.
-/

namespace Verif.McFermi

/-- the point is on the circle -/
def OnCircle (c : Circle) (p : ℝ × ℝ) : Prop := (p.1 - c.c0) ^ 2 + (p.2 - c.c1) ^ 2 = c.nrad ^ 2

/-- three points on a line -/
def OnLine (p0 p1 p2 : ℝ × ℝ) : Prop := (p1.1 - p0.1) * (p2.2 - p0.2) = (p2.1 - p0.1) * (p1.2 - p0.2)

/-- the point with the share `s` of the way from `a` to `b` -/
def part (a b s : ℝ) : ℝ := a + s * (b - a)

/-- the test succeeds at 127 points equally spaced between `a` and `b`, and at 6 points beyond `b` -/
def Tested (ok : Option ℝ → Prop) (a b : ℝ) : Prop :=
  (∀ k : ℕ, 1 ≤ k → k ≤ 127 → ok (some (part a b (k / 128)))) ∧
  (∀ m : ℕ, 2 ≤ m → m ≤ 7 → ok (some (part a b (1 + 1 / 2 ^ m))))

/-- the coordinates (z, x) of a place in a frame that turns around the axis y, at the time `t` -/
noncomputable def inFrame (omega tc t : ℝ) (r : V3 ℝ) : ℝ × ℝ :=
  (r.z * Real.cos ((t - tc) * omega) - r.x * Real.sin ((t - tc) * omega),
   r.x * Real.cos ((t - tc) * omega) + r.z * Real.sin ((t - tc) * omega))

/-- a slot of half length `splen` which is `w1` wide in the centre and `w2` at the ends -/
def InSlot (w1 w2 splen : ℝ) (p : ℝ × ℝ) : Prop := |p.2| ≤ w1 / 2 + (w2 - w1) / 2 * (|p.1| / splen)

/-- the place `u` (measured across the package) is inside of the blade number `k`; the blades are `bw` thick and start at `b`,
`b + pitch`, ... (as they are drawn, `Fermi_chop2.comp:274-277`) -/
def InBlade (b pitch bw u : ℝ) (k : ℤ) : Prop := b + k * pitch < u ∧ u < b + k * pitch + bw

end Verif.McFermi
