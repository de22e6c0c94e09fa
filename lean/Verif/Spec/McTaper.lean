import Verif.Model.McTaper
import Verif.Spec.McOptics2
/-!
Specification for the guide with curved walls.
-/

namespace Verif.McTaper
open McStas Kinem McGuide Homog
noncomputable section
open Classical

/-- the point at the distance `z` from the entrance and `y` from the axis is on the ellipse through the edge of the entrance (of the size `s`),
which has its focal points on the axis: `lin` before the entrance and `lout` behind the exit -/
def OnEllipse (s l lin lout z y : ℝ) : Prop :=
  √((z + lin) ^ 2 + y ^ 2) + √((l + lout - z) ^ 2 + y ^ 2) = √(lin ^ 2 + (s / 2) ^ 2) + √((l + lout) ^ 2 + (s / 2) ^ 2)

/-- the point is on the parabola through the edge of the entrance with the focal point on the axis: `lout` behind the exit, or `lin` before
the entrance -/
def OnParabola (s l lin lout z y : ℝ) : Prop :=
  if lin = 0 then √((l + lout - z) ^ 2 + y ^ 2) - (l + lout - z) = √((l + lout) ^ 2 + (s / 2) ^ 2) - (l + lout)
  else √((z + lin) ^ 2 + y ^ 2) - (z + lin) = √(lin ^ 2 + (s / 2) ^ 2) - lin

/-- the size of the guide at `z`: its edges are on the curve; plane without focal points -/
def Shape (On : ℝ → ℝ → ℝ → ℝ → ℝ → ℝ → Prop) (s l lin lout z x : ℝ) : Prop :=
  if lin = 0 ∧ lout = 0 then x = s else 0 < x ∧ On s l lin lout z (x / 2)

/-- the guide has `n` segments of the same length, which begin and end on the curves -/
def Follows (On : ℝ → ℝ → ℝ → ℝ → ℝ → ℝ → Prop) (c : Par) (n : ℕ) (g : Guide) : Prop :=
  g.segs.length = n ∧ g.lseg = c.l / n ∧ ∀ i, ∀ hi : i < g.segs.length,
    Shape On c.h1 c.l c.linh c.louth (c.l * (i / n)) g.segs[i].h1 ∧ Shape On c.h1 c.l c.linh c.louth (c.l * ((i + 1) / n)) g.segs[i].h2 ∧
    Shape On c.w1 c.l c.linw c.loutw (c.l * (i / n)) g.segs[i].w1 ∧ Shape On c.w1 c.l c.linw c.loutw (c.l * ((i + 1) / n)) g.segs[i].w2

/-- parameters that make sense, for a guide of `n` segments -/
structure Par.Sane (c : Par) (n : ℕ) : Prop where
  W : 0 < c.W
  l : 0 < c.l
  h1 : 0 < c.h1
  w1 : 0 < c.w1
  linw : 0 ≤ c.linw
  loutw : 0 ≤ c.loutw
  linh : 0 ≤ c.linh
  louth : 0 ≤ c.louth
  segno : c.segno = n
  pos : 0 < n

/-! ### flight through the guide -/

/-- the neutron as seen from the entrance of a segment -/
def from' (zr : ℝ) (e : Event ℝ) : Event ℝ := { e with r := ⟨e.r.x, e.r.y, e.r.z - zr⟩ }

/-- the mirror of a segment with the normal `n`: at the side or above and below; a negative `m` grows where the guide is narrow -/
def Guide.mirror (g : Guide) (s : Seg) (n : V3 ℝ) : McOptB.Reflec :=
  if n.y = 0 then ⟨g.R0, g.Qcx, g.alphax, if 0 < g.mx then g.mx else |g.mx| * |g.w1 / s.w1|, g.W⟩
  else ⟨g.R0, g.Qcy, g.alphay, if 0 < g.my then g.my else |g.my| * |g.h1 / s.h1|, g.W⟩

/-- the reflectivity `k` of the mirror for the momentum transfer `q` (`C257_partial`); 0 without reflection -/
def Reflects (c : McOptB.Reflec) (q k : ℝ) : Prop :=
  (c.m ≤ 0 → k = 0) ∧ (0 < c.m → |q| ≤ c.total → k = c.R0) ∧
  (0 < c.m → c.total < |q| → |q| ≤ c.m * c.Qc + 10 * c.W → k = max 0 (c.beyond |q|)) ∧ (0 < c.m → c.m * c.Qc + 10 * c.W < |q| → k = 0)

/-- a reflection in a segment that begins at `zr` -/
def Guide.Step (g : Guide) (s : Seg) (zr : ℝ) (e e' : Event ℝ) : Prop :=
  ∃ n e1 q k, McOptB.HitOn (g.tube s) n (from' zr e) (from' zr e1) q ∧ Reflects (g.mirror s n) q k ∧ 0 < k ∧ e' = { e1 with p := e1.p * k }

/-- the neutron is stopped in the next reflection -/
def Guide.Stops (g : Guide) (s : Seg) (zr : ℝ) (e r : Event ℝ) : Prop :=
  ∃ n e1 q, McOptB.HitOn (g.tube s) n (from' zr e) (from' zr e1) q ∧ Reflects (g.mirror s n) q 0 ∧ r = McOpt.stopped e1

/-- the neutron flies from the segment before to the entrance of a segment at `zr` -/
def Arrives (zr : ℝ) (e a : Event ℝ) : Prop := ∃ s, 0 ≤ s ∧ a = flown Off e s ∧ a.r.z = zr

/-- the opening of a segment -/
def Seg.Opening (s : Seg) (r : V3 ℝ) : Prop := |r.x| < s.w1 / 2 ∧ |r.y| < s.h1 / 2

/-- the neutron passes the segments, which begin at the segment number `i`, and is behind its last reflection -/
def Guide.Passes (g : Guide) : List Seg → ℕ → Event ℝ → Event ℝ → Prop
  | [], _, e, r => r = e
  | s :: ss, i, e, r => ∃ a b, Arrives (i * g.lseg) e a ∧ s.Opening a.r ∧ Relation.ReflTransGen (g.Step s (i * g.lseg)) a b ∧
      (g.tube s).Leaves (from' (i * g.lseg) b) ∧ Guide.Passes g ss (i + 1) b r

/-- the neutron passes some of the segments and is stopped at the entrance of the next one or at a mirror of it -/
def Guide.Halts (g : Guide) (ss : List Seg) (i : ℕ) (e r : Event ℝ) : Prop :=
  ∃ s1 s s2 b a, ss = s1 ++ s :: s2 ∧ g.Passes s1 i e b ∧ Arrives ((i + s1.length : ℕ) * g.lseg) b a ∧
    ((¬ s.Opening a.r ∧ r = McOpt.stopped a) ∨
      s.Opening a.r ∧ ∃ c, Relation.ReflTransGen (g.Step s ((i + s1.length : ℕ) * g.lseg)) a c ∧ g.Stops s ((i + s1.length : ℕ) * g.lseg) c r)

/-- the neutron passes some of the segments and does not arrive at the next one: it flies back -/
def Guide.Astray (g : Guide) (ss : List Seg) (i : ℕ) (e : Event ℝ) : Prop :=
  ∃ s1 s s2 b, ss = s1 ++ s :: s2 ∧ g.Passes s1 i e b ∧ ¬ ∃ a, Arrives ((i + s1.length : ℕ) * g.lseg) b a

end
end Verif.McTaper
