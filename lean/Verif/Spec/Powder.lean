import Verif.Model.Powder
import Verif.Spec.Kinem
/-!
Specification vocabulary for powder diffraction.
-/

namespace Verif.Powder
open Solid Flight Homog Kinem
noncomputable section

/-- rotation by `angle` about the unit vector `e` (Rodrigues' formula) -/
def rodrigues (e : V3 ℝ) (angle : ℝ) (v : V3 ℝ) : V3 ℝ :=
  Real.cos angle • v + ((1 - Real.cos angle) * e.dot v) • e + Real.sin angle • V3.cross e v

/-- a peak that a neutron of this speed can reach -/
def Reachable (speed : ℝ) (p : Peak) : Prop := p.q ≤ 2 * (v2k * speed)

open Classical in
/-- sum over the peaks that can be reached -/
def sumReachable (speed : ℝ) (f : Peak → ℝ) (ps : List Peak) : ℝ :=
  ((ps.filter fun p => decide (Reachable speed p)).map f).sum

/-- one neutron with its three random numbers -/
structure Shot where
  (u1 u2 u3 : ℝ)
  ev : Ev

/-- `m_d_phi` after a sequence of neutrons; unchanged by one that ends in an exception -/
def after (d : Data) (dphi : ℝ) (hist : List Shot) : ℝ :=
  hist.foldl (fun s x => match scatter d s x.u1 x.u2 x.u3 x.ev with
    | .ok (_, s') => s'
    | .error _ => s) dphi

/-- weight with which a neutron goes on: lost ones and exceptions count nothing -/
def weight (o : Except Err (Ev × ℝ)) : ℝ := match o with
  | .ok (ev, _) => max ev.p 0
  | .error _ => 0

open Classical in
/-- weight of neutrons whose elevation is at most `phi` (degrees) -/
def weightWithin (phi : ℝ) (o : Except Err (Ev × ℝ)) : ℝ := match o with
  | .ok (ev, _) => if |ev.v.y| ≤ √(ev.v.dot ev.v) * Real.sin (phi * (Real.pi / 180)) then max ev.p 0 else 0
  | .error _ => 0

end
end Verif.Powder
