import Verif.Model.Assembly
import Verif.Spec.Solid
/-!
Specification of the Python shapes: the bodies their documentation describes, as point sets in the
McStas frame (x transversal, y vertical, z along the beam), without the renderers.
-/

namespace Verif.Assembly
open Verif.Solid
noncomputable section

/-- the point `q` turned by the angle `th` (radian) about the axis through the origin along the unit
vector `n`, counter-clockwise seen from the tip of `n` (Rodrigues) -/
def turned (n : V3 ℝ) (th : ℝ) (q : V3 ℝ) : V3 ℝ :=
  Real.cos th • q + Real.sin th • n.cross q + ((1 - Real.cos th) * n.dot q) • n

/-- the unit vector along `a` -/
def along (a : V3 ℝ) : V3 ℝ := (1 / Real.sqrt (a.x ^ 2 + a.y ^ 2 + a.z ^ 2)) • a

/-- degrees to radian -/
def deg (a : ℝ) : ℝ := a / 180 * Real.pi

/-- three consecutive rotations about x, y' and z'' (documentation of `McStasConvention.py:18-28`) -/
def turnedXYZ (a q : V3 ℝ) : V3 ℝ :=
  turned ⟨1, 0, 0⟩ (deg a.x) (turned ⟨0, 1, 0⟩ (deg a.y) (turned ⟨0, 0, 1⟩ (deg a.z) q))

/-- the vector with the given components: along (x, y, z), or along (beam, transversal, vertical) -/
def labVector : Bool → V3 ℝ → V3 ℝ
  | true, v => v
  | false, v => ⟨v.y, v.z, v.x⟩

mutual
/-- the body described -/
def Body : PyShape → V3 ℝ → Prop
  | .blockD d, p => |p.x| ≤ d.x / 2 ∧ |p.y| ≤ d.y / 2 ∧ |p.z| ≤ d.z / 2
  | .block w h t, p => |p.x| ≤ w / 2 ∧ |p.y| ≤ h / 2 ∧ |p.z| ≤ t / 2
  | .sphere r, p => p.x ^ 2 + p.y ^ 2 + p.z ^ 2 ≤ r ^ 2
  | .cylinder r h, p => p.x ^ 2 + p.z ^ 2 ≤ r ^ 2 ∧ |p.y| ≤ h / 2
  | .pyramid t w h, p =>
    -h ≤ p.y ∧ p.y ≤ 0 ∧ |p.x| ≤ -p.y / h * (w / 2) ∧ |p.z| ≤ -p.y / h * (t / 2)
  | .cone r h, p => -h ≤ p.y ∧ p.y ≤ 0 ∧ p.x ^ 2 + p.z ^ 2 ≤ (-p.y / h * r) ^ 2
  | .hollowCylinder r1 r2 h, p =>
    (r1 = 0 ∨ r1 ^ 2 < p.x ^ 2 + p.z ^ 2) ∧ p.x ^ 2 + p.z ^ 2 ≤ r2 ^ 2 ∧ |p.y| ≤ h / 2
  | .sphereShell r1 r2, p =>
    (r1 = 0 ∨ r1 ^ 2 < p.x ^ 2 + p.y ^ 2 + p.z ^ 2) ∧ p.x ^ 2 + p.y ^ 2 + p.z ^ 2 ≤ r2 ^ 2
  | .union l, p => BodyAny l p
  | .intersection l, p => BodyAll l p
  | .difference a b, p => Body a p ∧ ¬ Body b p
  | .dilation b s, p => ∃ q, Body b q ∧ p = s • q
  | .rotEuler b a, p => ∃ q, Body b q ∧ p = turnedXYZ a q
  | .rotAxis b axis angle implicit, p =>
    ∃ q, Body b q ∧ p = turned (along (labVector implicit axis)) (deg angle) q
  | .translation b v implicit, p => ∃ q, Body b q ∧ p = q + labVector implicit v
/-- in one of the bodies -/
def BodyAny : List PyShape → V3 ℝ → Prop
  | [], _ => False
  | s :: l, p => Body s p ∨ BodyAny l p
/-- in all bodies -/
def BodyAll : List PyShape → V3 ℝ → Prop
  | [], _ => True
  | s :: l, p => Body s p ∧ BodyAll l p
end

mutual
/-- descriptions that make sense: positive dimensions, hollow shapes with walls, scales that are not
0, axes that are not 0 -/
def Good : PyShape → Prop
  | .blockD d => 0 < d.x ∧ 0 < d.y ∧ 0 < d.z
  | .block w h t => 0 < w ∧ 0 < h ∧ 0 < t
  | .sphere r => 0 < r
  | .cylinder r h => 0 < r ∧ 0 < h
  | .pyramid t w h => 0 < t ∧ 0 < w ∧ 0 < h
  | .cone r h => 0 < r ∧ 0 < h
  | .hollowCylinder r1 r2 h => 0 ≤ r1 ∧ r1 < r2 ∧ 0 < h
  | .sphereShell r1 r2 => 0 ≤ r1 ∧ r1 < r2
  | .union l => GoodAll l
  | .intersection l => GoodAll l
  | .difference a b => Good a ∧ Good b
  | .dilation b s => Good b ∧ s ≠ 0
  | .rotEuler b _ => Good b
  | .rotAxis b axis _ _ => Good b ∧ axis ≠ 0
  | .translation b _ _ => Good b
/-- all make sense -/
def GoodAll : List PyShape → Prop
  | [] => True
  | s :: l => Good s ∧ GoodAll l
end

mutual
/-- made of shapes given by width, height, thickness and radius only, without rotations and
translations -/
def Unturned : PyShape → Prop
  | .block .. | .sphere .. | .cylinder .. | .pyramid .. | .cone .. => True
  | .hollowCylinder .. | .sphereShell .. => True
  | .blockD .. | .rotEuler .. | .rotAxis .. | .translation .. => False
  | .union l => UnturnedAll l
  | .intersection l => UnturnedAll l
  | .difference a b => Unturned a ∧ Unturned b
  | .dilation b _ => Unturned b
/-- all of that kind -/
def UnturnedAll : List PyShape → Prop
  | [] => True
  | s :: l => Unturned s ∧ UnturnedAll l
end

/-- a composite made by adding elements with their positions and orientations, in this order -/
def assembled (l : List (PyElem × V3 ℝ × V3 ℝ)) : PyComp :=
  l.foldl (fun c x => c.addElement x.1 x.2.1 x.2.2) (PyComp.new none)

mutual
/-- no copies but those of composites and tubes -/
def Copyable : PyScat → Prop
  | .homogeneous _ => True
  | .he3tube _ => True
  | .composite l => CopyableAll l
  | .copy (.composite l) => CopyableAll l
  | .copy (.he3tube _) => True
  | .copy (.homogeneous _) => False
  | .copy (.copy _) => False
/-- all of that kind -/
def CopyableAll : List PyScat → Prop
  | [] => True
  | s :: l => Copyable s ∧ CopyableAll l
end

mutual
/-- number of pieces of material, a copy counting like what it copies -/
def pieces : PyScat → Nat
  | .homogeneous _ => 1
  | .he3tube _ => 1
  | .composite l => piecesAll l
  | .copy r => pieces r
/-- sum over a list -/
def piecesAll : List PyScat → Nat
  | [] => 0
  | s :: l => pieces s + piecesAll l
end

/-- the unit vector along a direction -/
def dirVec : Dir → V3 ℝ
  | .x => ⟨1, 0, 0⟩
  | .y => ⟨0, 1, 0⟩
  | .z => ⟨0, 0, 1⟩

/-- the direction of the axis of an unrotated cylinder: upwards -/
def upwards : CS → Dir
  | .mcstas => .y
  | .scientist => .z

end
end Verif.Assembly
