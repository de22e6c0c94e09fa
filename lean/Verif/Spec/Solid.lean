import Verif.Model.Solid
import Verif.Spec.Frames
/-!
Specification of the solids: the set of points a shape tree describes, independently of the
locator, the intersector and the bounding box maker.
-/

namespace Verif.Solid

mutual
/-- the (closed) set of points described by a shape.  Primitives: documentation of
`geometry/primitives/*.h` (axis along z; tip of pyramid and cone at the origin, base at
negative z).  Operations: the images and set operations their names say. -/
def Mem : Shape → V3 ℝ → Prop
  | .box X Y Z, p => |p.x| ≤ X / 2 ∧ |p.y| ≤ Y / 2 ∧ |p.z| ≤ Z / 2
  | .cylinder R h, p => p.x * p.x + p.y * p.y ≤ R * R ∧ |p.z| ≤ h / 2
  | .pyramid X Y h, p => -h ≤ p.z ∧ p.z ≤ 0 ∧ 2 * h * |p.x| ≤ -p.z * X ∧ 2 * h * |p.y| ≤ -p.z * Y
  | .cone R h, p => -h ≤ p.z ∧ p.z ≤ 0 ∧ h * h * (p.x * p.x + p.y * p.y) ≤ p.z * p.z * (R * R)
  | .sphere R, p => p.x * p.x + p.y * p.y + p.z * p.z ≤ R * R
  | .difference a b, p => Mem a p ∧ ¬ Mem b p
  | .intersection l, p => MemAll l p
  | .union l, p => MemAny l p
  | .dilation b s, p => ∃ q, Mem b q ∧ p = s • q
  | .reflection _, _ => False
  | .translation b v, p => ∃ q, Mem b q ∧ p = q + v
  | .rotation b m, p => ∃ q, Mem b q ∧ p = m.mulVec q
/-- in all shapes of a list -/
def MemAll : List Shape → V3 ℝ → Prop
  | [], _ => True
  | s :: l, p => Mem s p ∧ MemAll l p
/-- in some shape of a list -/
def MemAny : List Shape → V3 ℝ → Prop
  | [], _ => False
  | s :: l, p => Mem s p ∨ MemAny l p
end

mutual
/-- shapes that make sense: positive dimensions, scales that are not 0, orthogonal matrices,
no `Reflection` (which no visitor supports) -/
def WF : Shape → Prop
  | .box X Y Z => 0 < X ∧ 0 < Y ∧ 0 < Z
  | .cylinder R h => 0 < R ∧ 0 < h
  | .pyramid X Y h => 0 < X ∧ 0 < Y ∧ 0 < h
  | .cone R h => 0 < R ∧ 0 < h
  | .sphere R => 0 < R
  | .difference a b => WF a ∧ WF b
  | .intersection l => WFAll l
  | .union l => WFAll l
  | .dilation b s => WF b ∧ s ≠ 0
  | .reflection _ => False
  | .translation b _ => WF b
  | .rotation b m => WF b ∧ Frames.IsOrtho m
/-- every shape of a list makes sense -/
def WFAll : List Shape → Prop
  | [] => True
  | s :: l => WF s ∧ WFAll l
end

/-- every coordinate of `q` differs by less than `δ` from the one of `p` -/
def Near (δ : ℝ) (p q : V3 ℝ) : Prop := |q.x - p.x| < δ ∧ |q.y - p.y| < δ ∧ |q.z - p.z| < δ

/-- `p` is an interior point of the set: a whole neighbourhood belongs to it -/
def Interior (S : V3 ℝ → Prop) (p : V3 ℝ) : Prop := ∃ δ > 0, ∀ q, Near δ p q → S q

/-- a whole neighbourhood of `p` is disjoint from the set -/
def Exterior (S : V3 ℝ → Prop) (p : V3 ℝ) : Prop := Interior (fun q => ¬ S q) p

/-- the primitive shapes -/
def IsPrim : Shape → Prop
  | .box .. | .cylinder .. | .pyramid .. | .cone .. | .sphere .. => True
  | _ => False

/-- `LeafAt s p leaf q`: `leaf` is one of the primitives `s` is made of, and `q` is the point
`p` as seen in the frame of that primitive -/
inductive LeafAt : Shape → V3 ℝ → Shape → V3 ℝ → Prop
  | prim {s p} : IsPrim s → LeafAt s p s p
  | left {a b p f q} : LeafAt a p f q → LeafAt (.difference a b) p f q
  | right {a b p f q} : LeafAt b p f q → LeafAt (.difference a b) p f q
  | inter {s l p f q} : s ∈ l → LeafAt s p f q → LeafAt (.intersection l) p f q
  | union {s l p f q} : s ∈ l → LeafAt s p f q → LeafAt (.union l) p f q
  | dilation {b k p f q} : LeafAt b p f q → LeafAt (.dilation b k) (k • p) f q
  | translation {b v p f q} : LeafAt b p f q → LeafAt (.translation b v) (p + v) f q
  | rotation {b m p f q} : LeafAt b p f q → LeafAt (.rotation b m) (m.mulVec p) f q

/-- the point is within the tolerance of the surface of the primitive: it belongs to the
primitive up to `ε` and one of the quantities that bound the primitive is within `ε` of its
bound.  (For the sphere the tolerance is one for the squared radius.) -/
def NearSurface (ε : ℝ) : Shape → V3 ℝ → Prop
  | .box X Y Z, p =>
      |p.x| ≤ X / 2 + ε ∧ |p.y| ≤ Y / 2 + ε ∧ |p.z| ≤ Z / 2 + ε ∧
      (|(|p.x| - X / 2)| ≤ ε ∨ |(|p.y| - Y / 2)| ≤ ε ∨ |(|p.z| - Z / 2)| ≤ ε)
  | .cylinder R h, p =>
      |p.z| ≤ h / 2 + ε ∧ √(p.x ^ 2 + p.y ^ 2) ≤ R + ε ∧
      (|(|p.z| - h / 2)| ≤ ε ∨ |√(p.x ^ 2 + p.y ^ 2) - R| ≤ ε)
  | .pyramid X Y h, p =>
      -h - ε ≤ p.z ∧ p.z ≤ ε ∧ |p.x| ≤ (-p.z / h) * X / 2 + ε ∧ |p.y| ≤ (-p.z / h) * Y / 2 + ε ∧
      (|p.z| ≤ ε ∨ |p.z + h| ≤ ε ∨ |(|p.x| - (-p.z / h) * X / 2)| ≤ ε ∨
        |(|p.y| - (-p.z / h) * Y / 2)| ≤ ε)
  | .cone R h, p =>
      -h - ε ≤ p.z ∧ p.z ≤ ε ∧ √(p.x ^ 2 + p.y ^ 2) ≤ (-p.z / h) * R + ε ∧
      (|p.z| ≤ ε ∨ |p.z + h| ≤ ε ∨ |√(p.x ^ 2 + p.y ^ 2) - (-p.z / h) * R| ≤ ε)
  | .sphere R, p => |p.x ^ 2 + p.y ^ 2 + p.z ^ 2 - R ^ 2| ≤ ε
  | _, _ => False

/-! ### bounding boxes -/

/-- the point lies in the box with the given centre and edges -/
def InBB (b : BB) (p : V3 ℝ) : Prop :=
  |p.x - b.cx| ≤ b.sx / 2 ∧ |p.y - b.cy| ≤ b.sy / 2 ∧ |p.z - b.cz| ≤ b.sz / 2

/-- a rotation that maps coordinate axes to coordinate axes: every row has absolute sum at
most 1 (for an orthogonal matrix: one entry ±1 per row) -/
def AxisAligned (m : M3 ℝ) : Prop :=
  |m.r0.x| + |m.r0.y| + |m.r0.z| ≤ 1 ∧ |m.r1.x| + |m.r1.y| + |m.r1.z| ≤ 1 ∧
  |m.r2.x| + |m.r2.y| + |m.r2.z| ≤ 1

mutual
/-- every rotation is axis aligned and every scale is positive -/
def Upright : Shape → Prop
  | .difference a _ => Upright a
  | .intersection l => UprightAll l
  | .union l => UprightAll l
  | .dilation b s => Upright b ∧ 0 < s
  | .reflection _ => False
  | .translation b _ => Upright b
  | .rotation b m => Upright b ∧ AxisAligned m
  | _ => True
/-- every shape of a list is upright -/
def UprightAll : List Shape → Prop
  | [] => True
  | s :: l => Upright s ∧ UprightAll l
end

/-! ### flight paths -/

/-- the point of the flight path at time `t` -/
def at' (p v : V3 ℝ) (t : ℝ) : V3 ℝ := p + t • v

/-- the path never touches the set -/
def Misses (s : Shape) (p v : V3 ℝ) : Prop := ∀ t, ¬ Mem s (at' p v t)

/-- the path goes through the interior of the shape -/
def Pierces (s : Shape) (p v : V3 ℝ) : Prop := ∃ t, Interior (Mem s) (at' p v t)

/-- the path goes through no edge of the box -/
def AvoidsEdges (X Y Z : ℝ) (p v : V3 ℝ) : Prop :=
  ∀ t, Mem (.box X Y Z) (at' p v t) →
    ¬ (|(at' p v t).x| = X / 2 ∧ |(at' p v t).y| = Y / 2) ∧
    ¬ (|(at' p v t).y| = Y / 2 ∧ |(at' p v t).z| = Z / 2) ∧
    ¬ (|(at' p v t).z| = Z / 2 ∧ |(at' p v t).x| = X / 2)

/-- the sine of the angle between the path and the plane with normal `n` is at least `par` -/
noncomputable def Across (par : ℝ) (n v : V3 ℝ) : Prop :=
  par * (√(n.dot n) * √(v.dot v)) ≤ |n.dot v|

mutual
/-- the path is in general position with respect to every primitive the shape is made of (in
the frame of the primitive): it misses the primitive or goes through its interior.  It
goes through no edge of a box.  It is not parallel (up to `par`, 1e-10 in the code) to a
slanted face of a pyramid, and the way through a pyramid is not shorter than a fifth of the
tolerance.  Cones are not allowed. -/
def Generic (tol par : ℝ) : Shape → V3 ℝ → V3 ℝ → Prop
  | .box X Y Z, p, v =>
      Misses (.box X Y Z) p v ∨ (Pierces (.box X Y Z) p v ∧ AvoidsEdges X Y Z p v)
  | .cylinder R h, p, v => Misses (.cylinder R h) p v ∨ Pierces (.cylinder R h) p v
  | .pyramid X Y h, p, v => Misses (.pyramid X Y h) p v ∨
      (Pierces (.pyramid X Y h) p v ∧
        Across par ⟨2 * h, 0, X⟩ v ∧ Across par ⟨-(2 * h), 0, X⟩ v ∧
        Across par ⟨0, 2 * h, Y⟩ v ∧ Across par ⟨0, -(2 * h), Y⟩ v ∧
        ∃ t0 t1, Mem (.pyramid X Y h) (at' p v t0) ∧ Mem (.pyramid X Y h) (at' p v t1) ∧
          tol / 5 ≤ (t1 - t0) * √(v.dot v))
  | .cone _ _, _, _ => False
  | .sphere _, _, _ => True
  | .difference a b, p, v => Generic tol par a p v ∧ Generic tol par b p v
  | .intersection l, p, v => GenericAll tol par l p v
  | .union l, p, v => GenericAll tol par l p v
  | .dilation b k, p, v => ∀ q w, p = k • q → v = k • w → Generic tol par b q w
  | .reflection _, _, _ => False
  | .translation b u, p, v => ∀ q, p = q + u → Generic tol par b q v
  | .rotation b m, p, v => ∀ q w, p = m.mulVec q → v = m.mulVec w → Generic tol par b q w
/-- general position with respect to every shape of a list -/
def GenericAll (tol par : ℝ) : List Shape → V3 ℝ → V3 ℝ → Prop
  | [], _, _ => True
  | s :: l, p, v => Generic tol par s p v ∧ GenericAll tol par l p v
end

mutual
/-- no cone is part of the shape -/
def ConeFree : Shape → Prop
  | .cone _ _ => False
  | .difference a b => ConeFree a ∧ ConeFree b
  | .intersection l => ConeFreeAll l
  | .union l => ConeFreeAll l
  | .dilation b _ => ConeFree b
  | .reflection b => ConeFree b
  | .translation b _ => ConeFree b
  | .rotation b _ => ConeFree b
  | _ => True
/-- no cone is part of any shape of the list -/
def ConeFreeAll : List Shape → Prop
  | [] => True
  | s :: l => ConeFree s ∧ ConeFreeAll l
end

/-- `Changes S p v t0 t1`: one of the points at `t0` and `t1` is in the set, the other is
not -/
def Changes (s : Shape) (p v : V3 ℝ) (t0 t1 : ℝ) : Prop :=
  ¬ (Mem s (at' p v t0) ↔ Mem s (at' p v t1))

/-- the list of times contains a time of every entry into and exit from the shape -/
def CatchesAll (s : Shape) (p v : V3 ℝ) (ts : List ℝ) : Prop :=
  ∀ t0 t1, t0 ≤ t1 → Changes s p v t0 t1 → ∃ t ∈ ts, t0 ≤ t ∧ t ≤ t1

/-- no point of one shape is an interior point of another one -/
def Apart (shapes : List Shape) : Prop :=
  ∀ i j : Nat, i ≠ j → ∀ s s', shapes[i]? = some s → shapes[j]? = some s' →
    ∀ q, Mem s q → ¬ Interior (Mem s') q

/-- a path first meets a shape at time `a`: no shape of the list before, and that shape from
`a` to `b` -/
def FirstMeets (shapes : List Shape) (p v : V3 ℝ) (s : Shape) (a b : ℝ) : Prop :=
  0 ≤ a ∧ a < b ∧ (∀ t, a < t → t < b → Mem s (at' p v t)) ∧
    ∀ t, 0 ≤ t → t < a → ∀ s' ∈ shapes, ¬ Mem s' (at' p v t)

end Verif.Solid
