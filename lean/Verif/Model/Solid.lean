import Mathlib.Analysis.Real.Sqrt
import Mathlib.Data.List.Sort
import Verif.Model.Base
import Verif.Model.Vec
/-!
Solids of `packages/mccomposite/lib/geometry`: the shape tree, the point locator, the
bounding box maker, the arrow intersector and the search for the first object hit.

The coordinates are real numbers; rounding is not modelled.  The tolerances of the code
(`tolerance.h:5`, 1e-12) are parameters of the model.
-/

namespace Verif.Solid
open Classical
noncomputable section

/-- the shapes, `geometry/primitives/*.h` and `geometry/operations/*.h`.  `Difference` has
exactly two bodies (`Difference.h:14-16`), `Intersection` and `Union` have a vector of
shapes (`Composition.h`).  `Reflection`'s own data are irrelevant, as every visitor throws
for it. -/
inductive Shape where
  | box (X Y Z : ℝ)
  | cylinder (radius height : ℝ)
  | pyramid (X Y height : ℝ)
  | cone (radius height : ℝ)
  | sphere (radius : ℝ)
  | difference (a b : Shape)
  | intersection (l : List Shape)
  | union (l : List Shape)
  | dilation (body : Shape) (scale : ℝ)
  | reflection (body : Shape)
  | translation (body : Shape) (vector : V3 ℝ)
  | rotation (body : Shape) (rotmat : M3 ℝ)

/-- `Locator::Location`, `visitors/Locator.h:33` -/
inductive Loc where
  | inside | onborder | outside
  deriving DecidableEq, Repr

/-! ### Locator -/

/-- `Locator::visit(const Box*)`, `visitors/Locator.cc:39-61` -/
def locBox (ret X Y Z : ℝ) (p : V3 ℝ) : Loc :=
  if |p.x| > (X + ret) / 2 ∨ |p.y| > (Y + ret) / 2 ∨ |p.z| > (Z + ret) / 2 then .outside
  else if |(|p.x| - X / 2)| < ret ∨ |(|p.y| - Y / 2)| < ret ∨ |(|p.z| - Z / 2)| < ret then
    .onborder
  else .inside

/-- `Locator::visit(const Cylinder*)`, `visitors/Locator.cc:63-87` -/
def locCylinder (ret radius height : ℝ) (p : V3 ℝ) : Loc :=
  if |p.z| - height / 2 > ret then .outside
  else
    let r := Real.sqrt (p.x * p.x + p.y * p.y)
    if r - radius > ret then .outside
    else if height / 2 - |p.z| > ret ∧ radius - r > ret then .inside
    else .onborder

/-- `Locator::visit(const Pyramid*)`, `visitors/Locator.cc:89-117` -/
def locPyramid (rtol X Y height : ℝ) (p : V3 ℝ) : Loc :=
  if p.z > rtol ∨ p.z < -height - rtol then .outside
  else
    let ratio := -p.z / height
    let X1 := ratio * X
    let Y1 := ratio * Y
    if |p.x| > X1 / 2 + rtol ∨ |p.y| > Y1 / 2 + rtol then .outside
    else if p.z < -rtol ∧ p.z > -height + rtol then
      if |p.x| < X1 / 2 - rtol ∧ |p.y| < Y1 / 2 - rtol then .inside else .onborder
    else .onborder

/-- `Locator::visit(const Cone*)`, `visitors/Locator.cc:119-147` -/
def locCone (rtol R height : ℝ) (p : V3 ℝ) : Loc :=
  if p.z > rtol ∨ p.z < -height - rtol then .outside
  else
    let r := Real.sqrt (p.x * p.x + p.y * p.y)
    let ratio := -p.z / height
    let R1 := ratio * R
    if r > R1 + rtol then .outside
    else if p.z < -rtol ∧ p.z > -height + rtol then
      if r < R1 - rtol then .inside else .onborder
    else .onborder

/-- `Locator::visit(const Sphere*)`, `visitors/Locator.cc:149-166` -/
def locSphere (ret radius : ℝ) (p : V3 ℝ) : Loc :=
  let R2 := radius * radius
  let r2 := p.x * p.x + p.y * p.y + p.z * p.z
  if r2 - R2 > ret then .outside
  else if R2 - r2 > ret then .inside
  else .onborder

/-- combination of the two locations in `Locator::visit(const Difference*)`,
`visitors/Locator.cc:168-180` -/
def locDifference (p1 p2 : Loc) : Loc :=
  if p1 = .outside ∨ p2 = .inside then .outside
  else if p1 = .onborder ∨ p2 = .onborder then .onborder
  else .inside

mutual
/-- `Locator::locate` and its `visit` methods, `visitors/Locator.cc:31-261`; `ret` is
`roundingErrorTolerance`.  The visitor keeps the current point in a member that it saves and
restores; here the point is an argument.  The exception of `Reflection` (231-236) is a
value. -/
def locate (ret : ℝ) : Shape → V3 ℝ → Except Err Loc
  | .box X Y Z, p => .ok (locBox ret X Y Z p)
  | .cylinder R h, p => .ok (locCylinder ret R h p)
  | .pyramid X Y h, p => .ok (locPyramid ret X Y h p)
  | .cone R h, p => .ok (locCone ret R h p)
  | .sphere R, p => .ok (locSphere ret R p)
  | .difference a b, p => do
    let p1 ← locate ret a p
    let p2 ← locate ret b p
    .ok (locDifference p1 p2)
  | .intersection l, p => locIntersection ret l p true
  | .union l, p => locUnion ret l p true
  | .dilation body scale, p => locate ret body ((1 / scale) • p)
  | .reflection _, _ => .error .cppException
  | .translation body v, p => locate ret body (p - v)
  | .rotation body m, p => locate ret body (m.transpose.mulVec p)
/-- the loop of `Locator::visit(const Intersection*)`, `visitors/Locator.cc:188-197`, with
the flag `isinside` -/
def locIntersection (ret : ℝ) : List Shape → V3 ℝ → Bool → Except Err Loc
  | [], _, isinside => .ok (if isinside then .inside else .onborder)
  | s :: l, p, isinside => do
    let loc ← locate ret s p
    if loc = .outside then .ok .outside
    else locIntersection ret l p (isinside && decide (loc = .inside))
/-- the loop of `Locator::visit(const Union*)`, `visitors/Locator.cc:206-215`, with the flag
`isoutside` -/
def locUnion (ret : ℝ) : List Shape → V3 ℝ → Bool → Except Err Loc
  | [], _, isoutside => .ok (if isoutside then .outside else .onborder)
  | s :: l, p, isoutside => do
    let loc ← locate ret s p
    if loc = .inside then .ok .inside
    else locUnion ret l p (isoutside && decide (loc = .outside))
end

/-! ### bounding boxes -/

/-- `BoundingBox`, `geometry/BoundingBox.h:12-15`: centre and edge lengths -/
@[ext] structure BB where
  cx : ℝ
  cy : ℝ
  cz : ℝ
  sx : ℝ
  sy : ℝ
  sz : ℝ

/-- `uniteBB`, `visitors/BoundingBoxMaker.cc:16-29` -/
def uniteBB (a b : BB) : BB :=
  let xmin := min (a.cx - a.sx / 2) (b.cx - b.sx / 2)
  let xmax := max (a.cx + a.sx / 2) (b.cx + b.sx / 2)
  let ymin := min (a.cy - a.sy / 2) (b.cy - b.sy / 2)
  let ymax := max (a.cy + a.sy / 2) (b.cy + b.sy / 2)
  let zmin := min (a.cz - a.sz / 2) (b.cz - b.sz / 2)
  let zmax := max (a.cz + a.sz / 2) (b.cz + b.sz / 2)
  ⟨(xmin + xmax) / 2, (ymin + ymax) / 2, (zmin + zmax) / 2,
   xmax - xmin, ymax - ymin, zmax - zmin⟩

/-- `intersectBB`, `visitors/BoundingBoxMaker.cc:30-43` -/
def intersectBB (a b : BB) : BB :=
  let xmin := max (a.cx - a.sx / 2) (b.cx - b.sx / 2)
  let xmax := min (a.cx + a.sx / 2) (b.cx + b.sx / 2)
  let ymin := max (a.cy - a.sy / 2) (b.cy - b.sy / 2)
  let ymax := min (a.cy + a.sy / 2) (b.cy + b.sy / 2)
  let zmin := max (a.cz - a.sz / 2) (b.cz - b.sz / 2)
  let zmax := min (a.cz + a.sz / 2) (b.cz + b.sz / 2)
  ⟨(xmin + xmax) / 2, (ymin + ymax) / 2, (zmin + zmax) / 2,
   max (xmax - xmin) 0, max (ymax - ymin) 0, max (zmax - zmin) 0⟩

mutual
/-- `BoundingBoxMaker::make` and its `visit` methods, `visitors/BoundingBoxMaker.cc:53-194`.
A failing `assert` (124, 141) is the value `assertionError`.  The `Union` loop starts at
index 0 and so unites the first box with itself (145), which is the `uniteBB` in
`bboxUnion`. -/
def bbox : Shape → Except Err BB
  | .box X Y Z => .ok ⟨0, 0, 0, X, Y, Z⟩
  | .cylinder R h => .ok ⟨0, 0, 0, R * 2, R * 2, h⟩
  | .pyramid X Y h => .ok ⟨0, 0, -h / 2, X, Y, h⟩
  | .cone R h => .ok ⟨0, 0, -h / 2, R * 2, R * 2, h⟩
  | .sphere R => .ok ⟨0, 0, 0, R * 2, R * 2, R * 2⟩
  | .difference a _ => bbox a
  | .intersection [] => .error .assertionError
  | .intersection (s :: l) => do
    let b ← bbox s
    bboxIntersection l b
  | .union [] => .error .assertionError
  | .union (s :: l) => do
    let b ← bbox s
    bboxUnion l (uniteBB b b)
  | .dilation body scale => do
    let b ← bbox body
    .ok ⟨b.cx * scale, b.cy * scale, b.cz * scale, b.sx * scale, b.sy * scale, b.sz * scale⟩
  | .reflection _ => .error .cppException
  | .translation body v => do
    let b ← bbox body
    .ok ⟨b.cx + v.x, b.cy + v.y, b.cz + v.z, b.sx, b.sy, b.sz⟩
  | .rotation body m => do
    let b ← bbox body
    let c := m.mulVec ⟨b.cx, b.cy, b.cz⟩
    let s := max b.sx (max b.sy b.sz)
    .ok ⟨c.x, c.y, c.z, s, s, s⟩
/-- the loop of `BoundingBoxMaker::visit(const Intersection*)`, `visitors/BoundingBoxMaker.cc:128-131` -/
def bboxIntersection : List Shape → BB → Except Err BB
  | [], r => .ok r
  | s :: l, r => do
    let b ← bbox s
    bboxIntersection l (intersectBB r b)
/-- the loop of `BoundingBoxMaker::visit(const Union*)`, `visitors/BoundingBoxMaker.cc:145-148` -/
def bboxUnion : List Shape → BB → Except Err BB
  | [], r => .ok r
  | s :: l, r => do
    let b ← bbox s
    bboxUnion l (uniteBB r b)
end

/-! ### arrow intersector -/

/-- `eq_withinepsilon`, `visitors/ArrowIntersector.cc:30-33` -/
def eqEps (tol x y : ℝ) : Bool := decide (|x - y| < tol / 5)

/-- `std::unique(begin, end, pred)`, called in `visitors/ArrowIntersector.cc:336-338`: an element is dropped when it is equivalent to the last
element kept.  `last` is the last element kept. -/
def uniqueFrom (eq : ℝ → ℝ → Bool) (last : ℝ) : List ℝ → List ℝ
  | [] => []
  | x :: l => if eq last x then uniqueFrom eq last l else x :: uniqueFrom eq x l

/-- `std::unique` as used in `ArrowIntersector.cc:336-338,448-450,546-548` -/
def unique (eq : ℝ → ℝ → Bool) : List ℝ → List ℝ
  | [] => []
  | x :: l => x :: uniqueFrom eq x l

/-- `std::sort`, called in `visitors/ArrowIntersector.cc:335` -/
def sort (l : List ℝ) : List ℝ := l.insertionSort (· ≤ ·)

/-- `isInvaildDirection`, `visitors/ArrowIntersector.cc:94-97` -/
def isInvalidDirection (v : V3 ℝ) : Bool := decide (v.x = 0 ∧ v.y = 0 ∧ v.z = 0)

/-- `Vector3::length`, `mcni/lib/geometry/Vector3.icc:76-80` -/
def length (v : V3 ℝ) : ℝ := Real.sqrt v.length2

/-- `Vector3::normalize`, `mcni/lib/geometry/Vector3.icc:54-58` -/
def normalize (v : V3 ℝ) : V3 ℝ := ⟨v.x / length v, v.y / length v, v.z / length v⟩

/-- `intersectTriangle`, `visitors/ArrowIntersector.cc:104-133`; the constant 1e-10 (116) is
the argument `par`.  What is pushed to `ts` is returned. -/
def intersectTriangle (par : ℝ) (r v A B C : V3 ℝ) : List ℝ :=
  let AB := B - A
  let AC := C - A
  let N := normalize (AB.cross AC)
  let d := N.dot A
  let vp := N.dot v
  if |vp| < par then []
  else
    let t := (d - N.dot r) / N.dot v
    let P := r + t • v
    let AP := P - A
    let AC' := N.cross AC
    let c1 := AP.dot AC' / AB.dot AC'
    if c1 < 0 then []
    else
      let AB' := N.cross AB
      let c2 := AP.dot AB' / AC.dot AB'
      if c2 < 0 then []
      else if c1 + c2 > 1 then []
      else [t]

/-- `intersectRectangle`, `visitors/ArrowIntersector.cc:140-150` (the callers make sure that
`vz` is not 0) -/
def intersectRectangle (rx ry rz vx vy vz X Y : ℝ) : List ℝ :=
  let t := (0 - rz) / vz
  let r1x := rx + vx * t
  let r1y := ry + vy * t
  if |r1x| < X / 2 ∧ |r1y| < Y / 2 then [t] else []

/-- `intersectCylinderSide`, `visitors/ArrowIntersector.cc:158-186`.  When `a` is 0 (arrow
parallel to the axis) `k` is 0 and the code divides by zero; the time is a NaN, for which
the comparison of line 173 is false. -/
def intersectCylinderSide (x y z vx vy vz r h : ℝ) : List ℝ :=
  let a := vx * vx + vy * vy
  let b := x * vx + y * vy
  let c := x * x + y * y - r * r
  let k := b * b - a * c
  let hh := h / 2
  if k < 0 then []
  else if k = 0 then
    if a = 0 then []
    else if |z + vz * (-b / a)| < hh then [-b / a] else []
  else
    let k := Real.sqrt k
    (if |z + vz * ((-b + k) / a)| < hh then [(-b + k) / a] else []) ++
    (if |z + vz * ((-b - k) / a)| < hh then [(-b - k) / a] else [])

/-- `intersectCylinderTopBottom`, `visitors/ArrowIntersector.cc:193-215`.  When `vz` is 0 the
code divides by zero; the coordinates `x1`, `y1` are then infinite or NaN and the
comparisons of lines 206 and 213 are false. -/
def intersectCylinderTopBottom (x y z vx vy vz r h : ℝ) : List ℝ :=
  let hh := h / 2
  let r2 := r * r
  if vz = 0 then []
  else
    let t := (hh - z) / vz
    let t' := (-hh - z) / vz
    (if (x + vx * t) * (x + vx * t) + (y + vy * t) * (y + vy * t) ≤ r2 then [t] else []) ++
    (if (x + vx * t') * (x + vx * t') + (y + vy * t') * (y + vy * t') ≤ r2 then [t'] else [])

/-- the last lines of the box, pyramid, cone and cylinder visitors, e.g.
`ArrowIntersector.cc:273-279`: the two times in increasing order -/
def orderedPair (a b : ℝ) : List ℝ := if a < b then [a, b] else [b, a]

/-- `ArrowIntersector::visit(const Box*)`, `visitors/ArrowIntersector.cc:219-283` -/
def intersectBox (X Y Z : ℝ) (p v : V3 ℝ) : List ℝ :=
  if isInvalidDirection v then []
  else
    let ts :=
      (if v.z ≠ 0 then
        intersectRectangle p.x p.y (p.z - Z / 2) v.x v.y v.z X Y ++
        intersectRectangle p.x p.y (p.z + Z / 2) v.x v.y v.z X Y
       else []) ++
      (if v.x ≠ 0 then
        intersectRectangle p.y p.z (p.x - X / 2) v.y v.z v.x Y Z ++
        intersectRectangle p.y p.z (p.x + X / 2) v.y v.z v.x Y Z
       else []) ++
      (if v.y ≠ 0 then
        intersectRectangle p.z p.x (p.y - Y / 2) v.z v.x v.y Z X ++
        intersectRectangle p.z p.x (p.y + Y / 2) v.z v.x v.y Z X
       else [])
    match ts with
    | [a, b] => orderedPair a b
    | _ => []

/-- `ArrowIntersector::visit(const Pyramid*)`, `visitors/ArrowIntersector.cc:286-368` -/
def intersectPyramid (tol par X Y H : ℝ) (p v : V3 ℝ) : List ℝ :=
  if isInvalidDirection v then []
  else
    let len := length v
    let d := (1 / len) • v
    let ts :=
      (if d.z ≠ 0 then intersectRectangle p.x p.y (p.z + H) d.x d.y d.z X Y else []) ++
      intersectTriangle par p d ⟨0, 0, 0⟩ ⟨X / 2, Y / 2, -H⟩ ⟨X / 2, -Y / 2, -H⟩ ++
      intersectTriangle par p d ⟨0, 0, 0⟩ ⟨X / 2, -Y / 2, -H⟩ ⟨-X / 2, -Y / 2, -H⟩ ++
      intersectTriangle par p d ⟨0, 0, 0⟩ ⟨-X / 2, -Y / 2, -H⟩ ⟨-X / 2, Y / 2, -H⟩ ++
      intersectTriangle par p d ⟨0, 0, 0⟩ ⟨-X / 2, Y / 2, -H⟩ ⟨X / 2, Y / 2, -H⟩
    match unique (eqEps tol) (sort ts) with
    | [a, b] => orderedPair (a / len) (b / len)
    | _ => []

/-- `ArrowIntersector::visit(const Cone*)`, `visitors/ArrowIntersector.cc:371-496`.  `vl` (394)
is the length of a normalised vector and `D` (400) equals `direction` (399): `vl` is kept as
`length d`, `D` as `normalize d`.  When `vz` is 0 the code divides by zero at line 440; the
coordinates `x2`, `y2` are then infinite or NaN and the comparison of line 442 is false. -/
def intersectCone (tol R H : ℝ) (p v : V3 ℝ) : List ℝ :=
  if isInvalidDirection v then []
  else
    let len := length v
    let d := (1 / len) • v
    let vl := length d
    let D := normalize d
    let V : V3 ℝ := ⟨0, 0, -1⟩
    let cosThetaSq := H * H / (R * R + H * H)
    let a := D.dot V * D.dot V - cosThetaSq
    let b := 2 * (D.dot V * p.dot V - D.dot p * cosThetaSq)
    let c := p.dot V * p.dot V - p.dot p * cosThetaSq
    let t1 : List ℝ :=
      if eqEps tol a 0 then
        if eqEps tol b 0 then [] else [-c / b / vl]
      else
        let delta := b * b - 4 * a * c
        if delta ≥ 0 then
          [(-b - Real.sqrt delta) / 2 / a / vl, (-b + Real.sqrt delta) / 2 / a / vl]
        else []
    let side := t1.filter (fun t => decide (p.z + t * d.z < tol / 10 ∧
      p.z + t * d.z ≥ -H - tol / 10))
    let base :=
      if d.z = 0 then []
      else
        let t2 := (-H - p.z) / d.z
        let x2 := p.x + d.x * t2
        let y2 := p.y + d.y * t2
        if x2 * x2 + y2 * y2 < R * R then [t2] else []
    match unique (eqEps tol) (sort (side ++ base)) with
    | [a, b] => orderedPair (a / len) (b / len)
    | [a, b, c] =>
      let b := if b < (a + c) / 2 then c else b
      orderedPair (a / len) (b / len)
    | _ => []

/-- `ArrowIntersector::visit(const Cylinder*)`, `visitors/ArrowIntersector.cc:499-573` -/
def intersectCylinder (tol r h : ℝ) (p v : V3 ℝ) : List ℝ :=
  if isInvalidDirection v then []
  else
    let ts := intersectCylinderSide p.x p.y p.z v.x v.y v.z r h ++
      intersectCylinderTopBottom p.x p.y p.z v.x v.y v.z r h
    match ts with
    | [] => []
    | [_] => []
    | [a, b] => orderedPair a b
    | ts =>
      match unique (eqEps tol) ts with
      | [a, b] => orderedPair a b
      | _ => []

/-- `ArrowIntersector::visit(const Sphere*)` and `calc_intersects_line_sphere`,
`visitors/ArrowIntersector.cc:593-638` -/
def intersectSphere (R : ℝ) (r0 v : V3 ℝ) : List ℝ :=
  if isInvalidDirection v then []
  else
    let r0dotv := r0.dot v
    let r0Xv := r0.cross v
    let v2 := v.dot v
    let b2m4ac := v2 * R * R - r0Xv.dot r0Xv
    if b2m4ac < 0 then []
    else [-(r0dotv + Real.sqrt b2m4ac) / v2, -(r0dotv - Real.sqrt b2m4ac) / v2]

/-- `remove_points_not_on_border`, `visitors/ArrowIntersector.cc:646-678` -/
def keepOnBorder (ret : ℝ) (s : Shape) (p v : V3 ℝ) : List ℝ → Except Err (List ℝ)
  | [] => .ok []
  | t :: ts => do
    let loc ← locate ret s (p + t • v)
    let rest ← keepOnBorder ret s p v ts
    .ok (if loc = .onborder then t :: rest else rest)

mutual
/-- `geometry::intersect` and `ArrowIntersector::calculate_intersections` with its `visit`
methods, `intersect.cc:8-15`, `visitors/ArrowIntersector.cc:80-800`.  `tol` is `tolerance`
(also the default tolerance of the `Locator`, `Locator.h:36`), `par` the constant 1e-10 of
line 116. -/
def intersect (tol par : ℝ) : Shape → V3 ℝ → V3 ℝ → Except Err (List ℝ)
  | .box X Y Z, p, v => .ok (intersectBox X Y Z p v)
  | .cylinder R h, p, v => .ok (intersectCylinder tol R h p v)
  | .pyramid X Y h, p, v => .ok (intersectPyramid tol par X Y h p v)
  | .cone R h, p, v => .ok (intersectCone tol R h p v)
  | .sphere R, p, v => .ok (intersectSphere R p v)
  | .difference a b, p, v => do
    -- `visit_composition`, 682-713, for two shapes
    let ta ← intersect tol par a p v
    let ka ← keepOnBorder tol (.difference a b) p v ta
    let tb ← intersect tol par b p v
    let kb ← keepOnBorder tol (.difference a b) p v tb
    .ok (sort (ka ++ kb))
  | .intersection l, p, v => do
    let ts ← gather tol par l (.intersection l) p v
    .ok (sort ts)
  | .union l, p, v => do
    let ts ← gather tol par l (.union l) p v
    .ok (sort ts)
  | .dilation body scale, p, v => intersect tol par body ((1 / scale) • p) ((1 / scale) • v)
  | .reflection _, _, _ => .error .cppException
  | .translation body w, p, v => intersect tol par body (p - w) v
  | .rotation body m, p, v => intersect tol par body (m.transpose.mulVec p) (m.transpose.mulVec v)
/-- the loop of `visit_composition`, `visitors/ArrowIntersector.cc:691-694` -/
def gather (tol par : ℝ) : List Shape → Shape → V3 ℝ → V3 ℝ → Except Err (List ℝ)
  | [], _, _, _ => .ok []
  | s :: l, all, p, v => do
    let ts ← intersect tol par s p v
    let ks ← keepOnBorder tol all p v ts
    let rest ← gather tol par l all p v
    .ok (ks ++ rest)
end

/-- `geometry::forward_intersect`, `intersect.cc:17-31` -/
def forwardIntersect (tol par : ℝ) (s : Shape) (p v : V3 ℝ) : Except Err (List ℝ) := do
  let all ← intersect tol par s p v
  .ok (all.filter (fun t => !decide (t < 0)))

/-- `find_shape_containing_point`, `intersect.icc:27-35`; `none` is the value -1.  `i` is the
index of the head of the list. -/
def findContaining (tol : ℝ) (p : V3 ℝ) : List Shape → Nat → Except Err (Option Nat)
  | [], _ => .ok none
  | s :: l, i => do
    let loc ← locate tol s p
    if loc = .inside then .ok (some i) else findContaining tol p l (i + 1)

/-- the loop that looks for a shape with `start` on its border, `intersect.icc:85-90` -/
def anyOnBorder (tol : ℝ) (p : V3 ℝ) : List Shape → Except Err Bool
  | [] => .ok false
  | s :: l => do
    let loc ← locate tol s p
    if loc = .onborder then .ok true else anyOnBorder tol p l

/-- the loop over the intersections for a start on a border, `intersect.icc:100-109` -/
def pairLoop (tol : ℝ) (shapes : List Shape) (p v : V3 ℝ) : ℝ → List ℝ → Except Err (Option Nat)
  | _, [] => .ok none
  | previous, now :: ts => do
    let r ← findContaining tol (p + ((previous + now) / 2) • v) shapes 0
    match r with
    | some i => .ok (some i)
    | none => pairLoop tol shapes p v now ts

/-- `find_1st_hit`, `intersect.icc:38-110`; `none` is the value -1.  `ret` is computed before
`isonborder` as in the code, so an exception of the former comes first. -/
def find1stHit (tol par : ℝ) (shapes : List Shape) (p v : V3 ℝ) : Except Err (Option Nat) := do
  let distances ← forwardIntersect tol par (.union shapes) p v
  match distances with
  | [] => .ok none
  | d0 :: rest =>
    let ret ←
      if distances.length % 2 = 1 then
        findContaining tol (p + (d0 / 2) • v) shapes 0
      else
        match rest with
        | [] => .ok none  -- not reached: an even number of distances is at least two
        | d1 :: _ => findContaining tol (p + ((d0 + d1) / 2) • v) shapes 0
    let isonborder ← anyOnBorder tol p shapes
    if !isonborder then .ok ret
    else pairLoop tol shapes p v 0 distances

end
end Verif.Solid
