import Verif.Model.Sampling
import Verif.Model.Frames
import Mathlib.Analysis.SpecialFunctions.Sqrt
/-!
The library of the McStas components: propagation, rotations, directions towards a target and intersections,
`packages/legacycomponents/mcstas2/lib/propagators.h`, `geometry.cc`, `tracing_macros.h`, `random_numbers.h`.

Real numbers instead of doubles, `PI` is the exact number.  Random numbers of [0,1) are arguments: `rand0max(m)` is
`m*u`, `randpm1()` is `2*u - 1` (`random_numbers.h:47-50`).  A result that is not a number is `none`.
-/

namespace Verif.McStas
open Solid Flight Homog Kinem
noncomputable section
open Classical

/-! ### propagation -/

/-- `m_gravity_on` and `m_g` of a component, `Component.h:61-64`, `Component.cc:39-50` -/
structure Gravity where
  on : Bool
  g : V3 ℝ

/-- the macro `ABSORB`, `tracing_macros.h:33`: the probability is set to -1 and the function is left -/
def absorb (e : Event ℝ) : Event ℝ := { e with p := -1 }

/-- `prop_dt_nogravity`, `propagators.h:27-37` -/
def propDtFree (dt : ℝ) (e : Event ℝ) : Event ℝ :=
  { e with r := ⟨e.r.x + e.v.x * dt, e.r.y + e.v.y * dt, e.r.z + e.v.z * dt⟩, t := e.t + dt }

/-- `prop_dt_withgravity`, `propagators.h:40-53` -/
def propDtGrav (dt : ℝ) (A : V3 ℝ) (e : Event ℝ) : Event ℝ :=
  { e with r := ⟨e.r.x + (e.v.x * dt + A.x * dt * dt / 2), e.r.y + (e.v.y * dt + A.y * dt * dt / 2),
                 e.r.z + (e.v.z * dt + A.z * dt * dt / 2)⟩,
           v := ⟨e.v.x + A.x * dt, e.v.y + A.y * dt, e.v.z + A.z * dt⟩, t := e.t + dt }

/-- `prop_dt`, the macro `PROP_DT`, `propagators.h:55-71` -/
def propDt (G : Gravity) (dt : ℝ) (e : Event ℝ) : Event ℝ :=
  if dt < -1e-15 then absorb e
  else if G.on then propDtGrav dt G.g e
  else propDtFree dt e

/-- `plane_intersect_Gfast`, `geometry.cc:574-615`; `none`: the function returns 0 -/
def planeGfast (A B C : ℝ) : Option ℝ :=
  if |A| < 1e-10 then
    if B ≠ 0 then some (-C / B) else none
  else
    let D := B * B - 4 * A * C
    if D ≥ 0 then
      let sD := √D
      let dt1 := (-B + sD) / 2 / A
      let dt2 := (-B - sD) / 2 / A
      if B ≠ 0 then
        let dt0 := -C / B
        if |dt0 - dt1| < |dt0 - dt2| then some dt1 else some dt2
      else
        if dt1 ≤ dt2 then some dt1 else some dt2
    else none

/-- `prop_z0_nogravity`, `propagators.h:75-85` -/
def propZ0Free (e : Event ℝ) : Event ℝ :=
  if e.v.z = 0 then absorb e else propDtFree (-e.r.z / e.v.z) e

/-- `prop_z0_withgravity`, `propagators.h:87-98` -/
def propZ0Grav (A : V3 ℝ) (e : Event ℝ) : Event ℝ :=
  match planeGfast (-A.z / 2) (-e.v.z) (-e.r.z) with
  | some dt => if dt > 0 then propDtGrav dt A e else absorb e
  | none => absorb e

/-- `prop_z0`, the macro `PROP_Z0`, `propagators.h:100-111` -/
def propZ0 (G : Gravity) (e : Event ℝ) : Event ℝ := if G.on then propZ0Grav G.g e else propZ0Free e

/-- `prop_x0_nogravity`, `propagators.h:115-125` -/
def propX0Free (e : Event ℝ) : Event ℝ :=
  if e.v.x = 0 then absorb e else propDtFree (-e.r.x / e.v.x) e

/-- `prop_x0_withgravity`, `propagators.h:127-138` -/
def propX0Grav (A : V3 ℝ) (e : Event ℝ) : Event ℝ :=
  match planeGfast (-A.x / 2) (-e.v.x) (-e.r.x) with
  | some dt => if dt > 0 then propDtGrav dt A e else absorb e
  | none => absorb e

/-- `prop_x0`, the macro `PROP_X0`, `propagators.h:140-151` -/
def propX0 (G : Gravity) (e : Event ℝ) : Event ℝ := if G.on then propX0Grav G.g e else propX0Free e

/-! ### rotations -/

/-- `rot_set_rotation`, `geometry.cc:133-152` -/
def rotSet (phx phy phz : ℝ) : M3 ℝ :=
  let cx := Real.cos phx
  let sx := Real.sin phx
  let cy := Real.cos phy
  let sy := Real.sin phy
  let cz := Real.cos phz
  let sz := Real.sin phz
  ⟨⟨cy * cz, sx * sy * cz + cx * sz, sx * sz - cx * sy * cz⟩,
   ⟨-cy * sz, cx * cz - sx * sy * sz, sx * cz + cx * sy * sz⟩,
   ⟨sy, -sx * cy, cx * cy⟩⟩

/-- `rot_mul`, `geometry.cc:160-168` (the result must not be one of the arguments) -/
def rotMul (a b : M3 ℝ) : M3 ℝ :=
  let row (r : V3 ℝ) : V3 ℝ := ⟨r.x * b.r0.x + r.y * b.r1.x + r.z * b.r2.x, r.x * b.r0.y + r.y * b.r1.y + r.z * b.r2.y,
    r.x * b.r0.z + r.y * b.r1.z + r.z * b.r2.z⟩
  ⟨row a.r0, row a.r1, row a.r2⟩

/-- `rot_transpose`, `geometry.cc:187-199` -/
def rotTranspose (m : M3 ℝ) : M3 ℝ :=
  ⟨⟨m.r0.x, m.r1.x, m.r2.x⟩, ⟨m.r0.y, m.r1.y, m.r2.y⟩, ⟨m.r0.z, m.r1.z, m.r2.z⟩⟩

/-- `rot_apply`, `geometry.cc:201-210` -/
def rotApply (m : M3 ℝ) (a : V3 ℝ) : V3 ℝ :=
  ⟨m.r0.x * a.x + m.r0.y * a.y + m.r0.z * a.z, m.r1.x * a.x + m.r1.y * a.y + m.r1.z * a.z,
   m.r2.x * a.x + m.r2.y * a.y + m.r2.z * a.z⟩

/-- `mccoordschange`, `geometry.cc:212-236`; the spin stays as it is -/
def coordsChange (a : V3 ℝ) (m : M3 ℝ) (e : Event ℝ) : Event ℝ :=
  { e with r := rotApply m e.r + a, v := rotApply m e.v }

/-- the macro `NORM`, `geometry.cc:269-278` -/
def norm (a : V3 ℝ) : V3 ℝ :=
  let l := √(a.x * a.x + a.y * a.y + a.z * a.z)
  if l ≠ 0 then ⟨a.x / l, a.y / l, a.z / l⟩ else a

/-- the macro `rotate`, `geometry.cc:280-304`, also `propagators.h:179-204`: the vector `v` turned by `phi` around `a` -/
def rotate (v : V3 ℝ) (phi : ℝ) (a : V3 ℝ) : V3 ℝ :=
  let e := norm a
  let vp := v.x * e.x + v.y * e.y + v.z * e.z
  let p : V3 ℝ := ⟨vp * e.x, vp * e.y, vp * e.z⟩
  let n : V3 ℝ := ⟨v.x - p.x, v.y - p.y, v.z - p.z⟩
  let b := V3.cross e n
  let n1 : V3 ℝ := ⟨n.x * Real.cos phi + b.x * Real.sin phi, n.y * Real.cos phi + b.y * Real.sin phi,
    n.z * Real.cos phi + b.z * Real.sin phi⟩
  ⟨p.x + n1.x, p.y + n1.y, p.z + n1.z⟩

/-- `normal_vec`, `geometry.cc:338-380`; `none` if a division by 0 gives no number -/
def normalVec (a : V3 ℝ) : Option (V3 ℝ) :=
  if a.x = 0 ∧ a.y = 0 ∧ a.z = 0 then some ⟨0, 0, 0⟩
  else if |a.x| < |a.y| ∧ |a.x| < |a.z| then do
    let l := √(a.z * a.z + a.y * a.y)
    some ⟨0, ← divD a.z l, ← divD (-a.y) l⟩
  else if ¬ |a.x| < |a.y| ∧ |a.y| < |a.z| then do
    let l := √(a.z * a.z + a.x * a.x)
    some ⟨← divD a.z l, 0, ← divD (-a.x) l⟩
  else do
    let l := √(a.y * a.y + a.x * a.x)
    some ⟨← divD a.y l, ← divD (-a.x) l, 0⟩

/-! ### directions towards a target -/

/-- the vector perpendicular to the target, `geometry.cc:657-668` and 717-728 -/
def side (t : V3 ℝ) : V3 ℝ := if t.x = 0 ∧ t.z = 0 then ⟨1, 0, 0⟩ else ⟨-t.z, 0, t.x⟩

/-- `randvec_target_circle`, `geometry.cc:618-677`: the direction and the solid angle -/
def targetCircle (t : V3 ℝ) (radius u1 u2 : ℝ) : Option (V3 ℝ × ℝ) :=
  if radius = 0 then do
    let theta ← Sampling.acosD (1 - 2 * u1)
    let phi := 2 * Real.pi * u2
    let n : V3 ℝ := ⟨1, 0, 0⟩
    let t' : V3 ℝ := ⟨0, √(t.x * t.x + t.y * t.y + t.z * t.z), 0⟩
    let u := V3.cross t' n
    some (rotate (rotate t' theta u) phi t', 4 * Real.pi)
  else do
    let l2 := t.x * t.x + t.y * t.y + t.z * t.z
    let c ← sqrtD (← divD l2 (radius * radius + l2))
    let c0 := if radius < 0 then c * -1 else c
    let theta ← Sampling.acosD (1 - (1 - c0) * u1)
    let phi := 2 * Real.pi * u2
    let u := V3.cross t (side t)
    some (rotate (rotate t theta u) phi t, 2 * Real.pi * (1 - c0))

/-- `randvec_target_rect_angular`, `geometry.cc:680-743`: the direction and the solid angle.  If the height or the width is
0 the angles and the axis of the final rotations (lines 731-736) have no value. -/
def targetAngular (t : V3 ℝ) (width height : ℝ) (A : M3 ℝ) (u1 u2 : ℝ) : Except Err (V3 ℝ × ℝ) :=
  if height = 0 ∨ width = 0 then .error .undefinedBehaviour
  else
    let solid := 2 * |width * Real.sin (height / 2)|
    let t := rotApply (rotTranspose A) t
    let theta := width * (2 * u1 - 1) / 2
    let phi := height * (2 * u2 - 1) / 2
    let n := side t
    let u := V3.cross t n
    .ok (rotApply A (rotate (rotate t phi n) theta u), solid)

/-- `randvec_target_rect`, `geometry.cc:745-813`: the direction and the solid angle; `none` if it is not a number -/
def targetRect (t : V3 ℝ) (width height : ℝ) (A : M3 ℝ) (u1 u2 : ℝ) : Option (V3 ℝ × ℝ) :=
  if height = 0 ∨ width = 0 then targetCircle t 0 u1 u2
  else do
    let dx := width * (2 * u1 - 1) / 2
    let dy := height * (2 * u2 - 1) / 2
    let dist := √(t.x * t.x + t.y * t.y + t.z * t.z)
    let t := rotApply (rotTranspose A) t
    let n := V3.cross t ⟨0, 1, 0⟩
    let nl := √(n.x * n.x + n.y * n.y + n.z * n.z)
    let n : V3 ℝ := ⟨← divD n.x nl, ← divD n.y nl, ← divD n.z nl⟩
    let m := V3.cross t n
    let ml := √(m.x * m.x + m.y * m.y + m.z * m.z)
    let m : V3 ℝ := ⟨← divD m.x ml, ← divD m.y ml, ← divD m.z ml⟩
    let o : V3 ℝ := ⟨t.x + dx * n.x + dy * m.x, t.y + dx * n.y + dy * m.y, t.z + dx * n.z + dy * m.z⟩
    let distp := √(dx * dx + dy * dy + dist * dist)
    some (rotApply A o, ← divD (width * height * dist) (distp * distp * distp))

/-! ### intersections -/

/-- one face of `box_intersect`, e.g. `geometry.cc:397-403`: the time if the point is inside of the face, otherwise 0.
`q1`, `q2` and `w1`, `w2` are position, velocity of the other two coordinates, `d1` and `d2` the sizes. -/
def face (tt q1 w1 d1 q2 w2 d2 : ℝ) : ℝ :=
  let i1 := q1 + tt * w1
  let i2 := q2 + tt * w2
  if i1 > -d1 / 2 ∧ i1 < d1 / 2 ∧ i2 > -d2 / 2 ∧ i2 < d2 / 2 then tt else 0

/-- two opposite faces, e.g. `geometry.cc:395-414` -/
def faces (q w d q1 w1 d1 q2 w2 d2 : ℝ) : List ℝ :=
  if w ≠ 0 then [face (-(d / 2 + q) / w) q1 w1 d1 q2 w2 d2, face ((d / 2 - q) / w) q1 w1 d1 q2 w2 d2] else [0, 0]

/-- the loop over the six times, `geometry.cc:460-475`: `a`, `b` and `count` -/
def collect : List ℝ → ℝ × ℝ × Nat → ℝ × ℝ × Nat
  | [], s => s
  | t :: ts, (a, b, count) =>
    collect ts (if t = 0 then (a, b, count) else if count = 0 then (t, b, 1) else (a, t, 2))

/-- `box_intersect`, `geometry.cc:382-492`; `none`: the function returns 0 -/
def boxIntersect (r v d : V3 ℝ) : Option (ℝ × ℝ) :=
  let ts := faces r.x v.x d.x r.y v.y d.y r.z v.z d.z ++ faces r.y v.y d.y r.x v.x d.x r.z v.z d.z ++
    faces r.z v.z d.z r.x v.x d.x r.y v.y d.y
  let (a, b, _) := collect ts (0, 0, 0)
  if a = 0 ∧ b = 0 then none
  else if a < b then some (a, b) else some (b, a)

/-- the time at the top or bottom instead of the time at the mantle, `geometry.cc:515-518` and 519-522; the number that is
added to the return value -/
def capTime (y t h py vy : ℝ) (top bottom : Nat) : Option (ℝ × Nat) :=
  if y > h / 2 then (divD (h / 2 - py) vy).map (·, top)
  else if y < -h / 2 then (divD (-h / 2 - py) vy).map (·, bottom)
  else some (t, 0)

/-- the two ends, `geometry.cc:510-523` -/
def cylinderEnds (py vy h tin tout : ℝ) : Option (Option (Nat × ℝ × ℝ)) :=
  let yin := vy * tin + py
  let yout := vy * tout + py
  if (yin > h / 2 ∧ yout > h / 2) ∨ (yin < -h / 2 ∧ yout < -h / 2) then some none
  else
    match capTime yin tin h py vy 2 4, capTime yout tout h py vy 8 16 with
    | some (a, k1), some (b, k2) => some (some (1 + k1 + k2, a, b))
    | _, _ => none

/-- `cylinder_intersect`, `geometry.cc:494-534`: `some none` if the function returns 0, `none` if the times are not
numbers; otherwise the number returned and the two times -/
def cylinderIntersect (p v : V3 ℝ) (r h : ℝ) : Option (Option (Nat × ℝ × ℝ)) :=
  let D := (2 * v.x * p.x + 2 * v.z * p.z) * (2 * v.x * p.x + 2 * v.z * p.z) -
    4 * (v.x * v.x + v.z * v.z) * (p.x * p.x + p.z * p.z - r * r)
  if D ≥ 0 then do
    let tin ← divD (-(2 * v.z * p.z + 2 * v.x * p.x) - √D) (2 * (v.z * v.z + v.x * v.x))
    let tout ← divD (-(2 * v.z * p.z + 2 * v.x * p.x) + √D) (2 * (v.z * v.z + v.x * v.x))
    cylinderEnds p.y v.y h tin tout
  else some none

/-- `sphere_intersect`, `geometry.cc:537-555`: `some none` if the function returns 0, `none` if the times are not numbers -/
def sphereIntersect (p v : V3 ℝ) (r : ℝ) : Option (Option (ℝ × ℝ)) :=
  let vl := √(v.x * v.x + v.y * v.y + v.z * v.z)
  let A := vl * vl
  let B := 2 * (p.x * v.x + p.y * v.y + p.z * v.z)
  let C := p.x * p.x + p.y * p.y + p.z * p.z - r * r
  let D := B * B - 4 * A * C
  if D < 0 then some none
  else do
    let sD := √D
    some (some (← divD (-B - sD) (2 * A), ← divD (-B + sD) (2 * A)))

/-! ### normal distribution -/

/-- the static variables `v2`, `s` and `phase` of `randnorm`, `geometry.cc:310-311` (`v1` is not used again) -/
structure NormState where
  (v2 s : ℝ)
  phase : Bool

/-- the loop of `randnorm`, `geometry.cc:316-323`: `v1`, `v2`, `s` and the rest of the random numbers -/
def polar : List ℝ → Option ((ℝ × ℝ × ℝ) × List ℝ)
  | u1 :: u2 :: us =>
    let v1 := 2 * u1 - 1
    let v2 := 2 * u2 - 1
    let s := v1 * v1 + v2 * v2
    if s ≥ 1 ∨ s = 0 then polar us else some ((v1, v2, s), us)
  | _ => none

/-- `randnorm`, `geometry.cc:307-334`: the number, the static variables and the rest of the random numbers -/
def randnorm (st : NormState) (us : List ℝ) : Option (ℝ × NormState × List ℝ) :=
  if st.phase = false then do
    let ((v1, v2, s), us) ← polar us
    some (v1 * √(-2 * Real.log s / s), ⟨v2, s, true⟩, us)
  else some (st.v2 * √(-2 * Real.log st.s / st.s), ⟨st.v2, st.s, false⟩, us)

end
end Verif.McStas
