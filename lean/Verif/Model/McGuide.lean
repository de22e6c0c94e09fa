import Verif.Model.McStas
import Verif.Model.Powder
import Mathlib.Data.EReal.Operations
/-!
Guides, mirrors and monochromators of McStas, `packages/legacycomponents/mcstas2/share/McStas-Components/optics/*.comp` (the components
cited below are in this directory).

Real numbers instead of doubles.  `ABSORB` in the component is `absorb` and the end of `trace` (`tracing_macros.h:32`); inside of a
propagator it only ends the propagator (`tracing_macros.h:33`).  Random numbers are arguments: `u` for `rand01()`, `g` for `randnorm()`.  A
table of reflectivities is a function.
-/

namespace Verif.McGuide
open McStas Kinem
noncomputable section
open Classical

/-- `V2K` and `V2Q`, `lib/phys_constants.h:26, 28, 30` -/
def V2K : ℝ := 1.58801e-3
/-- `K2V`, `lib/phys_constants.h:25, 27` -/
def K2V : ℝ := 629.719

/-! ### reflectivity -/

/-- the coating of a mirror, parameters of `Guide.comp:62-63` and `Mirror.comp:58-59`; `table`: the file `reflect` -/
structure Coating where
  (R0 Qc alpha m W : ℝ)
  (table : Option (ℝ → ℝ))

/-- the reflectivity in a guide, `Guide.comp:197-212`; `none`: absorbed -/
def Coating.weight (c : Coating) (q : ℝ) : Option ℝ :=
  if c.m = 0 then none
  else match c.table with
    | some f => some (f q)
    | none =>
      if q > c.Qc then
        let arg := (q - c.m * c.Qc) / c.W
        if arg < 10 then some (0.5 * (1 - Real.tanh arg) * (1 - c.alpha * (q - c.Qc)) * c.R0) else none
      else some (1 * c.R0)

/-- the parameters of `Mirror.comp:58-59` -/
structure Mirror where
  (xlength yheight : ℝ)
  (coat : Coating)
  (center transmit : Bool)

/-- the reflectivity of a single mirror, `Mirror.comp:111-124` -/
def Coating.clipped (c : Coating) (q : ℝ) : ℝ :=
  let B := match c.table with
    | some f => f q
    | none =>
      if q > c.Qc then
        let arg := (q - c.m * c.Qc) / c.W
        if arg < 10 then c.R0 * (0.5 * (1 - Real.tanh arg) * (1 - c.alpha * (q - c.Qc))) else 0
      else c.R0
  if B < 0 then 0 else if B > 1 then 1 else B

/-- `Mirror.comp:88-143` -/
def mirror (c : Mirror) (u : ℝ) (e : Event ℝ) : Event ℝ :=
  if e.v.z ≠ 0 ∧ -e.r.z / e.v.z ≥ 0 then
    let dt := -e.r.z / e.v.z
    let x := e.r.x + e.v.x * dt
    let y := e.r.y + e.v.y * dt
    if (if c.center = false then x ≥ 0 ∧ x ≤ c.xlength ∧ y ≥ 0 ∧ y ≤ c.yheight
        else x ≥ -c.xlength / 2 ∧ x ≤ c.xlength / 2 ∧ y ≥ -c.yheight / 2 ∧ y ≤ c.yheight / 2) then
      let q := |2 * e.v.z * V2K|
      let e := { e with r := ⟨x, y, 0⟩, t := e.t + dt, v := ⟨e.v.x, e.v.y, -e.v.z⟩ }
      if c.coat.m = 0 then absorb e
      else
        let B := c.coat.clipped q
        if c.transmit = false then (if B = 0 then absorb e else { e with p := e.p * B })
        else if B = 0 ∨ u ≥ B then { e with v := ⟨e.v.x, e.v.y, -e.v.z⟩ } else e
    else e
  else e

/-! ### guide -/

/-- the parameters of `Guide.comp:62-63` -/
structure Guide where
  (w1 h1 w2 h2 l : ℝ)
  (coat : Coating)

/-- `Guide.comp:96-99` (without a table); `exit` is `cppException` -/
def Guide.check (g : Guide) : Except Err Unit :=
  if g.coat.table = none ∧ (g.coat.W < 0 ∨ g.coat.R0 < 0 ∨ g.coat.Qc < 0 ∨ g.coat.m < 0) then .error .cppException else .ok ()

/-- one of the four mirrors, `Guide.comp:129-138`: the product of its normal with a velocity is `n·v`, with a place `n·r + c` -/
structure Wall where
  (n : V3 ℝ)
  (c : ℝ)

/-- the four mirrors, `Guide.comp:116-117, 130-139`: left, right, lower, upper -/
def Guide.walls (g : Guide) : List Wall :=
  let ww := 0.5 * (g.w2 - g.w1)
  let hh := 0.5 * (g.h2 - g.h1)
  let whalf := 0.5 * g.w1
  let hhalf := 0.5 * g.h1
  [⟨⟨g.l, 0, ww⟩, whalf * g.l⟩, ⟨⟨-g.l, 0, ww⟩, whalf * g.l⟩, ⟨⟨0, g.l, hh⟩, hhalf * g.l⟩, ⟨⟨0, -g.l, hh⟩, hhalf * g.l⟩]

/-- the time to the exit, `Guide.comp:140`; for `vz` = 0 infinite before the exit; behind it minus infinity.  Simplified: at the exit
the machine has 0/0, which behaves in the comparisons that follow like minus infinity. -/
def Guide.toExit (g : Guide) (e : Event ℝ) : EReal :=
  if e.v.z = 0 then (if e.r.z < g.l then ⊤ else ⊥) else (((g.l - e.r.z) / e.v.z : ℝ) : EReal)

/-- the nearest mirror, one of the tests in `Guide.comp:142-161` -/
def nearer (e : Event ℝ) (best : EReal × Option (ℝ × Wall)) (w : Wall) : EReal × Option (ℝ × Wall) :=
  let vdotn := w.n.dot e.v
  let t2 := -(w.n.dot e.r + w.c) / vdotn
  if vdotn < 0 ∧ (t2 : EReal) < best.1 then ((t2 : EReal), some (t2, w)) else best

/-- time and mirror of the next reflection, `Guide.comp:140-162`; `none`: the neutron leaves the guide -/
def Guide.next (g : Guide) (e : Event ℝ) : Option (ℝ × Wall) := (g.walls.foldl (nearer e) (g.toExit e, none)).2

/-- the reflection, `Guide.comp:165-195`: the momentum transfer and the new velocity -/
def bounce (w : Wall) (v : V3 ℝ) : ℝ × V3 ℝ :=
  let nlen2 := w.n.dot w.n
  let q := V2K * (-2) * w.n.dot v / √nlen2
  let d := 2 * w.n.dot v / nlen2
  (q, v - d • w.n)

/-- the loop of `Guide.comp:127-215`; `none`: more turns than `fuel` -/
def guideLoop (g : Guide) (G : Gravity) : Nat → Event ℝ → Option (Event ℝ)
  | 0, _ => none
  | fuel + 1, e =>
    match g.next e with
    | none => some e
    | some (t1, w) =>
      let e := propDt G t1 e
      let (q, v) := bounce w e.v
      let e := { e with v := v }
      match g.coat.weight q with
      | none => some (absorb e)
      | some weight => guideLoop g G fuel { e with p := e.p * weight }

/-- `Guide.comp:105-216` -/
def guide (g : Guide) (G : Gravity) (fuel : Nat) (e : Event ℝ) : Option (Event ℝ) :=
  let e := propZ0 G e
  let whalf := 0.5 * g.w1
  let hhalf := 0.5 * g.h1
  if e.r.x ≤ -whalf ∨ e.r.x ≥ whalf ∨ e.r.y ≤ -hhalf ∨ e.r.y ≥ hhalf then some (absorb e) else guideLoop g G fuel e

/-! ### monochromator -/

/-- the variables of a monochromator after `INITIALIZE`, `Monochromator_flat.comp:51-52, 95-98` -/
structure Mono where
  (zmin zmax ymin ymax r0 Q rmsY rmsZ rmsMax : ℝ)

/-- `Monochromator_flat.comp:103-114`; `exit` is `cppException` -/
def Mono.new (zmin zmax ymin ymax mosaich mosaicv r0 Q DM width height : ℝ) : Except Err Mono :=
  let rmsY := Real.pi / 10800 * mosaich / √(8 * Real.log 2)
  let rmsZ := Real.pi / 10800 * mosaicv / √(8 * Real.log 2)
  let rmsMax := if rmsY > rmsZ then rmsY else rmsZ
  let Q := if DM ≠ 0 then 2 * Real.pi / DM else Q
  let (zmin, zmax) := if width > 0 then (-(width / 2), width / 2) else (zmin, zmax)
  let (ymin, ymax) := if height > 0 then (-(height / 2), height / 2) else (ymin, ymax)
  if zmin = zmax ∨ ymin = ymax then .error .cppException else .ok ⟨zmin, zmax, ymin, ymax, r0, Q, rmsY, rmsZ, rmsMax⟩

/-- `order`, `Monochromator_flat.comp:139-153` (a double with an integer value); `k` is the wave number, `ratio` of line 138 -/
def monoOrder (Q k ratio : ℝ) : ℤ :=
  let order := ⌊ratio + 0.5⌋
  let order := if order = 0 then (if ratio < 0 then -1 else 1) else order
  let order := if order < 0 then -order else order
  if (order : ℝ) > 2 * k / Q then order - 1 else order

/-- `p_reflect` of the choice to reflect, `Monochromator_flat.comp:161-164`; `none`: not finite -/
def Mono.peak (m : Mono) (ky kz delta : ℝ) : Option ℝ := do
  let a ← divD (-kz * kz) (ky * ky + kz * kz)
  let a ← divD (a * (delta * delta)) (2 * m.rmsY * m.rmsY)
  let b ← divD (-ky * ky) (ky * ky + kz * kz)
  let b ← divD (b * (delta * delta)) (2 * m.rmsZ * m.rmsZ)
  some (m.r0 * Real.exp a * Real.exp b)

/-- the scattering vector for the angle `φ`, `Monochromator_flat.comp:200-202, 215-217, 230-232` -/
def onCone (c1 a b : V3 ℝ) (φ : ℝ) : V3 ℝ := c1 + Real.cos φ • a + Real.sin φ • b

/-- the loop that reduces the width, `Monochromator_flat.comp:196-207`; `none`: more turns than `fuel` -/
def Mono.sampleWidth (m : Mono) (c1 a b : V3 ℝ) : Nat → ℝ → Option ℝ
  | 0, _ => none
  | fuel + 1, s =>
    let q := onCone c1 a b (5 * s)
    let qy := q.y / m.rmsZ
    let qz := q.z / m.rmsY
    if qz * qz + qy * qy < (25 / (2 / 3)) * (q.x * q.x) then some s else sampleWidth m c1 a b fuel (s * (2 / 3))

/-- `GAUSS`, `Monochromator_flat.comp:65-66`; `none`: the width is 0 -/
def gaussD (x mean rms : ℝ) : Option ℝ := do
  let a ← divD (-(x - mean) * (x - mean)) (2 * rms * rms)
  divD (Real.exp a) (√(2 * Real.pi) * rms)

/-- nodes and weights of the quadrature, `Monochromator_flat.comp:79-88` -/
def quadrature : List (ℝ × ℝ) :=
  [(-0.987992518020485, 0.030753241996117), (-0.937273392400706, 0.070366047488108), (-0.848206583410427, 0.107159220467172),
   (-0.724417731360170, 0.139570677926154), (-0.570972172608539, 0.166269205816994), (-0.394151347077563, 0.186161000115562),
   (-0.201194093997435, 0.198431485327111), (0, 0.202578241925561), (0.201194093997435, 0.198431485327111),
   (0.394151347077563, 0.186161000115562), (0.570972172608539, 0.166269205816994), (0.724417731360170, 0.139570677926154),
   (0.848206583410427, 0.107159220467172), (0.937273392400706, 0.070366047488108), (0.987992518020485, 0.030753241996117)]

/-- `p_reflect` for a scattering vector, `Monochromator_flat.comp:218-219, 233-234`.  Simplified: for `q_x` = 0 there is no value; the machine has
0 or not a number. -/
def Mono.atCone (m : Mono) (q : V3 ℝ) : Option ℝ := do
  some ((← gaussD (← divD q.z q.x) 0 m.rmsY) * (← gaussD (← divD q.y q.x) 0 m.rmsZ))

/-- the factor of the weight, `Monochromator_flat.comp:197, 208-222, 233-234, 242`; `none`: not finite -/
def Mono.factor (m : Mono) (c1 a b : V3 ℝ) (s φ : ℝ) : Option ℝ := do
  let width := 5 * s
  let total ← quadrature.foldlM (fun total xw => do some (total + xw.2 * (← m.atCone (onCone c1 a b (width * xw.1))))) 0
  let total := total * width
  divD (← m.atCone (onCone c1 a b φ)) (total * (← gaussD φ 0 s))

/-- the reflection, `Monochromator_flat.comp:167-242`: place and time are set by the caller.  The result is the new velocity and the factor
of the weight; `none`: the loop has more turns than `fuel`. -/
def Mono.reflect (m : Mono) (fuel : Nat) (g k q0x theta : ℝ) (ki ku : V3 ℝ) : Option (V3 ℝ × Option ℝ) := do
  let b := (k * Real.sin (2 * theta)) • McStas.norm (ki.cross ⟨q0x, 0, 0⟩)
  let a := b.cross ku
  let c1 := (Real.cos (2 * theta) - 1) • ki
  let s ← m.sampleWidth c1 a b fuel (m.rmsMax / Real.cos theta)
  let φ := s * g
  some (K2V • (ki + onCone c1 a b φ), m.factor c1 a b s φ)

/-- `Monochromator_flat.comp:117-248`.  The result is the neutron without the change of its weight and the factor of the weight.  `none`: the
loop has more turns than `fuel`, or (simplified) the division by the scattering vector `Q` = 0. -/
def mono (m : Mono) (fuel : Nat) (u g : ℝ) (e : Event ℝ) : Option (Event ℝ × Option ℝ) :=
  if e.v.x ≠ 0 ∧ -e.r.x / e.v.x ≥ 0 then
    let dt := -e.r.x / e.v.x
    let y1 := e.r.y + e.v.y * dt
    let z1 := e.r.z + e.v.z * dt
    if z1 > m.zmin ∧ z1 < m.zmax ∧ y1 > m.ymin ∧ y1 < m.ymax then do
      let ki := V2K • e.v
      let ratio ← divD (-2 * ki.x) m.Q
      let k := √(ki.x * ki.x + ki.y * ki.y + ki.z * ki.z)
      let ku := (1 / k) • ki
      let order := monoOrder m.Q k ratio
      if order > 0 then
        let q0 := order * m.Q
        let q0x := if ratio < 0 then -q0 else q0
        let theta ← Powder.asinD (q0 / (2 * k))
        let delta := Real.arcsin |ku.x| - theta
        match m.peak ki.y ki.z delta with
        | none => some (e, some 1)
        | some pr =>
          if u < pr then do
            let (v, f) ← m.reflect fuel g k q0x theta ki ku
            some ({ e with r := ⟨0, y1, z1⟩, t := e.t + dt, v := v }, f)
          else some (e, some 1)
      else some (e, some 1)
    else some (e, some 1)
  else some (e, some 1)

end
end Verif.McGuide
