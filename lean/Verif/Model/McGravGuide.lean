import Verif.Model.McBender
/-!
The guide with gravity, `packages/legacycomponents/mcstas2/share/McStas-Components/optics/Guide_gravity.comp` (lines without a file name are
in this file; the library is `packages/legacycomponents/mcstas2/lib`).

Real numbers instead of doubles; `exit` is `cppException`.  The counters `N_reflection` are not modelled.  `mcgravitation` is 0 (`Gravity.cc:20`,
nothing sets it) and `ROT_A_CURRENT_COMP` is the unit matrix (`geometry.h:42`, `geometry.cc:26`).
-/

namespace Verif.McGrav
open McStas McGuide McBend
noncomputable section
open Classical

/-- the parameters, `Guide_gravity.comp:114-120`, after `INITIALIZE`; `table`: the file `reflect` -/
structure Par where
  (w1 h1 w2 h2 l R0 Qc alpha m W k d mleft mright mtop mbottom kh G wavy wavy_z wavy_tb wavy_lr : ℝ)
  (chamfers chamfers_z chamfers_lr chamfers_tb nelements nu phase : ℝ)
  (table : Option (ℝ → ℝ))

/-- `solve_2nd_order`, `misc.cc:15-51`; `none`: it returns 0 -/
def solve2 (A B C : ℝ) : Option ℝ :=
  if |A| < 1e-10 then (if B ≠ 0 then some (-C / B) else none)
  else
    let D := B * B - 4 * A * C
    if D ≥ 0 then
      let sD := √D
      let dt1 := (-B + sD) / 2 / A
      let dt2 := (-B - sD) / 2 / A
      let dt1 := if |dt1| < 1e-10 then 0 else dt1
      let dt2 := if |dt2| < 1e-10 then 0 else dt2
      if dt1 ≤ 0 ∧ dt2 > 0 then some dt2
      else if dt2 ≤ 0 ∧ dt1 > 0 then some dt1
      else if dt1 > 0 ∧ dt2 > 0 then (if dt1 < dt2 then some dt1 else some dt2)
      else none
    else none

/-- `INITIALIZE`, `Guide_gravity.comp:371-412`, with the tests of `Gravity_guide_Init`, lines 220-221; the messages are not modelled -/
def Par.new (c : Par) : Except Err Par :=
  if c.table = none ∧ (c.W < 0 ∨ c.R0 < 0 ∨ c.Qc < 0) then .error .cppException
  else if c.k ≤ 0 ∨ c.kh ≤ 0 then .error .cppException
  else if c.w1 = 0 ∨ c.h1 = 0 then .error .cppException
  else
    let c := { c with w2 := if c.w2 = 0 then c.w1 else c.w2, h2 := if c.h2 = 0 then c.h1 else c.h2 }
    if c.l > 0 ∧ c.nelements > 0 ∧ c.d < 0 then .error .cppException else .ok c

/-- the vector of gravity, `Guide_gravity.comp:393-395, 216-218` -/
def Par.g (c : Par) : V3 ℝ := ⟨0, c.G, 0⟩

/-- `w1c`, `Guide_gravity.comp:222` -/
def Par.w1c (c : Par) : ℝ := (c.w1 - (c.k - 1) * c.d) / c.k
/-- `w2c`, `Guide_gravity.comp:223` -/
def Par.w2c (c : Par) : ℝ := (c.w2 - (c.k - 1) * c.d) / c.k
/-- `h1c`, `Guide_gravity.comp:224` -/
def Par.h1c (c : Par) : ℝ := (c.h1 - (c.kh - 1) * c.d) / c.kh
/-- `h2c`, `Guide_gravity.comp:225` -/
def Par.h2c (c : Par) : ℝ := (c.h2 - (c.kh - 1) * c.d) / c.kh

/-- `M[i]`, `Guide_gravity.comp:227-231`: `own` is the parameter of the wall -/
def Par.M (c : Par) (own : ℝ) : ℝ := if own ≥ 0 then own else c.m

/-- a wall: normal, a point on it and `M`; the fields `nx`, `ny`, `nz`, `wx`, `wy`, `M` of `Guide_gravity.comp:122-160` -/
structure Side where
  (n w : V3 ℝ)
  (M : ℝ)

/-- the component `nz` of a wall, `Guide_gravity.comp:312-318`, for the value `nzC` stored by lines 233-236, 259 -/
def nzOf (nzC n1 : ℝ) : ℝ := if nzC ≠ 0 then nzC * n1 else nzC

/-- the walls of a channel in the order in which they are tested: bottom, top, right, left.  `Guide_gravity.comp:233-244, 307-318`.  The lengths of
the normals (lines 250-254, 325-327) are computed where they are used. -/
def Par.sides (c : Par) (xnum ynum : ℝ) : List Side :=
  let sx := 0.5 * (c.w2c - c.w1c)
  let sy := 0.5 * (c.h2c - c.h1c)
  [⟨⟨0, -c.l, nzOf (-sy) (c.kh - 2 * ynum)⟩, ⟨0, -c.h1c / 2, 0⟩, c.M c.mbottom⟩,
   ⟨⟨0, c.l, nzOf sy (c.kh - 2 * (ynum + 1))⟩, ⟨0, c.h1c / 2, 0⟩, c.M c.mtop⟩,
   ⟨⟨-c.l, 0, nzOf (-sx) (c.k - 2 * xnum)⟩, ⟨-c.w1c / 2, 0, 0⟩, c.M c.mright⟩,
   ⟨⟨c.l, 0, nzOf sx (c.k - 2 * (xnum + 1))⟩, ⟨c.w1c / 2, 0, 0⟩, c.M c.mleft⟩]

/-- one of the tests of `Guide_gravity.comp:308-329`; `none`: no side yet, `(dt, none)`: the exit -/
def Par.test (c : Par) (e : Event ℝ) (best : Option (ℝ × Option Side)) (s : Side) : Option (ℝ × Option Side) :=
  match solve2 (s.n.dot c.g / 2) (s.n.dot e.v) (s.n.x * (e.r.x - s.w.x) + s.n.y * (e.r.y - s.w.y) + s.n.z * e.r.z) with
  | none => best
  | some dt =>
    if dt > 1e-10 ∧ (match best with | none => True | some b => dt < b.1) then some (dt, some s) else best

/-- the exit, `Guide_gravity.comp:302-306` -/
def Par.exit (c : Par) (e : Event ℝ) : Option (ℝ × Option Side) :=
  match solve2 (c.l * c.g.z / 2) (c.l * e.v.z) (c.l * (e.r.z - c.l)) with
  | none => none
  | some dt => if dt > 1e-10 then some (dt, none) else none

/-- the next side and the time to it, `Guide_gravity.comp:285-331` -/
def Par.next (c : Par) (xnum ynum : ℝ) (e : Event ℝ) : Option (ℝ × Option Side) :=
  (c.sides xnum ynum).foldl (c.test e) (c.exit e)

/-- `wav_z`, `wav_lr`, `wav_tb`, `Guide_gravity.comp:263-270` -/
def Par.wav (c : Par) : ℝ × ℝ × ℝ :=
  let f := Real.pi / 180 / √(8 * Real.log 2)
  if c.wavy ≠ 0 ∧ c.wavy_tb = 0 ∧ c.wavy_lr = 0 ∧ c.wavy_z = 0 then (c.wavy * f, c.wavy * f, c.wavy * f)
  else (c.wavy_z * f, c.wavy_lr * f, c.wavy_tb * f)

/-- the normal with waviness, `Guide_gravity.comp:332-352`; `ξ`: the random numbers -/
def Par.wavyN (c : Par) (ξ : ℝ × ℝ) (s : Side) : V3 ℝ :=
  let nt := s.n.cross ⟨0, 0, 1⟩
  let nn := if c.wav.1 ≠ 0 then rotate s.n (c.wav.1 * ξ.1) nt else s.n
  let phi := if s.n.y = 0 then c.wav.2.1 else c.wav.2.2
  if phi ≠ 0 then rotate nn (phi * ξ.2) ⟨0, 0, 1⟩ else nn

/-- `chamfer_z`, `chamfer_lr`, `chamfer_tb`, `Guide_gravity.comp:271-279` -/
def Par.chamf (c : Par) : ℝ × ℝ × ℝ :=
  if c.chamfers ≠ 0 ∧ c.chamfers_z = 0 ∧ c.chamfers_lr = 0 ∧ c.chamfers_tb = 0 then (c.chamfers, c.chamfers, c.chamfers)
  else (c.chamfers_z, c.chamfers_lr, c.chamfers_tb)

/-- the chamfers, `Guide_gravity.comp:520-531`; `(x, y, z)` in the coordinates of the guide -/
def Par.chamfered (c : Par) (s : Side) (r : V3 ℝ) : Prop :=
  let width := c.w1 + (c.w2 - c.w1) * r.z / c.l
  let height := c.h1 + (c.h2 - c.h1) * r.z / c.l
  let len := fmodC r.z (c.l / c.nelements)
  (c.chamf.1 ≠ 0 ∧ (len < c.chamf.1 ∨ len > c.l / c.nelements - c.chamf.1)) ∨
  (c.chamf.2.1 ≠ 0 ∧ s.n.y = 0 ∧ |r.y| > height / 2 - c.chamf.2.1) ∨
  (c.chamf.2.2 ≠ 0 ∧ s.n.y ≠ 0 ∧ |r.x| > width / 2 - c.chamf.2.2)

/-- the reflectivity, `Guide_gravity.comp:545-560`; `none`: absorbed -/
def Par.reflect (c : Par) (M q : ℝ) : Option ℝ :=
  let B := match c.table with
    | some f => some (f q)
    | none =>
      if q > c.Qc then
        let arg := if c.W > 0 then (q - M * c.Qc) / c.W else (q - M * c.Qc) * 10000
        if arg < 10 then some (c.R0 * (0.5 * (1 - Real.tanh arg) * (1 - c.alpha * (q - c.Qc)))) else none
      else some c.R0
  match B with
  | none => none
  | some B => some (if B < 0 then 0 else if B > 1 then 1 else B)

/-- the coordinates are moved by `w_adj`, `h_adj`, for example `Guide_gravity.comp:515` -/
def shift (x y : ℝ) (e : Event ℝ) : Event ℝ := { e with r := ⟨e.r.x + x, e.r.y + y, e.r.z⟩ }

/-- the loop of `Guide_gravity.comp:492-566` with the coordinates of the channel; `fuel`: the number of turns left until `bounces > 1000`.
`error`: absorbed.  `x`, `y`: `w_adj`, `h_adj`.  `ξ i`: random numbers when `i` turns are left.  -/
def Par.loop (c : Par) (xnum ynum x y : ℝ) (ξ : Nat → ℝ × ℝ) : Nat → Event ℝ → Except (Event ℝ) (Event ℝ)
  | 0, e => .error (absorb e)
  | fuel + 1, e =>
    match c.next xnum ynum e with
    | none => .error (absorb (shift x y e))
    | some (dt, side) =>
      let e := propDtGrav dt c.g e
      match side with
      | none => .ok (shift x y e)
      | some s =>
        if s.M = 0 ∨ c.Qc = 0 ∨ c.R0 = 0 then .error (absorb (shift x y e))
        else if c.chamfered s ⟨e.r.x + x, e.r.y + y, e.r.z⟩ then .error (absorb (shift x y e))
        else
          let n := c.wavyN (ξ fuel) s
          let B := e.v.dot n
          let dt := 2 * B / s.n.dot s.n
          let e := { e with v := e.v - dt • n }
          let q := 2 * V2K * |B| / √(s.n.dot s.n)
          match c.reflect s.M q with
          | none => .error (absorb (shift x y e))
          | some R => c.loop xnum ynum x y ξ fuel { e with p := e.p * R }

/-- entrance and channels, `Guide_gravity.comp:442-568`; `angle` of line 421 -/
def Par.pass (c : Par) (angle : ℝ) (ξ : Nat → ℝ × ℝ) (e : Event ℝ) : Except (Event ℝ) (Event ℝ) :=
  match solve2 (-c.l * c.g.z / 2) (-c.l * e.v.z) (-c.l * e.r.z) with
  | none => .error (absorb e)
  | some dt =>
    if ¬ dt > 0 ∧ angle ≠ 0 then .error (absorb e)
    else
      let e := if dt > 0 then propDtGrav dt c.g e else e
      if |e.r.x| > c.w1 / 2 ∨ |e.r.y| > c.h1 / 2 then .error (absorb e)
      else
        let x := e.r.x + c.w1 / 2
        let xnum : ℝ := ⌊x / (c.w1c + c.d)⌋
        let xedge := xnum * (c.w1c + c.d)
        if x - xedge > c.w1c then .error (absorb e)
        else
          let xadj := xedge + c.w1c / 2
          let y := e.r.y + c.h1 / 2
          let ynum : ℝ := ⌊y / (c.h1c + c.d)⌋
          let yedge := ynum * (c.h1c + c.d)
          if y - yedge > c.h1c then .error (absorb e)
          else
            let yadj := yedge + c.h1c / 2
            c.loop xnum ynum (xadj - c.w1 / 2) (yadj - c.h1 / 2) ξ 1001
              { e with r := ⟨x - xadj, y - yadj, e.r.z⟩ }

/-- the angle of the chopper in radians, `Guide_gravity.comp:427-430` -/
def Par.angle (c : Par) (t : ℝ) : ℝ :=
  let a := fmodC (360 * c.nu * t + c.phase) 360
  let a := if a > 90 ∧ a < 270 then a - 180 else a
  a * (Real.pi / 180)

/-- the neutron turned around the axis `y` through the centre of the guide, `Guide_gravity.comp:425-439, 571-583` -/
def Par.turn (c : Par) (angle : ℝ) (e : Event ℝ) : Event ℝ :=
  let R := rotSet 0 angle 0
  let X := rotApply R ⟨e.r.x, e.r.y, e.r.z - c.l / 2⟩
  { e with r := ⟨X.x, X.y, X.z + c.l / 2⟩, v := rotApply R e.v }

/-- `TRACE`, `Guide_gravity.comp:415-586`: `error` for a neutron that is absorbed -/
def Par.run (c : Par) (ξ : Nat → ℝ × ℝ) (e : Event ℝ) : Except (Event ℝ) (Event ℝ) :=
  if c.l > 0 ∧ c.nelements > 0 then
    if c.nu ≠ 0 ∨ c.phase ≠ 0 then
      let a := c.angle e.t
      match c.pass a ξ (c.turn (-a) e) with
      | .error e => .error e
      | .ok e => .ok (c.turn a e)
    else c.pass 0 ξ e
  else .ok e

/-- `TRACE`, `Guide_gravity.comp:415-586` -/
def trace (c : Par) (ξ : Nat → ℝ × ℝ) (e : Event ℝ) : Event ℝ :=
  match c.run ξ e with
  | .error e => e
  | .ok e => e

end
end Verif.McGrav
