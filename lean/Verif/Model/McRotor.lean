import Verif.Model.McGuide
import Verif.Model.McWavy
/-!
The Fermi chopper of McStas with coated and curved slits,
`packages/legacycomponents/mcstas2/share/McStas-Components/optics/FermiChopper.comp`.

Real numbers instead of doubles and, in the search for a time, instead of floats.  `ABSORB` is `absorb` and the end of `trace`; where a
neutron is when it is absorbed between the entrance and the exit of the chopper is not kept.  The counters that are only printed, the mean
velocity and the text of SAVE are not modelled.
-/

namespace Verif.McRotor
open McStas Kinem McGuide McWavy
noncomputable section
open Classical

/-! ### the frame of the chopper -/

/-- `omega`, `ph0`, `C_slit` and `L_slit` of the structure of `FermiChopper.comp:111-116` -/
structure Frame where
  (omega ph0 C L : ℝ)

/-- `FC_zrot`, `FermiChopper.comp:180-185` -/
def Frame.zrot (f : Frame) (X Z T : ℝ) : ℝ := Z * Real.cos (f.omega * T + f.ph0) - X * Real.sin (f.omega * T + f.ph0)

/-- `FC_xrot`, `FermiChopper.comp:192-208`; the root is that of a number that is not negative if `|C| * L ≤ 2`, as it is for a
curvature that INITIALIZE accepts -/
def Frame.xrot (f : Frame) (X Z T : ℝ) : ℝ :=
  let ret := X * Real.cos (f.omega * T + f.ph0) + Z * Real.sin (f.omega * T + f.ph0)
  if f.C ≠ 0 then
    let tmp := |f.zrot X Z T|
    if tmp < f.L / 2 then
      let tmp := (f.L / 2 - tmp) * f.C
      ret + (1 - √(1 - tmp * tmp)) / f.C
    else ret
  else ret

/-- `FC_xzrot_dt` with the type 'x', `FermiChopper.comp:215-223` -/
def Frame.xAt (f : Frame) (e : Event ℝ) (dt : ℝ) : ℝ :=
  if dt ≠ 0 then f.xrot (e.r.x + e.v.x * dt) (e.r.z + e.v.z * dt) (e.t + dt) else f.xrot e.r.x e.r.z e.t

/-- `FC_xzrot_dt` with the type 'z', `FermiChopper.comp:215-223` -/
def Frame.zAt (f : Frame) (e : Event ℝ) (dt : ℝ) : ℝ :=
  if dt ≠ 0 then f.zrot (e.r.x + e.v.x * dt) (e.r.z + e.v.z * dt) (e.t + dt) else f.zrot e.r.x e.r.z e.t

/-! ### the search for a time -/

/-- the macro `SIGN`, `FermiChopper.comp:168` -/
def sign (a b : ℝ) : ℝ := if b ≥ 0 then |a| else -|a|

/-- `FermiChopper_TimeAccuracy`, `FermiChopper.comp:107` -/
def timeAcc : ℝ := 1e-9

/-- `FLT_MAX` of `<float.h>`, used in `FermiChopper.comp:247` -/
def fltMax : ℝ := 340282346638528859811704183484516925440

/-- the loop of `FC_xzridder`, `FermiChopper.comp:248-269`, with `n` turns left; `f` is the function whose zero is looked for -/
def ridLoop (f : ℝ → ℝ) : ℕ → ℝ → ℝ → ℝ → ℝ → ℝ → ℝ
  | 0, _, _, _, _, _ => -2
  | n + 1, dtl, dth, fl, fh, ans =>
    let dtm := 0.5 * (dtl + dth)
    let fm := f dtm
    let s := √(fm * fm - fl * fh)
    if s = 0 then ans
    else
      let dtnew := dtm + (dtm - dtl) * ((if fl ≥ fh then fm else -fm) / s)
      if |dtnew - ans| ≤ timeAcc then ans
      else
        let fnew := f dtnew
        if fnew = 0 then dtnew
        else if sign fm fnew ≠ fm then
          if |dtnew - dtm| ≤ timeAcc then dtnew else ridLoop f n dtm dtnew fm fnew dtnew
        else if sign fl fnew ≠ fl then
          if |dtnew - dtl| ≤ timeAcc then dtnew else ridLoop f n dtl dtnew fl fnew dtnew
        else if sign fh fnew ≠ fh then
          if |dth - dtnew| ≤ timeAcc then dtnew else ridLoop f n dtnew dth fnew fh dtnew
        else -1

/-- `FC_xzridder`, `FermiChopper.comp:235-276` -/
def ridder (f : ℝ → ℝ) (dt : ℝ) : ℝ :=
  let fl := f 0
  let fh := f dt
  if (fl > 0 ∧ fh < 0) ∨ (fl < 0 ∧ fh > 0) then ridLoop f 10 0 dt fl fh (-fltMax)
  else if fl = 0 then 0
  else if fh = 0 then dt
  else -3

/-! ### INITIALIZE -/

/-- the parameters of `FermiChopper.comp:95-99` without `verbose`, `dist` and `Vi` -/
structure Par where
  (phase radius nu ymin ymax w Nslit R0 Qc alpha m W length eff zeroTime width height rad slit alpham Wi curvature time : ℝ)

/-- the parameters after INITIALIZE, with `omega`, `C_slit` and `L_slit`, `FermiChopper.comp:114-133, 247-282` -/
structure Fc where
  (omega C radius height nu w Nslit R0 Qc alpha m W length eff zeroTime : ℝ)

/-- what changes from neutron to neutron: `ph0`, `sum_t`, `sum_N` and `absorb_nocontrol`, `FermiChopper.comp:114-133` -/
structure St where
  (ph0 sumT sumN : ℝ)
  (noControl : ℕ)

/-- `fmod` of the C library (for `y` not 0), called in `FermiChopper.comp:291, 426` -/
def fmod (x y : ℝ) : ℝ := x - y * (if 0 ≤ x / y then (⌊x / y⌋ : ℝ) else (⌈x / y⌉ : ℝ))

/-- the phase, `FermiChopper.comp:290-292` -/
def Par.ph0 (p : Par) : ℝ := if p.phase = 0 ∧ p.time ≠ 0 then fmod (-p.time * p.nu * 360) 360 * DEG2RAD else p.phase * DEG2RAD

/-- the parameters for compatibility, `FermiChopper.comp:296-299` -/
def Par.compat (p : Par) : Par :=
  { p with radius := if p.rad ≠ 0 then p.rad else p.radius, length := if p.slit ≠ 0 then p.slit else p.length,
           alpha := if p.alpham ≠ 0 then p.alpham else p.alpha, W := if p.Wi ≠ 0 then p.Wi else p.W }

/-- the number of slits, at first, `FermiChopper.comp:304` -/
def Par.n0 (p : Par) : ℝ := if p.Nslit < 1 then 1 else p.Nslit

/-- the upper limit minus the lower limit, `FermiChopper.comp:305-306` -/
def Par.span (p : Par) : ℝ := if p.height > 0 then p.height / 2 - -(p.height / 2) else p.ymax - p.ymin

/-- the width of a slit, `FermiChopper.comp:316-318` -/
def Par.slitW (p : Par) : ℝ := if p.width > 0 ∧ p.width < p.radius * 2 ∧ p.n0 > 0 then p.width / p.n0 else p.w

/-- the number of slits, `FermiChopper.comp:323-327` -/
def Par.slits (p : Par) : ℝ := if p.n0 * p.slitW > p.radius * 2 then ((⌊p.radius / p.slitW⌋ : ℤ) : ℝ) else p.n0

/-- the length of a package that fills the cylinder, `FermiChopper.comp:329, 334`; in `setup` the number under the root is not negative -/
def Par.full (p : Par) : ℝ := 2 * √(p.radius * p.radius - p.slits * p.slitW * p.slits * p.slitW / 4)

/-- the length of the slits, `FermiChopper.comp:328-337` -/
def Par.len (p : Par) : ℝ := if p.slits = 1 then p.full else if p.length > p.radius * 2 then p.full else p.length

/-- INITIALIZE, `FermiChopper.comp:285-371`.  `mem` is what the memory holds at the place of `C_slit`, which is a member of the
generated class without initial value (line 282) and is set only for a curvature that is not 0 (lines 347-352).  `exit` is `runtimeError`. -/
def setup (mem : ℝ) (p : Par) : Except Err (Fc × St) :=
  let q := p.compat
  if q.span ≤ 0 then .error .runtimeError
  else if q.radius ≤ 0 then .error .runtimeError
  else if q.slitW ≤ 0 then .error .runtimeError
  else if q.curvature ≠ 0 ∧ 1 < |q.radius * q.curvature| then .error .runtimeError
  else
    .ok ({ omega := 2 * Real.pi * q.nu
           C := if q.curvature ≠ 0 then q.curvature else mem
           radius := q.radius
           height := |q.span|
           nu := q.nu
           w := q.slitW
           Nslit := q.slits
           R0 := if q.Qc ≤ 0 ∨ q.m ≤ 0 then 0 else q.R0
           Qc := if q.Qc ≤ 0 then 0.02176 else q.Qc
           alpha := q.alpha
           m := if q.Qc ≤ 0 ∨ q.m ≤ 0 then 0 else q.m
           W := if q.W ≤ 0 then 1e-6 else q.W
           length := q.len
           eff := if q.eff ≤ 0 ∨ q.eff > 1 then 0.95 else q.eff
           zeroTime := q.zeroTime }, ⟨q.ph0, 0, 0, 0⟩)

/-! ### TRACE -/

/-- the structure that is handed to the functions, `FermiChopper.comp:282, 431` -/
def Fc.frame (c : Fc) (ph0 : ℝ) : Frame := ⟨c.omega, ph0, c.C, c.length⟩

/-- the time at which the tangents meet or the middle of the interval, `FermiChopper.comp:509-529` -/
def Frame.tangent (f : Frame) (e : Event ℝ) (dt : ℝ) : ℝ :=
  let xp1 := f.xrot e.r.x e.r.z e.t
  let xp2 := f.xAt e dt
  let vxp1 := f.xrot (e.v.x + e.r.z * f.omega) (e.v.z - e.r.x * f.omega) e.t
  let vxp2 := f.xrot (e.v.x + (e.r.z + e.v.z * dt) * f.omega) (e.v.z - (e.r.x + e.v.x * dt) * f.omega) (e.t + dt)
  let t3 := if vxp1 - vxp2 ≠ 0 then ((xp2 - xp1) + (e.t * vxp1 - (e.t + dt) * vxp2)) / (vxp1 - vxp2) else -1
  if t3 < 0 ∨ t3 > dt then dt * 0.5 else t3 - e.t

/-- the reflectivity, `FermiChopper.comp:585-595`; `none`: absorbed -/
def Fc.weight (c : Fc) (q : ℝ) : Option ℝ :=
  if q > c.Qc then
    let arg := (q - c.m * c.Qc) / c.W
    if arg < 10 then some (0.5 * (1 - Real.tanh arg) * (1 - c.alpha * (q - c.Qc)) * c.R0) else none
  else some c.R0

/-- the reflection, `FermiChopper.comp:581-610`; `none`: absorbed -/
def Fc.reflect (c : Fc) (f : Frame) (e : Event ℝ) : Option (Event ℝ) :=
  let vxp1 := f.xrot e.v.x e.v.z e.t
  let vzp1 := f.zrot e.v.x e.v.z e.t
  let q := 2 * V2K * |vxp1|
  (c.weight q).map fun R => { e with p := e.p * R, v := ⟨f.xrot (-vxp1) (-vzp1) e.t, e.v.y, f.zrot (- -vxp1) vzp1 e.t⟩ }

/-- the place of the wall, `FermiChopper.comp:548-552` -/
def Fc.wall (c : Fc) (n1 n2 : ℤ) : ℝ := if n2 > n1 then (n1 + 1) * c.w else n1 * c.w

/-- the time to the wall, `FermiChopper.comp:555-572` -/
def Frame.toWall (f : Frame) (e : Event ℝ) (dt wall : ℝ) : ℝ :=
  let t3 := ridder (fun s => f.xAt e s - wall) dt
  if t3 < 0 ∨ t3 > dt then dt / 2 else t3

/-- the loop of the reflections, `FermiChopper.comp:505-626`, with `k` values of `loopcounter` left; `none`: absorbed.  If the loop is left
with the last value, 10, the neutron is absorbed, too (line 620). -/
def Fc.loop (c : Fc) (f : Frame) (G : Gravity) : ℕ → Event ℝ → ℝ → ℤ → Option (Event ℝ)
  | 0, _, _, _ => none
  | k + 1, e, dt, n1 =>
    let n2 := ⌊f.xAt e dt / c.w⌋
    let t3 := f.tangent e dt
    let n3 := ⌊f.xAt e t3 / c.w⌋
    if n2 ≠ n1 ∨ n3 ≠ n1 then
      if c.m = 0 ∨ c.R0 = 0 then none
      else
        let n2 := if n3 ≠ n1 then n3 else n2
        let dt := if n3 ≠ n1 then t3 else dt
        let t3 := f.toWall e dt (c.wall n1 n2)
        if |f.zAt e t3| > c.length / 2 then (if k = 0 then none else some e)
        else
          match c.reflect f (propDt G t3 e) with
          | none => none
          | some e => loop c f G k e (dt - t3) n3
    else if k = 0 then none else some e

/-- the new time, `FermiChopper.comp:402-403` -/
def Fc.reset (c : Fc) (t : ℝ) : ℝ :=
  if c.zeroTime = 1 ∧ c.nu ≠ 0 then t - ⌊(t + 1 / (4 * c.nu)) * (2 * c.nu)⌋ / (2 * c.nu) else t

/-- the sums and the phase, `FermiChopper.comp:418-428` -/
def Fc.adjust (c : Fc) (s : St) (e : Event ℝ) : St :=
  let s := { s with sumT := s.sumT + e.p * e.t, sumN := s.sumN + e.p }
  if c.zeroTime > 1 ∧ s.sumN ≠ 0 then { s with ph0 := -fmod (s.sumT / s.sumN * c.nu * 2 * Real.pi) (2 * Real.pi) } else s

/-- the way through the slits, `FermiChopper.comp:430-626`, from the entrance of the cylinder, which is left after the time `dt`;
`none`: absorbed -/
def Fc.slots (c : Fc) (f : Frame) (G : Gravity) (e : Event ℝ) (dt : ℝ) : Option (Event ℝ) :=
  if |f.xrot e.r.x e.r.z e.t| ≥ c.Nslit * c.w / 2 then none
  else
    let zp1 := f.zrot e.r.x e.r.z e.t
    let slitInput := if zp1 > 0 then c.length / 2 else -c.length / 2
    if |zp1| < c.length / 2 then none
    else
      let t3 := ridder (fun s => f.zAt e s - slitInput) dt
      if t3 < 0 ∨ t3 > dt then none
      else
        let e := propDt G t3 e
        let dt := dt - t3
        let xp1 := f.xrot e.r.x e.r.z e.t
        if |xp1| ≥ c.Nslit * c.w / 2 then none
        else
          let t3 := ridder (fun s => f.zAt e s - -slitInput) dt
          let dt := if t3 < 0 ∨ t3 > dt then dt else t3
          c.loop f G 11 e dt ⌊xp1 / c.w⌋

/-- the exit, `FermiChopper.comp:629-666`.  `undefinedBehaviour`: the times are not numbers -/
def Fc.leave (c : Fc) (f : Frame) (G : Gravity) (s : St) (e : Event ℝ) : Except Err (Event ℝ × St) :=
  match cylinderIntersect e.r e.v c.radius c.height with
  | none => .error .undefinedBehaviour
  | some none => .ok (absorb e, s)
  | some (some (_, t1, t2)) =>
    if t1 > 0 then .ok (absorb e, s)
    else if t2 ≤ 0 ∧ s.noControl < 10 then .ok (absorb e, { s with noControl := s.noControl + 1 })
    else
      let e := propDt G t2 e
      if |e.r.y| ≥ 0.99 * c.height / 2 then .ok (absorb e, s)
      else if |f.xrot e.r.x e.r.z e.t| ≥ c.Nslit * c.w / 2 then .ok (absorb e, s)
      else .ok ({ e with p := e.p * c.eff }, s)

/-- TRACE, `FermiChopper.comp:375-670`.  `undefinedBehaviour`: the times are not numbers -/
def Fc.trace (c : Fc) (G : Gravity) (s : St) (e : Event ℝ) : Except Err (Event ℝ × St) :=
  let e := { e with t := c.reset e.t }
  match cylinderIntersect e.r e.v c.radius c.height with
  | none => .error .undefinedBehaviour
  | some none => .ok (e, s)
  | some (some (_, t1, t2)) =>
    if t1 ≤ 0 then .ok (absorb e, s)
    else
      let e := propDt G t1 e
      if e.r.y ≥ 0.99 * (c.height / 2) ∨ e.r.y ≤ 0.99 * -(c.height / 2) then .ok (absorb e, s)
      else
        let s := c.adjust s e
        match c.slots (c.frame s.ph0) G e (t2 - t1) with
        | none => .ok (absorb e, s)
        | some e => c.leave (c.frame s.ph0) G s e

end
end Verif.McRotor
