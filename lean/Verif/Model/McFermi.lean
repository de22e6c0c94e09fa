import Verif.Model.McStas
import Verif.Model.Powder
import Verif.Model.Sampling
import Mathlib.Data.Option.NAry
import Mathlib.Logic.Function.Basic
/-!
The choppers of the SNS instruments whose slots turn with them, `Vertical_T0.comp` and `Fermi_chop2.comp` of
`packages/legacycomponents/mcstas2/share/McStas-Components/optics`.

Real numbers instead of doubles.  `ABSORB` is `absorb` and the end of `trace`.  A number that is not finite is `none`; a comparison
with it is false.  The coordinates of a point in the frame of the chopper are written (z, x), as in the code.
-/

namespace Verif.McFermi
open McStas Kinem Sampling
noncomputable section
open Classical

/-! ### the path in the frame of the chopper -/

/-- `acos0_2pi`, `Vertical_T0.comp:61-67`, `Fermi_chop2.comp:75-81` -/
def acos02pi (x : Option ℝ) (y : ℝ) : Option ℝ := do
  let a ← acosD (← x)
  some (if y > 0 then a else 2 * Real.pi - a)

/-- a circle: `c` and `nrad`, `Vertical_T0.comp:111-112` -/
structure Circle where
  (c0 c1 nrad : ℝ)

/-- `neutxypos`, `Vertical_T0.comp:69-73`, `Fermi_chop2.comp:83-87` -/
def Circle.pos (c : Circle) (phi : ℝ) : ℝ × ℝ := (c.c0 + c.nrad * Real.cos phi, c.c1 + c.nrad * Real.sin phi)

/-- `calccenter`, `Vertical_T0.comp:75-83`, `Fermi_chop2.comp:89-97`, with the points 0, 1, 2; `none` if the result is not finite -/
def calcCenter (p0 p1 p2 : ℝ × ℝ) : Option (ℝ × ℝ) := do
  let denom := 2 * (-p0.1 * p2.2 + p0.1 * p1.2 + p1.1 * p2.2 + p0.2 * p2.1 - p0.2 * p1.1 - p1.2 * p2.1)
  let A := p1.2 - p2.2
  let B := p0.2 - p1.2
  let C := p2.1 - p1.1
  let D := p1.1 - p0.1
  let a := p0.1 * p0.1 - p1.1 * p1.1 + p0.2 * p0.2 - p1.2 * p1.2
  let b := p2.1 * p2.1 - p1.1 * p1.1 + p2.2 * p2.2 - p1.2 * p1.2
  let d ← divD 1 denom
  some (d * (A * a + B * b), d * (C * a + D * b))

/-- a place in the frame that turns with `omega` and is the laboratory at the time `tc`, `Vertical_T0.comp:127-129, 134-136` -/
def turned (omega tc t : ℝ) (r : V3 ℝ) : ℝ × ℝ :=
  let q := rotate r ((t - tc) * omega) ⟨0, 1, 0⟩
  (q.z, q.x)

/-- the circle, the point of entrance (index 1) and the point of exit (index 2), `Vertical_T0.comp:123-138`,
`Fermi_chop2.comp:163-178`; the neutron is at the entrance already.  `none`: the centre is not finite, then all angles
computed with it are not numbers -/
def path (rad omega tc dt2 : ℝ) (e : Event ℝ) : Option (Circle × (ℝ × ℝ) × (ℝ × ℝ)) := do
  let z1 := -(← sqrtD (rad * rad - e.r.x * e.r.x))
  let p1 := turned omega tc e.t ⟨e.r.x, e.r.y, z1⟩
  let p2 := turned omega tc (e.t + dt2) ⟨e.r.x + e.v.x * dt2, e.r.y + e.v.y * dt2, z1 + e.v.z * dt2⟩
  let p0 := turned omega tc (e.t + dt2 / 2)
    ⟨e.r.x + e.v.x * (dt2 / 2), e.r.y + e.v.y * (dt2 / 2), z1 + e.v.z * (dt2 / 2)⟩
  let (c0, c1) ← calcCenter p0 p1 p2
  some (⟨c0, c1, √((p0.1 - c0) * (p0.1 - c0) + (p0.2 - c1) * (p0.2 - c1))⟩, p1, p2)

/-- the angle of a point of the path, `Vertical_T0.comp:142`, `Fermi_chop2.comp:182` -/
def Circle.angle (c : Circle) (p : ℝ × ℝ) : Option ℝ := acos02pi (divD (p.1 - c.c0) c.nrad) (p.2 - c.c1)

/-- `phivec[0]`, `Vertical_T0.comp:142-147`, `Fermi_chop2.comp:182-187` -/
def Circle.first (c : Circle) (splen : ℝ) (p1 : ℝ × ℝ) : Option ℝ := do
  let phi ← c.angle p1
  if (c.pos phi).1 < -splen then acos02pi (divD (-c.c0 - splen) c.nrad) (-c.c1) else some phi

/-- `phivec[1]`, `Vertical_T0.comp:142, 148-151`, `Fermi_chop2.comp:182, 188-191` -/
def Circle.last (c : Circle) (splen : ℝ) (p2 : ℝ × ℝ) : Option ℝ := do
  let phi ← c.angle p2
  if (c.pos phi).1 > splen then acos02pi (divD (-c.c0 + splen / 2) c.nrad) (-c.c1) else some phi

/-! ### the points at which the path is tested -/

/-- `phivec` and `idx1`, `Vertical_T0.comp:112-113` -/
structure Sw where
  phi : ℕ → Option ℝ
  idx : ℕ

/-- the comparison `a < b`, e.g. `Vertical_T0.comp:164`; false with a number that is not one -/
def less : Option ℝ → Option ℝ → Prop
  | some a, some b => a < b
  | _, _ => False

/-- `idx1++; phivec[idx1]=a`, `Vertical_T0.comp:159-160, 166-167, 175-176` -/
def Sw.push (s : Sw) (a : Option ℝ) : Sw := ⟨Function.update s.phi (s.idx + 1) a, s.idx + 1⟩

/-- the inner loops, `Vertical_T0.comp:164-170` (`up`) and 173-179, `Fermi_chop2.comp:215-229, 233-245`; `none`: absorbed.
The number is the greatest number of turns; 129 are enough because `idx1` grows. -/
def inner (ok : Option ℝ → Prop) (up : Prop) (dphi : Option ℝ) : ℕ → Sw → Option Sw
  | 0, s => some s
  | n + 1, s =>
    if (if up then less (s.phi s.idx) (s.phi 1) else less (s.phi 1) (s.phi s.idx)) ∧ s.idx < 129 then
      let s := s.push (Option.map₂ (· + ·) (s.phi s.idx) dphi)
      if ok (s.phi s.idx) then inner ok up dphi n s else none
    else some s

/-- one turn of the outer loop, `Vertical_T0.comp:158-182`, `Fermi_chop2.comp:206-247`; `none`: absorbed -/
def turn (ok : Option ℝ → Prop) (s : Sw) : Option Sw :=
  let dphi := Option.map₂ (· - ·) (s.phi 1) (s.phi s.idx)
  let s := s.push (Option.map₂ (fun a d => a + d / 2) (s.phi 0) dphi)
  if ok (s.phi s.idx) then
    match inner ok (less (some 0) dphi) dphi 129 s with
    | none => none
    | some s => some (if s.idx < 129 then ⟨s.phi, s.idx - 1⟩ else s)
  else none

/-- how the loop ends, `Vertical_T0.comp:157-183`: absorbed, to the end, or still in the loop -/
inductive End where
  | gone
  | through
  | running
  deriving DecidableEq

/-- the outer loop, `Vertical_T0.comp:157-183`, `Fermi_chop2.comp:200-248`, with at most `n` turns -/
def loop (ok : Option ℝ → Prop) : ℕ → Sw → End
  | 0, s => if s.idx < 129 then .running else .through
  | n + 1, s =>
    if s.idx < 129 then
      match turn ok s with
      | none => .gone
      | some s => loop ok n s
    else .through

/-- the middle, `Vertical_T0.comp:152-154`, `Fermi_chop2.comp:192-194` -/
def begin0 (phi0 phi1 : Option ℝ) : Sw :=
  let dphi := Option.map₂ (· - ·) phi1 phi0
  ⟨fun i => if i = 0 then phi0 else if i = 1 then phi1 else Option.map₂ (fun a d => a + d / 2) phi0 dphi, 2⟩

/-- all tests, `Vertical_T0.comp:152-183`, with at most `n` turns of the outer loop -/
def sweep (ok : Option ℝ → Prop) (n : ℕ) (phi0 phi1 : Option ℝ) : End :=
  let s := begin0 phi0 phi1
  if ok (s.phi s.idx) then loop ok n s else .gone

/-! ### the T0 chopper -/

/-- the parameters of `Vertical_T0.comp:36`; `delta` is not used -/
structure T0 where
  (len w1 w2 nu delta tc ymin ymax : ℝ)

/-- `splen`, `Vertical_T0.comp:104` -/
def T0.splen (c : T0) : ℝ := c.len / 2

/-- `omega`, `Vertical_T0.comp:105` -/
def T0.omega (c : T0) : ℝ := 2 * Real.pi * c.nu

/-- `rad`, `Vertical_T0.comp:106` -/
def T0.rad (c : T0) : ℝ := √(c.w2 * c.w2 / 4 + c.splen * c.splen)

/-- `t0checkabsorb`, `Vertical_T0.comp:86-93`: the neutron passes.  With an angle that is not a number it does.  (The radius is
not 0 if there is a centre.) -/
def t0ok (c : Circle) (w1 w2 : ℝ) : Option ℝ → Prop
  | none => True
  | some phi => ¬ |(c.pos phi).2| > w1 / 2 + (w2 - w1) / (c.nrad / 2) * |(c.pos phi).1|

/-- `TRACE`, `Vertical_T0.comp:114-187`, with at most `n` turns of the outer loop; `none`: the loop still runs.  A neutron that moves
along y only (the times are not numbers) is undefined here. -/
def T0.trace (c : T0) (G : Gravity) (n : ℕ) (e : Event ℝ) : Except Err (Option (Event ℝ)) :=
  match cylinderIntersect e.r e.v c.rad (c.ymax - c.ymin) with
  | none => .error .undefinedBehaviour
  | some none => .ok (some (absorb e))
  | some (some (_, t0, t1)) =>
    if t0 < 0 then .ok (some (absorb e))
    else
      let e := propDt G t0 e
      let res := match path c.rad c.omega c.tc (t1 - t0) e with
        | none => sweep (fun _ => True) n none none
        | some (o, p1, p2) => sweep (t0ok o c.w1 c.w2) n (o.first c.splen p1) (o.last c.splen p2)
      match res with
      | .gone => .ok (some (absorb e))
      | .through => .ok (some e)
      | .running => .ok none

/-! ### the Fermi chopper -/

/-- the parameters of `Fermi_chop2.comp:40-42`; `delta` is not used; `max_iter` not negative -/
structure Fermi where
  (len w nu delta tc ymin ymax nchan bw blader : ℝ)
  maxIter : ℕ

/-- `max_iter`, `Fermi_chop2.comp:137` -/
def Fermi.iters (c : Fermi) : ℕ := if c.maxIter = 0 then 10000 else c.maxIter

/-- `splen`, `Fermi_chop2.comp:139` -/
def Fermi.splen (c : Fermi) : ℝ := c.len / 2

/-- `omega`, `Fermi_chop2.comp:140` -/
def Fermi.omega (c : Fermi) : ℝ := 2 * Real.pi * c.nu

/-- `off`, `Fermi_chop2.comp:141` -/
def Fermi.off (c : Fermi) : Option ℝ := do
  let q ← divD c.splen |c.blader|
  let a ← Powder.asinD q
  some (c.blader * (1 - Real.cos a))

/-- `sw`, `Fermi_chop2.comp:144` (`nchan` not 0) -/
def Fermi.sw (c : Fermi) : ℝ := (c.w - c.bw) / c.nchan - c.bw

/-- `blades`, `Fermi_chop2.comp:100-105` -/
def blades (zin rin off : ℝ) : Option ℝ :=
  if rin ≠ 0 then do
    let q ← divD zin |rin|
    let a ← Powder.asinD q
    some (rin * (1 - Real.cos a) + off)
  else some 0

/-- `checkabsorb`, `Fermi_chop2.comp:109-121`: the number of the channel, or `none` for the return value 0.  If the shape of the blade
is not a number at this place, the conversion to `int` is undefined. -/
def checkAbsorb (c : Circle) (w sw bw blader off : ℝ) (phi : ℝ) : Except Err (Option ℤ) :=
  let p := c.pos phi
  if |p.2| > w / 2 then .ok none
  else
    let xtmp := p.2 + w / 2
    match blades p.1 blader off with
    | none => .error .undefinedBehaviour
    | some b =>
      let chan := ⌈(xtmp - b) / (bw + sw)⌉
      if xtmp > chan * (bw + sw) + b then .ok none else .ok (some chan)

/-- the tests along the path, `Fermi_chop2.comp:192-248`.  The counter `i_iter1` allows `max_iter + 1` turns, then the neutron is
absorbed.  A place with no blade shape is undefined at the middle; at another point it counts as another channel here. -/
def Fermi.test (c : Fermi) (o : Circle) (tw off f0 f1 : ℝ) : Except Err End :=
  let check := checkAbsorb o tw c.sw c.bw c.blader off
  match check (f0 + (f1 - f0) / 2) with
  | .error er => .error er
  | .ok none => .ok .gone
  | .ok (some chan0) =>
    let ok : Option ℝ → Prop := fun f => ∃ x, f = some x ∧ check x = .ok (some chan0) ∧ ¬ (chan0 : ℝ) > c.nchan
    match loop ok (c.iters + 1) (begin0 (some f0) (some f1)) with
    | .through => .ok .through
    | _ => .ok .gone

/-- `TRACE`, `Fermi_chop2.comp:154-252`.  Undefined: an angle that is not a number (`checkabsorb` converts it to `int`), and a
neutron that moves along y only. -/
def Fermi.trace (c : Fermi) (G : Gravity) (e : Event ℝ) : Except Err (Event ℝ) :=
  match c.off with
  | none => .ok e
  | some off =>
    let tw := c.w + 2 * off
    let rad := √(tw * tw / 4 + c.splen * c.splen)
    match cylinderIntersect e.r e.v rad (c.ymax - c.ymin) with
    | none => .error .undefinedBehaviour
    | some none => .ok e
    | some (some (_, t0, t1)) =>
      if t0 < 0 then .ok (absorb e)
      else
        let e := propDt G t0 e
        match path rad c.omega c.tc (t1 - t0) e with
        | none => .error .undefinedBehaviour
        | some (o, p1, p2) =>
          match o.first c.splen p1, o.last c.splen p2 with
          | some f0, some f1 =>
            match c.test o tw off f0 f1 with
            | .error er => .error er
            | .ok .through => .ok e
            | .ok _ => .ok (absorb e)
          | _, _ => .error .undefinedBehaviour

end
end Verif.McFermi
