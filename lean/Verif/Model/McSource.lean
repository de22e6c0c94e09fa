import Verif.Model.McConst
/-!
Sources of McStas, `packages/legacycomponents/mcstas2/share/McStas-Components/sources/*.comp` (the components cited below are in this
directory).

Real numbers instead of doubles; a result that is not finite is `none`.  `mcget_ncount()` is 1 (`lib/misc_macros.h:30`), `ROT_A_CURRENT_COMP` is
the identity (`lib/geometry.h:42`), `exit` is `cppException`.  Random numbers are arguments: `u` for `rand01()` and `randpm1()`, which is
`2 u - 1` (`lib/random_numbers.h:47-48`), `g` for `randnorm()`.
-/

namespace Verif.McSource
open McStas Kinem McGuide McConst
noncomputable section
open Classical

/-- the call of `randvec_target_rect` in all sources, e.g. `Source_simple.comp:107-108`: the point in the target and the solid angle -/
def target (dist xw yh u1 u2 : ℝ) : Option (ℝ × ℝ × ℝ) :=
  (targetRect ⟨0, 0, dist⟩ xw yh M3.one u1 u2).map fun r => (r.1.x, r.1.y, r.2)

/-- the velocity towards the point in the target, `Source_simple.comp:110-112, 132-134`, `Moderator.comp:75-77, 84-87`,
`Source_Maxwell_3.comp:102-112` -/
def aim (x y dist xf yf v : ℝ) : Option (V3 ℝ) := do
  let dx := xf - x
  let dy := yf - y
  let rf := √(dx * dx + dy * dy + dist * dist)
  some ⟨← divD (v * dx) rf, ← divD (v * dy) rf, ← divD (v * dist) rf⟩

/-- a point on a disk, `Source_simple.comp:102-105`, `Moderator.comp:68-71` -/
def onDisk (radius u1 u2 : ℝ) : ℝ × ℝ :=
  (√u2 * radius * Real.cos (2 * Real.pi * u1), √u2 * radius * Real.sin (2 * Real.pi * u1))

/-! ### Source_simple -/

/-- parameters of `Source_simple.comp:56` -/
structure Simple where
  (radius height width dist xw yh E0 dE Lambda0 dLambda flux : ℝ)
  (gauss : Bool)

/-- the parts of the tests of the parameters of `Source_simple.comp:81-82` and `Source_div.comp:77-78` -/
def badSpectrum (E0 dE Lambda0 dLambda : ℝ) : Prop :=
  (Lambda0 = 0 ∧ dLambda = 0 ∧ (E0 ≤ 0 ∨ dE < 0 ∨ E0 - dE ≤ 0)) ∨ (E0 = 0 ∧ dE = 0 ∧ (Lambda0 ≤ 0 ∨ dLambda < 0 ∨ Lambda0 - dLambda ≤ 0))

/-- `Source_simple.comp:66-87`: `square` and `pmul` -/
def Simple.init (c : Simple) : Except Err (Bool × ℝ) := do
  let (square, area) ← if c.radius ≠ 0 ∧ c.height = 0 ∧ c.width = 0 then .ok (false, Real.pi * c.radius * c.radius)
    else if c.radius = 0 ∧ c.height ≠ 0 ∧ c.width ≠ 0 then .ok (true, c.width * c.height)
    else .error .cppException
  if area ≤ 0 ∨ c.dist < 0 ∨ c.xw < 0 ∨ c.yh < 0 ∨ badSpectrum c.E0 c.dE c.Lambda0 c.dLambda then .error .cppException
  else .ok (square, c.flux * 1e4 * area / 1)

/-- the speed, `Source_simple.comp:116-130` -/
def Simple.speed (c : Simple) (u g : ℝ) : Option ℝ :=
  if c.Lambda0 = 0 then do
    let E := if c.gauss then c.E0 + g * c.dE else c.E0 + c.dE * (2 * u - 1)
    some ((← sqrtD E) * SE2V)
  else do
    let L := if c.gauss then g * c.dLambda else c.Lambda0 + c.dLambda * (2 * u - 1)
    some (K2V * (← divD (2 * Real.pi) L))

/-- the point on the source, `Source_simple.comp:98-106` -/
def Simple.point (c : Simple) (square : Bool) (u1 u2 : ℝ) : ℝ × ℝ :=
  if square then (c.width * (u1 - 0.5), c.height * (u2 - 0.5)) else onDisk c.radius u1 u2

/-- `Source_simple.comp:92-137` -/
def Simple.trace (c : Simple) (square : Bool) (pmul : ℝ) (e : Event ℝ) (u1 u2 u3 u4 u5 g : ℝ) : Option (Event ℝ) := do
  let (x, y) := c.point square u1 u2
  let (xf, yf, pdir) ← target c.dist c.xw c.yh u3 u4
  let v ← c.speed u5 g
  let vel ← aim x y c.dist xf yf v
  some { e with r := ⟨x, y, 0⟩, v := vel, t := 0, p := pdir * pmul }

/-! ### Source_div -/

/-- parameters of `Source_div.comp:63` -/
structure Div where
  (width height hdiv vdiv E0 dE Lambda0 dLambda : ℝ)
  (gauss : Bool)

/-- `Source_div.comp:76-83` -/
def Div.check (c : Div) : Except Err Unit :=
  if c.width < 0 ∨ c.height < 0 ∨ c.hdiv < 0 ∨ c.vdiv < 0 ∨ badSpectrum c.E0 c.dE c.Lambda0 c.dLambda then .error .cppException else .ok ()

/-- `sigmah`, `sigmav`, `Source_div.comp:72-73` -/
def sigma (div : ℝ) : ℝ := Real.pi / 180 * div / (2 * √(2 * Real.log 2))

/-- `Source_div.comp:96-107`; the inner `none` is a speed that is not finite -/
def Div.speed (c : Div) (u : ℝ) : Except Err (Option ℝ) :=
  if c.E0 > 0 ∧ c.E0 > |c.dE| then .ok ((sqrtD (c.E0 + c.dE * (2 * u - 1))).map (· * SE2V))
  else if c.Lambda0 > 0 ∧ c.Lambda0 > |c.dLambda| then .ok (divD 3956.036 (c.Lambda0 + c.dLambda * (2 * u - 1)))
  else .error .cppException

/-- `Source_div.comp:86-125`; `u4`, `u5` or `g1`, `g2` are used for the angles -/
def Div.trace (c : Div) (e : Event ℝ) (u1 u2 u3 u4 u5 g1 g2 : ℝ) : Except Err (Option (Event ℝ)) := do
  let v ← c.speed u3
  let thetah := if c.gauss then g1 * sigma c.hdiv else (2 * u4 - 1) * c.hdiv * (Real.pi / 180)
  let thetav := if c.gauss then g2 * sigma c.vdiv else (2 * u5 - 1) * c.vdiv * (Real.pi / 180)
  let tanh := Real.tan thetah
  let tanv := Real.tan thetav
  .ok (v.map fun v =>
    let vz := v / √(1 + tanv * tanv + tanh * tanh)
    { e with r := ⟨(2 * u1 - 1) * c.width / 2, (2 * u2 - 1) * c.height / 2, 0⟩, v := ⟨tanh * vz, tanv * vz, vz⟩, t := 0, p := 1 / 1 })

/-! ### Moderator -/

/-- parameters of `Moderator.comp:43` -/
structure Moderator where
  (radius E0 E1 dist xw yh t0 Ec gam : ℝ)

/-- `Moderator.comp:54-59` -/
def Moderator.check (c : Moderator) : Except Err Unit :=
  if c.radius < 0 ∨ c.E0 < 0 ∨ c.E1 < 0 ∨ c.dist ≤ 0 ∨ c.xw < 0 ∨ c.yh < 0 ∨ c.Ec < 0 ∨ c.gam ≤ 0 then .error .cppException else .ok ()

/-- `tauv`, `Moderator.comp:89-97` -/
def Moderator.tau (c : Moderator) (E : ℝ) : ℝ :=
  if E < c.Ec then c.t0
  else
    let tmp := (E - c.Ec) / c.gam
    c.t0 / (1 + tmp * tmp)

/-- `log` of C, not finite for 0 and below (`Moderator.comp:98`) -/
def logD (x : ℝ) : Option ℝ := if x ≤ 0 then none else some (Real.log x)

/-- `Moderator.comp:62-100` -/
def Moderator.trace (c : Moderator) (e : Event ℝ) (u1 u2 u3 u4 u5 u6 : ℝ) : Option (Event ℝ) := do
  let (x, y) := onDisk c.radius u1 u2
  let (xf, yf, pdir) ← target c.dist c.xw c.yh u3 u4
  let E := c.E0 + (c.E1 - c.E0) * u5
  let v := SE2V * (← sqrtD E)
  let vel ← aim x y c.dist xf yf v
  some { e with r := ⟨x, y, 0⟩, v := vel, t := -c.tau E * (← logD u6) * 1e-6, p := pdir * (1 / (4 * Real.pi)) }

/-! ### Source_Maxwell_3 -/

/-- parameters of `Source_Maxwell_3.comp:57-58` -/
structure Maxwell where
  (size height width low high dist xw yh T1 T2 T3 I1 I2 I3 : ℝ)

/-- `w_source` and `h_source`, `Source_Maxwell_3.comp:70-75` -/
def Maxwell.wide (c : Maxwell) : ℝ × ℝ := if c.size > 0 then (c.size, c.size) else (c.width, c.height)

/-- `Source_Maxwell_3.comp:76-86`: `w_mult` -/
def Maxwell.init (c : Maxwell) : Except Err ℝ :=
  if c.wide.1 < 0 ∨ c.wide.2 < 0 ∨ c.low ≤ 0 ∨ c.high ≤ 0 ∨ c.dist ≤ 0 ∨ c.T1 ≤ 0 ∨ c.T2 ≤ 0 ∨ c.T3 ≤ 0 then .error .cppException
  else .ok (c.wide.1 * c.wide.2 * 1e4 * (c.high - c.low) * (1 / 1))

/-- one of the spectra, `Source_Maxwell_3.comp:122-127` -/
def maxwell (T l : ℝ) : ℝ :=
  let a := 949 / T
  2 * a * a * Real.exp (-a / (l * l)) / (l * l * l * l * l)

/-- `Source_Maxwell_3.comp:91-131` -/
def Maxwell.trace (c : Maxwell) (w_mult : ℝ) (e : Event ℝ) (u1 u2 u3 u4 u5 : ℝ) : Option (Event ℝ) := do
  let x := 0.5 * c.wide.1 * (2 * u1 - 1)
  let y := 0.5 * c.wide.2 * (2 * u2 - 1)
  let (xf, yf, w_focus) ← target c.dist c.xw c.yh u3 u4
  let lambda := c.low + (c.high - c.low) * u5
  let k ← divD (2 * Real.pi) lambda
  let vel ← aim x y c.dist xf yf (K2V * k)
  let p := e.p * (w_mult * w_focus)
  some { e with r := ⟨x, y, 0⟩, v := vel, t := 0, p := p * (c.I1 * maxwell c.T1 lambda + c.I2 * maxwell c.T2 lambda + c.I3 * maxwell c.T3 lambda) }

end
end Verif.McSource
