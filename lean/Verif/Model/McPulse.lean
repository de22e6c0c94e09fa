import Verif.Model.McSource
/-!
The pulsed sources `ESS_moderator_short` and `ESS_moderator_long` of McStas,
`packages/legacycomponents/mcstas2/share/McStas-Components/sources/*.comp`.

Conventions as in `Verif.Model.McSource`.
-/

namespace Verif.McPulse
open McStas Kinem McGuide McConst McSource
noncomputable section
open Classical

/-- the place, the direction and the wave length, `ESS_moderator_short.comp:140-158` and `ESS_moderator_long.comp:142-160`: position, velocity,
wave length and `w_focus` -/
def place (size low high dist xw yh u1 u2 u3 u4 u5 : ℝ) : Option (V3 ℝ × V3 ℝ × ℝ × ℝ) := do
  let x := 0.5 * size * (2 * u1 - 1)
  let y := 0.5 * size * (2 * u2 - 1)
  let (xf, yf, w_focus) ← target dist xw yh u3 u4
  let lambda := low + (high - low) * u5
  let v := K2V * (← divD (2 * Real.pi) lambda)
  let vel ← aim x y dist xf yf v
  some (⟨x, y, 0⟩, vel, lambda, w_focus)

/-- the time after the long-time tail, `t = -tau_l*log(1e-12+rand01())`, `ESS_moderator_short.comp:183, 197`, `ESS_moderator_long.comp:188, 203` -/
def tail (tau u : ℝ) : Option ℝ := (logD (1e-12 + u)).map fun l => -tau * l

/-- the intensity of the second spectrum, `ESS_moderator_short.comp:201`, `ESS_moderator_long.comp:209, 245` -/
def second (I2 w_mult chi2 lambda : ℝ) : Option ℝ := divD (I2 * w_mult / (1 + Real.exp (chi2 * lambda - 2.2))) lambda

/-! ### ESS_moderator_short -/

/-- parameters of `ESS_moderator_short.comp:97-99` -/
structure Short where
  (size low high dist xw yh freq T tau tau1 tau2 n n2 chi2 I0 I2 branch1 branch2 branchframe : ℝ)

/-- `ESS_moderator_short.comp:122-133`: `w_mult` -/
def Short.init (c : Short) : Except Err ℝ :=
  if c.n = 1 ∨ c.n2 = 1 ∨ c.low ≤ 0 ∨ c.high ≤ 0 ∨ c.dist = 0 ∨ c.branch1 = 1 ∨ c.branch2 = 1 ∨ c.tau = 0 then .error .cppException
  else .ok (c.size * c.size * 1e4 * (c.high - c.low) * (1 / 1))

/-- the factor for the shape of the pulse, `ESS_moderator_short.comp:184, 198` -/
def rise (n t tau : ℝ) : Option ℝ := do
  some ((← divD n (n - 1)) * (1 - Real.exp (← divD (-(n - 1) * t) tau)))

/-- the decay time and the correction for the choice in the first case, `ESS_moderator_short.comp:167-182` -/
def Short.first (c : Short) (u7 : ℝ) : Option (ℝ × ℝ) :=
  if c.tau1 > 0 then
    if u7 < c.branch1 then (divD 1 (c.branch1 * c.branch2)).map fun p => (c.tau, p)
    else (divD 1 ((1 - c.branch1) * c.branch2)).map fun p => (c.tau1, p)
  else (divD 1 c.branch2).map fun p => (c.tau, p)

/-- the time and the weight before the choice of the frame, `ESS_moderator_short.comp:165-203` -/
def Short.pulse (c : Short) (w_mult lambda w_focus u6 u7 u8 : ℝ) : Option (ℝ × ℝ) :=
  if u6 < c.branch2 then do
    let (tau, p) ← c.first u7
    let t ← tail tau u8
    some (t, p * (← rise c.n t tau) * w_focus * (c.I0 * w_mult * maxwell c.T lambda))
  else do
    let tau := c.tau2 * lambda
    let t ← tail tau u8
    let p ← divD (← rise c.n2 t tau) (1 - c.branch2)
    some (t, p * w_focus * (← second c.I2 w_mult c.chi2 lambda))

/-- the choice of the frame, `ESS_moderator_short.comp:205-216`, with `Delta_t` of line 129 -/
def Short.frame (c : Short) (t p u9 u10 : ℝ) : Option (ℝ × ℝ) :=
  if c.branchframe > 0 ∧ u9 ≤ c.branchframe then some (t, p / c.branchframe)
  else do
    let dt ← divD 1 c.freq
    some (if u10 < 0.5 then t + dt else t - dt, p * (← divD 2 (1 - c.branchframe)))

/-- `ESS_moderator_short.comp:136-217` -/
def Short.trace (c : Short) (w_mult : ℝ) (e : Event ℝ) (u1 u2 u3 u4 u5 u6 u7 u8 u9 u10 : ℝ) : Option (Event ℝ) := do
  let (r, v, lambda, w_focus) ← place c.size c.low c.high c.dist c.xw c.yh u1 u2 u3 u4 u5
  let (t, p) ← c.pulse w_mult lambda w_focus u6 u7 u8
  let (t, p) ← c.frame t p u9 u10
  some { e with r := r, v := v, t := t, p := p }

/-! ### ESS_moderator_long -/

/-- parameters of `ESS_moderator_long.comp:94-97` -/
structure Long where
  (size low high dist xw yh freq T tau tau1 tau2 d n n2 chi2 I0 I2 branch1 branch2 branch_tail branchframe : ℝ)

/-- `ESS_moderator_long.comp:120-136`: the component with the new `branch1`, and `w_mult` -/
def Long.init (c : Long) : Except Err (Long × ℝ) :=
  if c.n = 1 ∨ c.n2 = 1 ∨ c.low ≤ 0 ∨ c.high ≤ 0 ∨ c.dist = 0 ∨ c.branch2 = 0 ∨ c.branch_tail = 0 ∨ c.tau = 0 then .error .cppException
  else .ok (if c.tau1 = 0 ∧ ¬ c.branch1 = 1 then { c with branch1 := 1 } else c,
    c.size * c.size * 1e4 * (c.high - c.low) * (1 / 1) * c.freq)

/-- the decay time and the correction for the choice in the first case of the tail, `ESS_moderator_long.comp:172-187` -/
def Long.firstTail (c : Long) (u8 : ℝ) : Option (ℝ × ℝ) :=
  if c.tau1 > 0 then
    if u8 < c.branch1 then (divD 1 (c.branch1 * c.branch2 * c.branch_tail)).map fun p => (c.tau, p)
    else (divD 1 ((1 - c.branch1) * c.branch2 * c.branch_tail)).map fun p => (c.tau1, p)
  else (divD 1 (c.branch2 * c.branch_tail)).map fun p => (c.tau, p)

/-- the same for the bulk, `ESS_moderator_long.comp:219-228` -/
def Long.firstBulk (c : Long) (u8 : ℝ) : Option (ℝ × ℝ) :=
  if u8 < c.branch1 then (divD 1 (c.branch1 * c.branch2 * (1 - c.branch_tail))).map fun p => (c.tau, p)
  else (divD 1 ((1 - c.branch1) * c.branch2 * (1 - c.branch_tail))).map fun p => (c.tau1, p)

/-- the factor for the shape of the tail in the second case, `ESS_moderator_long.comp:204`; `n` stands for the denominator, which is the parameter
`n` and not `n2` -/
def fall (n2 n d t tau : ℝ) : Option ℝ := do
  some ((← divD n2 (n2 - 1)) * ((1 - Real.exp (← divD (-d) tau)) -
    (← divD ((1 - Real.exp (← divD (-n2 * d) tau)) * Real.exp (← divD (-(n2 - 1) * t) tau)) n)))

/-- the factor for the shape of the bulk, `ESS_moderator_long.comp:229, 242` -/
def build (n t tau : ℝ) : Option ℝ := do
  some (1 - (← divD n (n - 1)) * (Real.exp (← divD (-t) tau) - (← divD (Real.exp (← divD (-n * t) tau)) n)))

/-- the time and the weight before the choice of the frame, `ESS_moderator_long.comp:167-248`; the line after the sampling of the tail in the
first case is empty but for the comment "Correct for true pulse shape" -/
def Long.pulse (c : Long) (w_mult lambda w_focus u6 u7 u8 u9 : ℝ) : Option (ℝ × ℝ) :=
  if u6 < c.branch_tail then
    if u7 < c.branch2 then do
      let (tau, p) ← c.firstTail u8
      let t ← tail tau u9
      some (t + c.d, p * w_focus * (← divD tau c.d) * (c.I0 * w_mult * maxwell c.T lambda))
    else do
      let tau := c.tau2 * lambda
      let t ← tail tau u9
      let p ← divD (← fall c.n2 c.n c.d t tau) ((1 - c.branch2) * c.branch_tail)
      some (t + c.d, p * (← divD tau c.d) * w_focus * (← second c.I2 w_mult c.chi2 lambda))
  else
    let t := c.d * u9
    if u7 < c.branch2 then do
      let (tau, p) ← c.firstBulk u8
      some (t, p * (← build c.n t tau) * w_focus * (c.I0 * w_mult * maxwell c.T lambda))
    else do
      let tau := c.tau2 * lambda
      let p ← divD (← build c.n2 t tau) ((1 - c.branch2) * (1 - c.branch_tail))
      some (t, p * w_focus * (← second c.I2 w_mult c.chi2 lambda))

/-- the choice of the frame, `ESS_moderator_long.comp:249-255` -/
def Long.frame (c : Long) (t p u10 : ℝ) : Option (ℝ × ℝ) :=
  if u10 < c.branchframe then do some (t + (← divD 1 c.freq), ← divD p c.branchframe)
  else do some (t, ← divD p (1 - c.branchframe))

/-- `ESS_moderator_long.comp:138-256` -/
def Long.trace (c : Long) (w_mult : ℝ) (e : Event ℝ) (u1 u2 u3 u4 u5 u6 u7 u8 u9 u10 : ℝ) : Option (Event ℝ) := do
  let (r, v, lambda, w_focus) ← place c.size c.low c.high c.dist c.xw c.yh u1 u2 u3 u4 u5
  let (t, p) ← c.pulse w_mult lambda w_focus u6 u7 u8 u9
  let (t, p) ← c.frame t p u10
  some { e with r := r, v := v, t := t, p := p }

end
end Verif.McPulse
