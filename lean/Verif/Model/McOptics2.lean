import Verif.Model.McOptics
import Verif.Model.McGuide
import Verif.Model.McTable
import Verif.Model.McConst
import Verif.Model.DataFiles
import Mathlib.Analysis.SpecialFunctions.Pow.Real
/-!
More optical components of McStas, `packages/legacycomponents/mcstas2/share/McStas-Components/optics/*.comp` (the components cited below
are in this directory), and the reflectivity of `packages/legacycomponents/mcstas2/lib/share/ref-lib.cc`.

Real numbers instead of doubles; `exit` is `cppException`.  Random numbers are arguments as in `Verif.Model.McStas`.
-/

namespace Verif.McOptB
open McStas Kinem
noncomputable section
open Classical

/-! ### reflectivity -/

/-- the array `mc_pol_par`, `ref-lib.cc:49-53` -/
structure Reflec where
  (R0 Qc alpha m W : ℝ)

/-- `StdReflecFunc`, `ref-lib.cc:48-96` -/
def stdReflec (c : Reflec) (q : ℝ) : ℝ :=
  let q := |q|
  let (m, W, alpha, beta) : ℝ × ℝ × ℝ × ℝ :=
    if c.W = 0 ∧ c.alpha = 0 then
      let m := c.m * 0.9853 + 0.1978
      let W := -0.0002 * m + 0.0022
      if m ≤ 3 then (m, W, m, 0) else (m, W, 0.2304 * m + 5.0944, -7.6251 * m + 68.1137)
    else (c.m, c.W, c.alpha, 0)
  let arg := if W > 0 then (q - m * c.Qc) / W else 11
  if arg > 10 ∨ m ≤ 0 ∨ c.Qc ≤ 0 ∨ c.R0 ≤ 0 then 0
  else
    let Qc := if m < 1 then c.Qc * m else c.Qc
    if q ≤ Qc then c.R0
    else c.R0 * 0.5 * (1 - Real.tanh arg) * (1 - alpha * (q - Qc) + beta * (q - Qc) * (q - Qc))

/-- `TableReflecFunc`, `ref-lib.cc:103-109`; `none`: the value of the table is not a number -/
def tableReflec (t : McTable.Table) (q : ℝ) : Option ℝ := (t.value q 1).map fun r => if r > 1 then 1 else r

/-! ### disk chopper, second version -/

/-- the parameters of `DiskChopper_v2.comp:60`; the numbers of slits and pulses are doubles -/
structure Disk2Par where
  (theta_0 radius yheight nu nslit jitter delay n_pulse phase xwidth : ℝ)
  (isFirst absOut : Bool)

/-- the variables after `INITIALIZE`, `DiskChopper_v2.comp:60, 68` (angles in radians; `phase` and `xwidth` are not used later) -/
structure Disk2 where
  (theta_0 radius nslit jitter delay n_pulse Tg To delta_y height omega : ℝ)
  (isFirst absOut : Bool)

/-- `DiskChopper_v2.comp:71-126`.  Simplified: an angle that is not a number is undefined behaviour. -/
def Disk2.new (c : Disk2Par) : Except Err Disk2 :=
  let height := if c.yheight = 0 then c.radius else c.yheight
  let delta_y := c.radius - height / 2
  let omega := 2 * Real.pi * c.nu
  match (if c.xwidth ≠ 0 ∧ c.theta_0 = 0 ∧ c.radius ≠ 0 then do
      some (2 * (180 / Real.pi) * (← Powder.asinD (← divD (c.xwidth / 2) delta_y))) else some c.theta_0 : Option ℝ) with
  | none => .error .undefinedBehaviour
  | some theta_0 =>
    if c.nslit ≤ 0 ∨ theta_0 ≤ 0 ∨ c.radius ≤ 0 then .error .cppException
    else if c.nslit * theta_0 ≥ 360 then .error .cppException
    else if c.yheight ≠ 0 ∧ c.yheight > c.radius then .error .cppException
    else if c.isFirst ∧ c.n_pulse ≤ 0 then .error .cppException
    else
      let omega := if omega = 0 then 1e-15 else omega
      let theta_0 := theta_0 * (Real.pi / 180)
      let delay := if c.phase ≠ 0 then c.phase * (Real.pi / 180) / |omega| else c.delay
      .ok { theta_0 := theta_0, radius := c.radius, nslit := c.nslit, jitter := c.jitter, delay := delay, n_pulse := c.n_pulse,
            Tg := 2 * Real.pi / |omega| / c.nslit, To := theta_0 / |omega|, delta_y := delta_y, height := height, omega := omega,
            isFirst := c.isFirst, absOut := c.absOut }

/-- `DiskChopper_v2.comp:136-166`; `g` is `randnorm()`, `u1` and `u2` give `randpm1()` and `rand01()` -/
def disk2 (d : Disk2) (G : Gravity) (g u1 u2 : ℝ) (e : Event ℝ) : Event ℝ :=
  let e := propZ0 G e
  let yprime := e.r.y + d.delta_y
  let jit := if d.jitter ≠ 0 then d.jitter * g else 0
  if d.absOut ∧ e.r.x * e.r.x + yprime * yprime > d.radius * d.radius then absorb e
  else if e.r.x * e.r.x + yprime * yprime < (d.radius - d.height) * (d.radius - d.height) then absorb e
  else if d.isFirst then
    { e with
      t := Frames.arctan2 e.r.x yprime / d.omega + d.To * (2 * u1 - 1) / 2 + d.delay + jit +
        (if d.n_pulse > 1 then ⌊d.n_pulse * u2⌋ * d.Tg else 0),
      p := e.p * (d.nslit * d.theta_0 / 2 / Real.pi) }
  else
    let toff := |e.t - Frames.arctan2 e.r.x yprime / d.omega - d.delay - jit|
    if McOpt.fmod (toff + d.To / 2) d.Tg > d.To then absorb e else e

/-! ### filter -/

/-- `Mode_Table`, `Filter_gen.comp:94-96` -/
inductive Mode | set | mult | add
  deriving DecidableEq

/-- `Type_Table`, `Filter_gen.comp:90-93` -/
inductive Kind | unknown | energy | wavevector | wavelength
  deriving DecidableEq

/-- `FilterGen_Mode`, `Filter_gen.comp:107-127` (without `verbose`; the copy in lower case is not used) -/
def filterMode (str : List Char) (s : Mode × Kind) : Mode × Kind :=
  let has (w : String) : Bool := DataFiles.contains w.toList str
  if str = [] then s
  else
    let k := s.2
    let k := if has " k " || has " q " || has "wavevector" then .wavevector else k
    let k := if has "omega" || has " e " || has "energy" then .energy else k
    let k := if has "lambda" || has "wavelength" || has " L " then .wavelength else k
    let m := s.1
    let m := if has "set" then .set else m
    let m := if has "add" then .add else m
    let m := if has "multiply" then .mult else m
    (m, k)

/-- the parameters and variables of `Filter_gen.comp:80-82, 132-136`: `table` is empty if there is no file or its table was given up -/
structure Filter where
  (xmin xmax ymin ymax thickness scaling : ℝ)
  table : Option McTable.Table
  mode : Mode
  kind : Kind

/-- `Filter_gen.comp:138-172`, with the text of the options, and the header and the table of the file after `Table_Rebin` -/
def Filter.new (xmin xmax ymin ymax thickness scaling : ℝ) (options : List Char) (file : Option (List Char × McTable.Table)) : Filter :=
  let s := filterMode options (.mult, .unknown)
  match file with
  | none => ⟨xmin, xmax, ymin, ymax, thickness, scaling, none, s.1, s.2⟩
  | some (header, t) =>
    if t.rows < 2 ∨ t.stepX = 0 then ⟨xmin, xmax, ymin, ymax, thickness, scaling, none, s.1, s.2⟩
    else
      let s := filterMode header s
      ⟨xmin, xmax, ymin, ymax, thickness, scaling, some t, s.1, s.2⟩

/-- the variable of the table, `Filter_gen.comp:181-186` (the speed must not be 0) -/
def Filter.X (f : Filter) (v : V3 ℝ) : ℝ :=
  let v2 := v.x * v.x + v.y * v.y + v.z * v.z
  let K := McGuide.V2K * √v2
  match f.kind with
  | .energy => McConst.VS2E * v2
  | .wavevector => K
  | .wavelength => 2 * Real.pi / K
  | .unknown => 0

/-- `new_p`, `Filter_gen.comp:188-199`; `none`: not a number.  Simplified: a power of a negative number is none, also if the exponent is an
integer. -/
def Filter.factor (f : Filter) (X : ℝ) : Option ℝ :=
  match f.table with
  | none => some 1
  | some t =>
    let i := ⌊(X - t.minX) / t.stepX⌋
    let y1 := t.index i 1
    let x1 := t.index i 0
    let y2 := t.index (i + 1) 1
    let p := f.scaling * (y1 + (X - x1) * (y2 - y1) / t.stepX)
    if f.thickness ≠ 1 then (if p < 0 then none else some (p ^ f.thickness)) else some p

/-- `Filter_gen.comp:174-207`; `none`: the weight is not a number -/
def filter (f : Filter) (G : Gravity) (e : Event ℝ) : Option (Event ℝ) :=
  let e := propZ0 G e
  if f.kind ≠ .unknown ∧ e.r.x > f.xmin ∧ e.r.x < f.xmax ∧ e.r.y > f.ymin ∧ e.r.y < f.ymax then
    (f.factor (f.X e.v)).map fun new_p => if f.mode = .mult then { e with p := e.p * new_p } else { e with p := new_p }
  else if f.kind ≠ .unknown then some (absorb e)
  else some e

/-! ### radial collimator -/

/-- the parameters of `Collimator_radial.comp:73-75` -/
structure RadialPar where
  (w1 h1 w2 h2 len divergence transmission theta_min theta_max nchan radius nblades roc : ℝ)

/-- the variables after `INITIALIZE`, `Collimator_radial.comp:73-85` (angles in radians) -/
structure Radial where
  (h1 h2 len divergence transmission theta_min nchan radius nblades roc soller1 soller2 window : ℝ)
  (approx ideal : Bool)

/-- the end of `INITIALIZE`, `Collimator_radial.comp:113-124` -/
def RadialPar.blades (c : RadialPar) (d : Radial) (theta_max nblades : ℝ) : Radial :=
  if c.divergence ≠ 0 ∧ nblades = 0 then
    let divergence := c.divergence * (Real.pi / 10800)
    let thick := c.len * Real.tan divergence
    { d with divergence := divergence, nblades := |(⌊c.w1 / thick⌋ : ℝ)|, nchan := ⌈|theta_max - d.theta_min| / divergence⌉,
             window := divergence, approx := true }
  else if nblades ≠ 0 then
    { d with divergence := |Frames.arctan2 (c.w1 / nblades) c.len|, nblades := nblades, approx := false }
  else { d with divergence := 0, nblades := 0 }

/-- `Collimator_radial.comp:87-124`.  Variables that are not set are 0; they are not used. -/
def Radial.new (c : RadialPar) : Except Err Radial :=
  if c.radius ≤ 0 then .error .cppException
  else if c.nchan ≤ 0 then .error .cppException
  else if c.len ≤ 0 then .error .cppException
  else
    let theta_max := c.theta_max * (Real.pi / 180)
    let theta_min := c.theta_min * (Real.pi / 180)
    let d : Radial :=
      { h1 := c.h1, h2 := c.h2, len := c.len, divergence := c.divergence, transmission := c.transmission, theta_min := theta_min,
        nchan := ⌈c.nchan⌉, radius := c.radius, nblades := c.nblades, roc := c.roc, soller1 := 0, soller2 := 0, window := 0,
        approx := true, ideal := false }
    if c.w1 = 0 ∧ c.w2 = 0 then .ok (c.blades { d with ideal := true } theta_max 0)
    else
      let soller1 := Frames.arctan2 |c.w1| c.radius
      let soller2 := Frames.arctan2 |c.w2| (c.radius + c.len)
      let window := |theta_max - theta_min| / ⌈c.nchan⌉
      if soller1 > window ∨ soller2 > window then .error .cppException
      else .ok (c.blades { d with soller1 := soller1, soller2 := soller2, window := window } theta_max c.nblades)

/-- the later of the two times with a cylinder, `Collimator_radial.comp:153-155` and 157-159; `some none`: no intersection -/
def later (e : Event ℝ) (r h : ℝ) : Option (Option ℝ) :=
  match cylinderIntersect e.r e.v r h with
  | none => none
  | some none => some none
  | some (some (_, t0, t3)) => some (some (if t3 > t0 then t3 else t0))

/-- the blades or the triangular approximation, `Collimator_radial.comp:206-222`; `centre`: `input_center`, `a`, `b`: the numbers of the
blades -/
def Radial.weigh (d : Radial) (centre : ℝ) (a b : ℤ) (e : Event ℝ) : Event ℝ :=
  if d.divergence ≠ 0 then
    if d.approx then
      let phi := |Frames.arctan2 e.v.x e.v.z - centre|
      if phi > d.divergence then absorb e else { e with p := e.p * (d.transmission * (1 - phi / d.divergence)) }
    else if a ≠ b then absorb e else { e with p := e.p * d.transmission }
  else e

/-- the middle of a channel, `Collimator_radial.comp:177-178, 196-197` -/
def Radial.centre (d : Radial) (k : ℤ) : ℝ := d.theta_min + k * d.window + d.window / 2

/-- `Collimator_radial.comp:140-226`; `none`: the times are not numbers; `u` gives `randpm1()` -/
def radial (d : Radial) (G : Gravity) (u : ℝ) (e : Event ℝ) : Option (Event ℝ) :=
  match later e d.radius d.h1 with
  | none => none
  | some none => some (absorb e)
  | some (some t0) =>
    match later e (d.radius + d.len) d.h2 with
    | none => none
    | some none => some (absorb e)
    | some (some t1) =>
      if t0 > 0 ∧ t1 > t0 then
        let e := propDt G t0 e
        if d.ideal then
          if |e.r.y| < d.h1 / 2 then
            let centre := Frames.arctan2 e.r.x e.r.z
            let e := propDt G (t1 - t0) e
            if |e.r.y| > d.h2 / 2 then some (absorb e) else some (d.weigh centre 0 0 e)
          else some e
        else
          let roc := if d.roc ≠ 0 then d.roc * (2 * u - 1) * d.soller1 / 2 else 0
          let theta := Frames.arctan2 e.r.x e.r.z + roc
          let k := ⌊(theta - d.theta_min) / d.window⌋
          if 0 ≤ k ∧ k < d.nchan ∧ |e.r.y| ≤ d.h1 / 2 then
            let phi := theta - d.centre k
            if |phi| > d.soller1 / 2 then some (absorb e)
            else
              let a := ⌊phi / d.soller1 * d.nblades⌋
              let e := propDt G (t1 - t0) e
              let theta2 := Frames.arctan2 e.r.x e.r.z + roc
              let k2 := ⌊(theta2 - d.theta_min) / d.window⌋
              if k2 ≠ k then some (absorb e)
              else
                let phi2 := theta2 - d.centre k2
                if |phi2| > d.soller2 / 2 ∨ |e.r.y| > d.h2 / 2 then some (absorb e)
                else some (d.weigh (d.centre k) a ⌊phi2 / d.soller2 * d.nblades⌋ e)
          else some e
      else some e

/-! ### guide with channels -/

/-- the parameters of `Guide_channeled.comp:64` -/
structure Chan where
  (w1 h1 w2 h2 l R0 Qcx Qcy alphax alphay W k d mx my : ℝ)

/-- `Guide_channeled.comp:77-97` -/
def Chan.check (c : Chan) : Except Err Unit :=
  if c.k ≤ 0 ∨ c.W ≤ 0 then .error .cppException
  else if c.k > 1 ∧ c.w1 ≠ c.w2 then .error .cppException
  else .ok ()

/-- the reflectivity of the mirrors at the sides, `Guide_channeled.comp:205-222, 234` -/
def Chan.coatX (c : Chan) : McGuide.Coating := ⟨c.R0, c.Qcx, c.alphax, c.mx, c.W, none⟩
/-- the reflectivity of the mirrors above and below, `Guide_channeled.comp:205-211, 223-234` -/
def Chan.coatY (c : Chan) : McGuide.Coating := ⟨c.R0, c.Qcy, c.alphay, c.my, c.W, none⟩

/-- `w1c`, `Guide_channeled.comp:82` -/
def Chan.w1c (c : Chan) : ℝ := (c.w1 + c.d) / c.k
/-- `w2c`, `Guide_channeled.comp:83` -/
def Chan.w2c (c : Chan) : ℝ := (c.w2 + c.d) / c.k

/-- the four mirrors of a channel: `ww` and `whalf` of `Guide_channeled.comp:84-89` are those of a guide with the width of a channel, and
lines 138-171 are those of `Guide.comp:130-162`.  The coating is that of the sides. -/
def Chan.inner (c : Chan) : McGuide.Guide := ⟨c.w1c - c.d, c.h1, c.w2c - c.d, c.h2, c.l, c.coatX⟩

/-- the coating of a mirror, `i <= 2` in `Guide_channeled.comp:206-233`.  Simplified: a mirror at the side is known by its normal (the
length must not be 0). -/
def Chan.coat (c : Chan) (w : McGuide.Wall) : McGuide.Coating := if w.n.x ≠ 0 then c.coatX else c.coatY

/-- the loop of `Guide_channeled.comp:136-236`, with `x` from the middle of the channel; `none`: more turns than `fuel` -/
def chanLoop (c : Chan) (G : Gravity) : Nat → Event ℝ → Option (Event ℝ)
  | 0, _ => none
  | fuel + 1, e =>
    match c.inner.next e with
    | none => some e
    | some (t1, w) =>
      let e := propDt G t1 e
      let (q, v) := McGuide.bounce w e.v
      let e := { e with v := v }
      match (c.coat w).weight q with
      | none => some (absorb e)
      | some weight => chanLoop c G fuel { e with p := e.p * weight }

/-- a neutron moved along `x`, `Guide_channeled.comp:127, 134, 208, 220, 229, 237` -/
def shift (a : ℝ) (e : Event ℝ) : Event ℝ := { e with r := ⟨e.r.x + a, e.r.y, e.r.z⟩ }

/-- `Guide_channeled.comp:107-238` -/
def channeled (c : Chan) (G : Gravity) (fuel : Nat) (e : Event ℝ) : Option (Event ℝ) :=
  let e := propZ0 G e
  let hhalf := 0.5 * c.h1
  if e.r.x ≤ c.w1 / -2 ∨ e.r.x ≥ c.w1 / 2 ∨ e.r.y ≤ -hhalf ∨ e.r.y ≥ hhalf then some (absorb e)
  else
    let x := e.r.x + c.w1 / 2
    let edge := ⌊x / c.w1c⌋ * c.w1c
    if x - edge > c.w1c - c.d then some (absorb e)
    else
      let hadj := edge + (c.w1c - c.d) / 2 - c.w1 / 2
      (chanLoop c G fuel (shift (-hadj) e)).map (shift hadj)

end
end Verif.McOptB
