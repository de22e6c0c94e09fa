import Verif.Model.McStas
import Verif.Model.Frames
import Verif.Model.Powder
import Mathlib.Analysis.SpecialFunctions.Trigonometric.Arctan
/-!
Monitors of McStas, `packages/legacycomponents/mcstas2/share/McStas-Components/monitors/*.comp` (all files cited below are in this
directory).

Real numbers instead of doubles.  Numbers of channels are natural numbers.  The arrays of a monitor are a function of the index;
an index out of range is undefined behaviour, and so is the conversion of something that is not a number, or infinite, to an
integer.  That an integer of the machine is bounded is not modelled.  The constants `V2K`, `VS2E`, `SE2V` and `V2Q` are arguments,
`RAD2DEG` is 180/π.  The output to files is not modelled.
-/

namespace Verif.McMon
open McStas Kinem
noncomputable section
open Classical

/-- one element of the arrays for the number of neutrons, the intensity and its square, e.g. `L_N`, `L_p`, `L_p2`,
`L_monitor.comp:56-58` -/
@[ext] structure Cell where
  (N p p2 : ℝ)

/-- one neutron more, e.g. `Monitor.comp:75-77` -/
def Cell.inc (c : Cell) (p : ℝ) : Cell := ⟨c.N + 1, c.p + p, c.p2 + p * p⟩

/-- the arrays of a monitor, e.g. `L_monitor.comp:56-58` -/
structure Hist where
  size : Nat
  cell : Nat → Cell

/-- the arrays after `INITIALIZE`, e.g. `L_monitor.comp:64-66, 78-83` -/
def Hist.zero (n : Nat) : Hist := ⟨n, fun _ => ⟨0, 0, 0⟩⟩

/-- e.g. `L_N[i]++; L_p[i] += p; L_p2[i] += p*p`, `L_monitor.comp:97-99` -/
def Hist.add (h : Hist) (k : ℤ) (p : ℝ) : Except Err Hist :=
  if 0 ≤ k ∧ k < h.size then .ok { h with cell := fun m => if (m : ℤ) = k then (h.cell m).inc p else h.cell m }
  else .error .undefinedBehaviour

/-- all neutrons, one after the other, `mcni_integration/Component.h:55-66` calls `trace` for each -/
def runAll {S : Type} (trace : S → Event ℝ → Except Err (S × Event ℝ)) : S → List (Event ℝ) → Except Err (S × List (Event ℝ))
  | s, [] => .ok (s, [])
  | s, e :: es => do
    let (s, e) ← trace s e
    let (s, es) ← runAll trace s es
    .ok (s, e :: es)

/-- the detection area, `Monitor.comp:46` -/
structure Window where
  (xmin xmax ymin ymax : ℝ)

/-- the detection area from the parameters, `Monitor.comp:60-68`; the same in the other monitors with an area
(`E_monitor.comp` and `TOF2E_monitor.comp` call `exit` instead of raising an exception) -/
def Window.new (xmin xmax ymin ymax xwidth yheight : ℝ) : Except Err Window :=
  let (xmin, xmax) := if xwidth > 0 then (-(xwidth / 2), xwidth / 2) else (xmin, xmax)
  let (ymin, ymax) := if yheight > 0 then (-(yheight / 2), yheight / 2) else (ymin, ymax)
  if xmin ≥ xmax ∨ ymin ≥ ymax then .error .cppException else .ok ⟨xmin, xmax, ymin, ymax⟩

/-- the test whether the neutron is in the area, `Monitor.comp:73` -/
def Window.has (w : Window) (e : Event ℝ) : Prop := e.r.x > w.xmin ∧ e.r.x < w.xmax ∧ e.r.y > w.ymin ∧ e.r.y < w.ymax

/-- the number of the channel, `floor((x - lo)*n/(hi - lo))`, e.g. `L_monitor.comp:94` -/
def chan (x lo hi : ℝ) (n : Nat) : ℤ := ⌊(x - lo) * n / (hi - lo)⌋

/-- `vx*vx + vy*vy + vz*vz`, e.g. `L_monitor.comp:93` -/
def speed2 (e : Event ℝ) : ℝ := e.v.x * e.v.x + e.v.y * e.v.y + e.v.z * e.v.z

/-- `RAD2DEG*atan2(y, x)`, e.g. `Hdiv_monitor.comp:96` -/
def degrees (y x : ℝ) : ℝ := 180 / Real.pi * Frames.arctan2 y x

/-! ### monitors with an area -/

/-- `Monitor.comp:70-80` -/
def monitor (w : Window) (G : Gravity) (c : Cell) (e : Event ℝ) : Except Err (Cell × Event ℝ) :=
  let e := propZ0 G e
  if w.has e then .ok (c.inc e.p, e) else .ok (c, e)

/-- `Monitor_4PI.comp:56-62` -/
def monitor4PI (c : Cell) (e : Event ℝ) : Except Err (Cell × Event ℝ) := .ok (c.inc e.p, e)

/-- `L_monitor.comp:85-103` -/
def lMonitor (V2K : ℝ) (w : Window) (Lmin Lmax : ℝ) (nchan : Nat) (G : Gravity) (h : Hist) (e : Event ℝ) :
    Except Err (Hist × Event ℝ) :=
  let e := propZ0 G e
  if w.has e then
    match divD (2 * Real.pi / V2K) (√(speed2 e)) with
    | none => .error .undefinedBehaviour
    | some L =>
      let i := chan L Lmin Lmax nchan
      if i ≥ 0 ∧ i < nchan then (h.add i e.p).map (·, e) else .ok (h, e)
  else .ok (h, e)

/-- the arrays and the sums of `E_monitor.comp:58-60` -/
structure EState where
  hist : Hist
  (Sp SpE SpE2 : ℝ)

/-- `E_monitor.comp:110-122`, the same as `TOF2E_monitor.comp:102-113`, for the energy `E` -/
def countE (Emin Emax : ℝ) (nchan : Nat) (s : EState) (E : ℝ) (e : Event ℝ) : Except Err (EState × Event ℝ) :=
  let i := chan E Emin Emax nchan
  let s : EState := ⟨s.hist, s.Sp + e.p, s.SpE + e.p * E, s.SpE2 + e.p * E * E⟩
  if i ≥ 0 ∧ i < nchan then (s.hist.add i e.p).map fun h => ({ s with hist := h }, e) else .ok (s, e)

/-- `E_monitor.comp:95-124` -/
def eMonitor (VS2E : ℝ) (w : Window) (Emin Emax : ℝ) (nchan : Nat) (G : Gravity) (s : EState) (e : Event ℝ) :
    Except Err (EState × Event ℝ) :=
  let e := propZ0 G e
  if w.has e then countE Emin Emax nchan s (VS2E * speed2 e) e else .ok (s, e)

/-- the mean energy and its width that are printed, `E_monitor.comp:134-135`; `none` if the intensity is 0 -/
def eReport (s : EState) : Option (ℝ × Option ℝ) :=
  if s.Sp ≠ 0 then some (s.SpE / s.Sp, sqrtD (s.SpE2 / s.Sp - s.SpE * s.SpE / (s.Sp * s.Sp))) else none

/-- `TOF2E_monitor.comp:92-115` -/
def tof2E (VS2E : ℝ) (w : Window) (Emin Emax T_zero L_flight : ℝ) (nchan : Nat) (G : Gravity) (s : EState) (e : Event ℝ) :
    Except Err (EState × Event ℝ) :=
  let e := propZ0 G e
  if w.has e then
    match divD L_flight (e.t - T_zero) with
    | none => .error .undefinedBehaviour
    | some v => countE Emin Emax nchan s (VS2E * v * v) e
  else .ok (s, e)

/-- `PSDlin_monitor.comp:83-100`; a channel out of range ends the program -/
def psdLin (w : Window) (nx : Nat) (G : Gravity) (h : Hist) (e : Event ℝ) : Except Err (Hist × Event ℝ) :=
  let e := propZ0 G e
  if w.has e then
    let i := ⌊nx * (e.r.x - w.xmin) / (w.xmax - w.xmin)⌋
    if i ≥ nx ∨ i < 0 then .error .cppException else (h.add i e.p).map (·, e)
  else .ok (h, e)

/-- `Hdiv_monitor.comp:88-106` -/
def hdiv (w : Window) (maxdiv : ℝ) (nh : Nat) (G : Gravity) (h : Hist) (e : Event ℝ) : Except Err (Hist × Event ℝ) :=
  let e := propZ0 G e
  if w.has e then
    let d := degrees e.v.x e.v.z
    if d < maxdiv ∧ d > -maxdiv then (h.add ⌊(d + maxdiv) * nh / (2 * maxdiv)⌋ e.p).map (·, e) else .ok (h, e)
  else .ok (h, e)

/-- `PSD_monitor.comp:104-118`; the index of an element of the array is that of `element_2Darr`, lines 61-67 -/
def psd (w : Window) (nx ny : Nat) (G : Gravity) (h : Hist) (e : Event ℝ) : Except Err (Hist × Event ℝ) :=
  let e := propZ0 G e
  if w.has e then
    let i := chan e.r.x w.xmin w.xmax nx
    let j := chan e.r.y w.ymin w.ymax ny
    (h.add (j + i * ny) e.p).map (·, e)
  else .ok (h, e)

/-- `EPSD_monitor.comp:101-118` -/
def epsd (VS2E : ℝ) (w : Window) (Emin Emax : ℝ) (nx nE : Nat) (G : Gravity) (h : Hist) (e : Event ℝ) :
    Except Err (Hist × Event ℝ) :=
  let e := propZ0 G e
  let E := VS2E * speed2 e
  if w.has e ∧ E > Emin ∧ E < Emax then
    let i := chan e.r.x w.xmin w.xmax nx
    let j := chan E Emin Emax nE
    (h.add (j + i * nE) e.p).map (·, e)
  else .ok (h, e)

/-- `DivPos_monitor.comp:101-120` -/
def divPos (w : Window) (maxdiv : ℝ) (npos ndiv : Nat) (G : Gravity) (h : Hist) (e : Event ℝ) : Except Err (Hist × Event ℝ) :=
  let e := propZ0 G e
  if w.has e then
    let d := degrees e.v.x e.v.z
    if d < maxdiv ∧ d > -maxdiv then
      let i := chan e.r.x w.xmin w.xmax npos
      let j := ⌊(d + maxdiv) * ndiv / (2 * maxdiv)⌋
      (h.add (j + i * ndiv) e.p).map (·, e)
    else .ok (h, e)
  else .ok (h, e)

/-- `Divergence_monitor.comp:102-123` -/
def divergence (w : Window) (hmax vmax : ℝ) (nh nv : Nat) (G : Gravity) (h : Hist) (e : Event ℝ) :
    Except Err (Hist × Event ℝ) :=
  let e := propZ0 G e
  if w.has e then
    let hd := degrees e.v.x e.v.z
    let vd := degrees e.v.y e.v.z
    if hd < hmax ∧ hd > -hmax ∧ vd < vmax ∧ vd > -vmax then
      let i := ⌊(hd + hmax) * nh / (2 * hmax)⌋
      let j := ⌊(vd + vmax) * nv / (2 * vmax)⌋
      (h.add (j + i * nv) e.p).map (·, e)
    else .ok (h, e)
  else .ok (h, e)

/-- `TOFLambda_monitor.comp:93-94, 103-124`; a wavelength that is infinite is in no range -/
def tofLambda (V2K : ℝ) (w : Window) (t_0 t_1 lambda_0 lambda_1 : ℝ) (nt nlam : Nat) (G : Gravity) (h : Hist) (e : Event ℝ) :
    Except Err (Hist × Event ℝ) :=
  let tt_0 := t_0 * 1e-6
  let tt_1 := t_1 * 1e-6
  let e := propZ0 G e
  match divD (2 * Real.pi / V2K) (√(speed2 e)) with
  | none => .ok (h, e)
  | some lambda =>
    if w.has e ∧ lambda > lambda_0 ∧ lambda < lambda_1 then
      if e.t < tt_1 ∧ e.t > tt_0 then
        let i := chan lambda lambda_0 lambda_1 nlam
        let j := chan e.t tt_0 tt_1 nt
        (h.add (i + j * nlam) e.p).map (·, e)
      else .ok (h, e)
    else .ok (h, e)

/-- `DivLambda_monitor.comp:104-126`; a wavelength that is infinite is in no range -/
def divLambda (V2K : ℝ) (w : Window) (maxdiv lambda_0 lambda_1 : ℝ) (nlam ndiv : Nat) (G : Gravity) (h : Hist) (e : Event ℝ) :
    Except Err (Hist × Event ℝ) :=
  let e := propZ0 G e
  match divD (2 * Real.pi / V2K) (√(speed2 e)) with
  | none => .ok (h, e)
  | some lambda =>
    if w.has e ∧ lambda > lambda_0 ∧ lambda < lambda_1 then
      let d := degrees e.v.x e.v.z
      if d < maxdiv ∧ d > -maxdiv then
        let i := chan lambda lambda_0 lambda_1 nlam
        let j := ⌊(d + maxdiv) * ndiv / (2 * maxdiv)⌋
        (h.add (j + i * ndiv) e.p).map (·, e)
      else .ok (h, e)
    else .ok (h, e)

/-! ### time of flight -/

/-- `t_min`, `t_max` and `delta_t`, `TOF_monitor.comp:57` -/
structure TofAxis where
  (tmin tmax delta : ℝ)

/-- `TOF_monitor.comp:84-95` -/
def TofAxis.new (t0 t1 dt : ℝ) (nchan : Nat) : TofAxis :=
  if t1 ≠ 0 then ⟨t0, t1, (t1 - t0) / nchan⟩ else ⟨0, nchan * dt + t0, dt⟩

/-- the times out of range go to the first and the last channel, `TOF_monitor.comp:105-106` -/
def clamp (i : ℤ) (n : Nat) : ℤ :=
  let i := if i ≥ n then (n : ℤ) - 1 else i
  if i < 0 then 0 else i

/-- `TOF_monitor.comp:97-113`; times of the axis are in microseconds -/
def tofMonitor (w : Window) (a : TofAxis) (nchan : Nat) (G : Gravity) (h : Hist) (e : Event ℝ) : Except Err (Hist × Event ℝ) :=
  let e := propZ0 G e
  if w.has e then
    match divD (1e6 * e.t - a.tmin) a.delta with
    | none => .error .undefinedBehaviour
    | some x => (h.add (clamp ⌊x⌋ nchan) e.p).map (·, e)
  else .ok (h, e)

/-- `TOF_monitor2.comp:68-91` -/
def tofMonitor2 (w : Window) (tmin tmax : ℝ) (nchan : Nat) (G : Gravity) (h : Hist) (e : Event ℝ) : Except Err (Hist × Event ℝ) :=
  let dt := (tmax - tmin) / nchan
  let e := propZ0 G e
  if w.has e then
    match divD (e.t - tmin) dt with
    | none => .error .undefinedBehaviour
    | some x => (h.add (clamp ⌊x⌋ nchan) e.p).map (·, e)
  else .ok (h, e)

/-- the number of channels of `TOFlog_mon.comp:84`, for times above 0; the arrays have 10000 elements, lines 55, 69-71 -/
def logChannels (ndec tlow thigh : ℝ) : ℤ := ⌈ndec * Real.log (thigh / tlow) / Real.log 10⌉

/-- `TOFlog_mon.comp:96-112` -/
def tofLog (w : Window) (ndec tlow thigh : ℝ) (G : Gravity) (h : Hist) (e : Event ℝ) : Except Err (Hist × Event ℝ) :=
  let nchan := logChannels ndec tlow thigh
  let e := propZ0 G e
  if w.has e then
    if 1e6 * e.t / tlow ≤ 0 then .error .undefinedBehaviour
    else
      let i := ⌊ndec * Real.log (1e6 * e.t / tlow) / Real.log 10⌋
      let i := if i ≥ nchan then nchan - 1 else i
      let i := if i < 0 then 0 else i
      (h.add i e.p).map (·, e)
  else .ok (h, e)

/-! ### cylinders and spheres -/

/-- `PSDcyl_monitor.comp:88-126`; not a number is undefined behaviour, `exit` is `cppException` -/
def psdCyl (height radius : ℝ) (nr ny : Nat) (G : Gravity) (h : Hist) (e : Event ℝ) : Except Err (Hist × Event ℝ) :=
  match cylinderIntersect e.r e.v radius height with
  | none => .error .undefinedBehaviour
  | some none => .ok (h, absorb e)
  | some (some (_, t0, t1)) =>
    if t0 > 0 then .error .cppException
    else if t1 < 0 then .error .cppException
    else
      let e := propDt G t1 e
      if |e.r.y| < height - 1e-10 then
        let phi := Frames.arctan2 e.r.x e.r.z
        let i := ⌊phi / (2 * Real.pi) * nr⌋
        let j := ⌊e.r.y / height * ny⌋
        (h.add (j + i * ny) e.p).map (·, e)
      else .ok (h, absorb e)

/-- `TOF_cylPSD_monitor.comp:76-77, 85, 88-116`; not a number is undefined behaviour -/
def tofCyl (radius height t_0 t_1 : ℝ) (nt nphi : Nat) (G : Gravity) (h : Hist) (e : Event ℝ) : Except Err (Hist × Event ℝ) :=
  let tt_0 := t_0 * 1e-6
  let tt_1 := t_1 * 1e-6
  let binphi : ℝ := 360 / nphi
  match cylinderIntersect e.r e.v radius height with
  | none => .error .undefinedBehaviour
  | some none => .ok (h, absorb e)
  | some (some (_, t0, t1)) =>
    if t0 > 0 then .ok (h, absorb e)
    else
      let e := propDt G t1 e
      if e.r.y ≥ height / 2 ∨ e.r.y ≤ -height / 2 then .ok (h, absorb e)
      else
        let i := chan e.t tt_0 tt_1 nt
        if i < 0 ∨ i ≥ nt then .ok (h, e)
        else
          let j := ⌊(nphi : ℝ) / 2 + degrees e.r.x e.r.z / binphi⌋
          (h.add (j + i * nphi) e.p).map (·, e)

/-- the number `x` limited to `0..n-1`, `PSD_monitor_4PI.comp:129-132` and 135-138 -/
def limit (x : ℤ) (n : Nat) : ℤ := if x ≥ n then (n : ℤ) - 1 else if x < 0 then 0 else x

/-- `PSD_monitor_4PI.comp:96-163`; not a number is undefined behaviour.  Position, velocity and time are restored at the end, the
probability is not (`PROP_DT` cannot absorb, since the time is not negative). -/
def psd4PI (radius : ℝ) (nx ny : Nat) (G : Gravity) (h : Hist) (e : Event ℝ) : Except Err (Hist × Event ℝ) :=
  match sphereIntersect e.r e.v radius with
  | none => .error .undefinedBehaviour
  | some none => .ok (h, e)
  | some (some (t0, t1)) =>
    if t1 > 0 then
      let t0 := if t0 < 0 then t1 else t0
      let e' := propDt G t0 e
      let phi := Frames.arctan2 e'.r.x e'.r.z
      let i := limit ⌊nx * (phi / (2 * Real.pi) + 0.5)⌋ nx
      match Powder.asinD (e'.r.y / radius) with
      | none => .error .undefinedBehaviour
      | some theta =>
        let j := limit ⌊ny * (theta + Real.pi / 2) / Real.pi + 0.5⌋ ny
        (h.add (j + i * ny) e'.p).map (·, { e with p := e'.p })
    else .ok (h, e)

/-! ### momentum and energy transfer -/

/-- `angle_out_of_plane`, `IQE_monitor.comp:84-89` -/
def outOfPlane (v : V3 ℝ) : ℝ :=
  if v.y ≠ 0 then
    let theta := Real.arctan (√(v.x * v.x + v.z * v.z) / v.y) / Real.pi * 180
    if v.y > 0 then 90 - theta else 90 + theta
  else 0

/-- the parameters of `IQE_monitor.comp:44-45` -/
structure IQE where
  (Ei Qmin Qmax Emin Emax : ℝ)
  (nQ nE : Nat)
  (maxIn minIn maxOut minOut : ℝ)

/-- `IQE_monitor.comp:76-136` -/
def iqe (SE2V V2Q VS2E : ℝ) (m : IQE) (h : Hist) (e : Event ℝ) : Except Err (Hist × Event ℝ) :=
  match sqrtD m.Ei with
  | none => .error .undefinedBehaviour
  | some rE =>
    let vi := rE * SE2V
    let inPlane := Frames.arctan2 e.v.x e.v.z / Real.pi * 180
    let out := outOfPlane e.v
    if m.minIn < inPlane ∧ inPlane < m.maxIn ∧ m.minOut < out ∧ out < m.maxOut then
      let Q := √(e.v.x * e.v.x + e.v.y * e.v.y + (e.v.z - vi) * (e.v.z - vi)) * V2Q
      let E := m.Ei - (e.v.x * e.v.x + e.v.y * e.v.y + e.v.z * e.v.z) * VS2E
      let ii := if Q ≥ m.Qmin ∧ Q < m.Qmax then ⌊(Q - m.Qmin) / (m.Qmax - m.Qmin) * m.nQ⌋ else -1
      let jj := if E ≥ m.Emin ∧ E < m.Emax then ⌊(E - m.Emin) / (m.Emax - m.Emin) * m.nE⌋ else -1
      if ii ≠ -1 ∧ jj ≠ -1 then (h.add (ii * m.nE + jj) e.p).map (·, e) else .ok (h, e)
    else .ok (h, e)

end
end Verif.McMon
