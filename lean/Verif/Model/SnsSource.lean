import Verif.Model.McConst
import Mathlib.Analysis.SpecialFunctions.Log.Base
import Mathlib.Analysis.SpecialFunctions.Pow.Real
import Mathlib.Analysis.SpecialFunctions.Trigonometric.Arctan
/-!
The moderators of the SNS: `packages/legacycomponents/mcstas2/lib/share/sns_source-lib.cc` (cited as `lib`) and the components
`SNS_source.comp`, `SNS_source_r1.comp` (cited as `r1`) and `SNS_source_2020.comp` of
`packages/legacycomponents/mcstas2/share/McStas-Components/sources`.

Real numbers instead of doubles.  An array is the list of the values that have been written to it; to read another value is undefined.
The number of turns of a loop that may run forever is limited by an argument.
-/

namespace Verif.SnsSource
open McConst
noncomputable section
open Classical

/-- why there is no result: a value outside of an array (or not yet written) is read (e.g. `lib:150` with `idx` 0), a division by 0 or a
logarithm of a number that is not positive (not an error in the code, but then the result is not a number, `lib:131`, `lib:237`), the
loop still runs (e.g. `lib:221`), `exit` (`lib:270`) -/
inductive Stop where
  | undef
  | nan
  | running
  | exit
  deriving DecidableEq

/-- `v[i]` for the arrays of `lib`, e.g. `lib:139` -/
def get (v : List ℝ) (i : ℕ) : Except Stop ℝ :=
  match v[i]? with
  | some a => .ok a
  | none => .error .undef

/-- a division, e.g. `lib:131` -/
def div (a b : ℝ) : Except Stop ℝ := if b = 0 then .error .nan else .ok (a / b)

/-! ### interpolation -/

/-- `linint`, `lib:128-133` -/
def linint (xdes x1 x2 y1 y2 : ℝ) : Except Stop ℝ := do
  let m ← div (y2 - y1) (x2 - x1)
  .ok (m * (xdes - x1) + y1)

/-- the loops of `linfuncint` and `quadfuncint`, `lib:139-141, 172-174`, from the index `idx`; the number is `xylen - idx`.  The value
is read before the index is tested. -/
def scan (vecx : List ℝ) (xdes : ℝ) : ℕ → ℕ → Except Stop ℕ
  | 0, idx => do
    let _ ← get vecx idx
    .ok idx
  | n + 1, idx => do
    if (← get vecx idx) < xdes then scan vecx xdes n (idx + 1) else .ok idx

/-- `linfuncint`, `lib:135-152` (the message of line 143 is never printed) -/
def linfuncint (xdes : ℝ) (xylen : ℕ) (vecx vecy : List ℝ) : Except Stop ℝ := do
  let idx ← scan vecx xdes xylen 0
  if (← get vecx idx) = xdes then get vecy idx
  else if idx = 0 then .error .undef
  else linint xdes (← get vecx (idx - 1)) (← get vecx idx) (← get vecy (idx - 1)) (← get vecy idx)

/-- `quadint`, `lib:158-166` -/
def quadint (xdes x1 x2 x3 y1 y2 y3 : ℝ) : Except Stop ℝ := do
  let t1 ← div ((xdes - x2) * (xdes - x3) * y1) ((x1 - x2) * (x1 - x3))
  let t2 ← div ((xdes - x1) * (xdes - x3) * y2) ((x2 - x1) * (x2 - x3))
  let t3 ← div ((xdes - x1) * (xdes - x2) * y3) ((x3 - x1) * (x3 - x2))
  .ok (t1 + t2 + t3)

/-- `quadfuncint`, `lib:168-186` -/
def quadfuncint (xdes : ℝ) (xylen : ℕ) (vecx vecy : List ℝ) : Except Stop ℝ := do
  let idx ← scan vecx xdes (xylen - 1) 1
  if (← get vecx idx) = xdes then get vecy idx
  else if idx < 2 then .error .undef
  else do
    let x1 ← get vecx (idx - 2)
    let x2 ← get vecx (idx - 1)
    let x3 ← get vecx idx
    quadint xdes x1 x2 x3 (← get vecy (idx - 2)) (← get vecy (idx - 1)) (← get vecy idx)

/-! ### integration -/

/-- the sum of `integtrap`, `lib:205-207`: `n` more values from the place `x` -/
def sumLoop (func : ℝ → Except Stop ℝ) (stpsze : ℝ) : ℕ → ℝ → ℝ → Except Stop ℝ
  | 0, _, sum => .ok sum
  | n + 1, x, sum => do sumLoop func stpsze n (x + stpsze) (sum + (← func x))

/-- `integtrap`, `lib:190-211`; `step` is positive; `pw2` does not overflow -/
def integtrap (func : ℝ → Except Stop ℝ) (prev low high : ℝ) (step : ℕ) : Except Stop ℝ := do
  if step = 1 then .ok (0.5 * (high - low) * ((← func high) + (← func low)))
  else
    let pw2 := 2 ^ (step - 2)
    let npts : ℝ := (pw2 : ℕ)
    let stpsze := (high - low) / npts
    let sum ← sumLoop func stpsze pw2 (low + 0.5 * stpsze) 0
    .ok (0.5 * (prev + (high - low) * sum / npts))

/-- the loop of `integ1`, `lib:221-226`, with at most `n` turns -/
def integLoop (func : ℝ → Except Stop ℝ) (low high err : ℝ) : ℕ → ℕ → ℝ → ℝ → Except Stop ℝ
  | n, idx, outprev, out =>
    if |out - outprev| > err * |out| then
      match n with
      | 0 => .error .running
      | n + 1 => do integLoop func low high err n (idx + 1) out (← integtrap func out low high (idx + 1))
    else .ok out

/-- `integ1`, `lib:212-228` -/
def integ1 (func : ℝ → Except Stop ℝ) (low high err : ℝ) (n : ℕ) : Except Stop ℝ := do
  let outprev ← integtrap func 0 low high 1
  let out ← integtrap func outprev low high 2
  integLoop func low high err n 2 outprev out

/-! ### zeros -/

/-- the loop that looks for the second point, `lib:240-243` -/
def widen (func : ℝ → Except Stop ℝ) (f xl : ℝ) : ℕ → ℝ → Except Stop ℝ
  | n, xh => do
    let fmid ← func xh
    if fmid * f ≥ 0 then
      match n with
      | 0 => .error .running
      | n + 1 => widen func f xl n (xh + (xh - xl) * 2)
    else .ok xh

/-- the bisection, `lib:246-254` -/
def bisect (func : ℝ → Except Stop ℝ) (tol : ℝ) : ℕ → ℝ → ℝ → Except Stop ℝ
  | n, dx, rtb => do
    if |← func rtb| > tol then
      match n with
      | 0 => .error .running
      | n + 1 => do
        let dx := dx * 0.5
        let xmid := rtb + dx
        let fmid ← func xmid
        bisect func tol n dx (if fmid < 0 then xmid else rtb)
    else .ok rtb

/-- `log10`, `lib:237` -/
def log10 (x : ℝ) : Except Stop ℝ := if 0 < x then .ok (Real.logb 10 x) else .error .nan

/-- `zero_find`, `lib:233-255`; `func` is the functor with its second argument `yval` -/
def zeroFind (func : ℝ → Except Stop ℝ) (yval xmin xmax tol : ℝ) (n : ℕ) : Except Stop ℝ := do
  let xh := (10 : ℝ) ^ ((← log10 xmin) + yval * ((← log10 xmax) - (← log10 xmin)))
  let f ← func xmin
  let xh ← widen func f xmin n xh
  bisect func tol n (xh - xmin) xmin

/-! ### distributions -/

/-- the first loop of `Pcalc` and `tPcalc`, `lib:263-267, 300-304`; it ends at the latest with an undefined value -/
def below (xvec : List ℝ) (llim : ℝ) : ℕ → ℕ → Except Stop ℕ
  | 0, _ => .error .undef
  | n + 1, idx => do if (← get xvec idx) ≤ llim then below xvec llim n (idx + 1) else .ok idx

/-- `Prob[i]=v`, e.g. `lib:277, 309` (there `i` is at most the number of values) -/
def put (Prob : List ℝ) (i : ℕ) (v : ℝ) : List ℝ := Prob.take i ++ v :: Prob.drop (i + 1)

/-- the second loop of `Pcalc` and `tPcalc`, `lib:275-279, 307-311`; it ends at the latest with an undefined value -/
def accum (func : ℝ → Except Stop ℝ) (hlim : ℝ) (xvec : List ℝ) (turns : ℕ) : ℕ → ℕ → List ℝ → Except Stop (ℕ × List ℝ)
  | 0, _, _ => .error .undef
  | n + 1, idx, Prob => do
    let x ← get xvec idx
    if x ≤ hlim then
      if idx = 0 then .error .undef
      else do
        let junk ← integ1 func (← get xvec (idx - 1)) x 0.001 turns
        accum func hlim xvec turns n (idx + 1) (put Prob idx ((← get Prob (idx - 1)) + junk))
    else .ok (idx, Prob)

/-- the last part of `Pcalc` and `tPcalc`, `lib:280-291, 312-326` -/
def normalise (Prob : List ℝ) (veclen idxstart idxstop : ℕ) : Except Stop (List ℝ) := do
  let Prob := Prob.take idxstop ++ List.replicate (veclen - idxstop) 1 ++ Prob.drop (max idxstop veclen)
  if idxstop = 0 then .error .undef
  else do
    let Norm ← get Prob (idxstop - 1)
    .ok (if Norm > 0 then Prob.mapIdx fun i p => if idxstart ≤ i ∧ i < idxstop then p / Norm else p else Prob)

/-- `Pcalc`, `lib:259-292`: `Prob`, `*idxstart` and `*idxstop`.  `Prob` has no values before. -/
def pcalc (func : ℝ → Except Stop ℝ) (llim hlim : ℝ) (xvec : List ℝ) (veclen turns : ℕ) : Except Stop (List ℝ × ℕ × ℕ) := do
  let idxstart ← below xvec llim (xvec.length + 1) 0
  if idxstart < 1 then .error .exit
  else do
    let first ← integ1 func llim (← get xvec idxstart) 0.001 turns
    let (idxstop, Prob) ← accum func hlim xvec turns (xvec.length + 1) (idxstart + 1) (List.replicate idxstart 0 ++ [first])
    .ok (← normalise Prob veclen idxstart idxstop, idxstart, idxstop)

/-- `tPcalc`, `lib:296-327`.  `Prob` has no values before (in the components it has those of the energy before). -/
def tpcalc (func : ℝ → Except Stop ℝ) (llim hlim : ℝ) (xvec : List ℝ) (veclen turns : ℕ) : Except Stop (List ℝ × ℕ × ℕ) := do
  let idxstart ← below xvec llim (xvec.length + 1) 0
  let first ← integ1 func llim (← get xvec idxstart) 0.001 turns
  let (idxstop, Prob) ← accum func hlim xvec turns (xvec.length + 1) idxstart (List.replicate idxstart 0 ++ [first])
  .ok (← normalise Prob veclen idxstart idxstop, idxstart, idxstop)

/-! ### the file -/

/-- the loop `lib:52-54` that looks for the end of the spectrum -/
def positive (yvec : List ℝ) (idx1 : ℕ) : ℕ → ℕ → Except Stop ℕ
  | 0, idx2 => .ok idx2
  | n + 1, idx2 => do
    if idx2 < idx1 then
      if (← get yvec idx2) > 0 then positive yvec idx1 n (idx2 + 1) else .ok idx2
    else .ok idx2

/-- `*veclenptr`, `lib:49-60`; there are at least three lines (`idx1-2` is not negative) -/
def veclen (yvec : List ℝ) : Except Stop ℕ := do
  let idx1 := yvec.length - 1
  let idx2 ← positive yvec idx1 yvec.length (idx1 / 2)
  .ok (if idx2 < idx1 then idx2 else idx1 - 2)

/-- a line of the second part of the file, `lib:74-78` -/
structure Row where
  (t E I : ℝ)

/-- the arrays and indices of `lib:88-115`; a value that has not been written is `none` -/
structure Tab where
  Ecol : ℕ → Option ℝ
  tcol : ℕ → Option ℝ
  Imat : ℕ → ℕ → Option ℝ
  (idx2 idx3 : ℕ)
  idx3max : Option ℕ

/-- `tcol[idx3]=..; Imat[idx3][idx2]=..; idx3++`, `lib:102-104, 111-113` -/
def Tab.store (s : Tab) (r : Row) : Tab :=
  { s with
    tcol := Function.update s.tcol s.idx3 (some r.t)
    Imat := fun i j => if i = s.idx3 ∧ j = s.idx2 then some r.I else s.Imat i j
    idx3 := s.idx3 + 1 }

/-- `lib:88-92` -/
def Tab.start (r : Row) : Tab :=
  Tab.store ⟨fun i => if i = 0 then some r.E else none, fun _ => none, fun _ _ => none, 0, 0, none⟩ r

/-- one turn of the loop, `lib:99-115`, with the energy of the line before -/
def Tab.next (s : Tab) (prev : ℝ) (r : Row) : Tab :=
  if r.E = prev then s.store r
  else Tab.store { s with Ecol := Function.update s.Ecol (s.idx2 + 1) (some r.E), idx2 := s.idx2 + 1, idx3 := 0, idx3max := some s.idx3 } r

/-- the loop `lib:99-115` -/
def Tab.run : Tab → ℝ → List Row → Tab
  | s, _, [] => s
  | s, prev, r :: rs => Tab.run (s.next prev r) r.E rs

/-- `lib:84-116`: the arrays, and `*ntvals`, `*nEvals`.  `totalvals` is one more than the number of lines: `junk` is what the arrays
of `malloc` contain behind the lines (if there are no lines the first row is `junk` too, not modelled). -/
def reformat (r : Row) (rs : List Row) (junk : Row) : Tab × Option ℕ × ℕ :=
  let s := (Tab.start r).run r.E (rs ++ [junk])
  (s, s.idx3max.map (· + 1), s.idx2)

/-! ### the components -/

/-- the parameters of `r1:47-48` without the file name, and what `INITIALIZE` computes: the spectrum, its distribution, the times,
the energies and the distributions of the times -/
structure Source where
  (width height dist xw yh Emin Emax angling : ℝ)
  (inxvec inyvec Pvec tcol Ecol : List ℝ)
  Ptmat : ℕ → ℕ → ℝ
  (xylength idxstart idxstop tidxstart tidxstop ntvals nEvals : ℕ)

/-- the place, `r1:165-166`, `SNS_source.comp:162-163` -/
def Source.place (c : Source) (u1 u2 : ℝ) : ℝ × ℝ := ((u1 - 0.5) * c.width, (u2 - 0.5) * c.height)

/-- the angles `theta` and `phi` for a neutron from (x, y), `r1:168-174` -/
def Source.angles (c : Source) (x y u3 u4 : ℝ) : ℝ × ℝ :=
  let hdivmax := Real.arctan ((c.xw / 2 - x) / c.dist)
  let hdivmin := Real.arctan (-(c.xw / 2 + x) / c.dist)
  let vdivmax := Real.arctan ((c.yh / 2 - y) / c.dist)
  let vdivmin := Real.arctan (-(c.yh / 2 + y) / c.dist)
  (hdivmin + (hdivmax - hdivmin) * u3, vdivmin + (vdivmax - vdivmin) * u4)

/-- the velocity before the rotation, `r1:205-207`, `SNS_source.comp:202-204` -/
def direction (v theta phi : ℝ) : V3 ℝ :=
  ⟨v * Real.cos phi * Real.sin theta, v * Real.sin phi, v * Real.cos phi * Real.cos theta⟩

/-- the rotation, `r1:213-218` -/
def angled (angling : ℝ) (v : V3 ℝ) : V3 ℝ :=
  let a := angling * Real.pi / 180
  ⟨v.x * Real.cos a - v.z * Real.sin a, v.y, v.x * Real.sin a + v.z * Real.cos a⟩

/-- the energy, `r1:141-142, 155, 180-182` -/
def Source.energy (c : Source) (turns : ℕ) (u5 : ℝ) : Except Stop ℝ := do
  let EPmax ← quadfuncint (c.Emax / 1000) c.xylength c.inxvec c.Pvec
  let EPmin ← quadfuncint (c.Emin / 1000) c.xylength c.inxvec c.Pvec
  let randp := EPmin + u5 * (EPmax - EPmin)
  zeroFind (fun x => do .ok ((← quadfuncint x c.xylength c.inxvec c.Pvec) - randp)) randp
    (← get c.inxvec c.idxstart) (← get c.inxvec c.idxstop) 1e-5 turns

/-- the loop that looks for the energies of the table, `r1:185-188`; the number is `nEvals - idx1` -/
def bracket (Ecol : List ℝ) (Eval : ℝ) : ℕ → ℕ → Except Stop ℕ
  | 0, idx => .ok idx
  | n + 1, idx => do if (← get Ecol idx) < Eval then bracket Ecol Eval n (idx + 1) else .ok idx

/-- the distribution of the time for this energy, the values of `tyval` as a function of the index, `r1:185-195` -/
def Source.curve (c : Source) (Eval : ℝ) : Except Stop (ℕ → Except Stop ℝ) := do
  let idx ← bracket c.Ecol Eval c.nEvals 0
  if idx = 0 then .error .undef
  else do
    let El ← get c.Ecol (idx - 1)
    let Eh ← get c.Ecol idx
    .ok fun i => linint Eval El Eh (c.Ptmat i (idx - 1)) (c.Ptmat i idx)

/-- the values `tyval[0]`, …, `r1:192-195` -/
def values (f : ℕ → Except Stop ℝ) (n : ℕ) : Except Stop (List ℝ) := (List.range n).mapM f

/-- the time in microseconds, `r1:196-200` -/
def Source.time (c : Source) (turns : ℕ) (Eval u6 : ℝ) : Except Stop ℝ := do
  let ty ← values (← c.curve Eval) c.ntvals
  if c.tidxstop = 0 then .error .undef
  else do
    let lo ← get ty c.tidxstart
    let hi ← get ty (c.tidxstop - 1)
    let randp := lo + u6 * (hi - lo)
    if randp > 0 then
      zeroFind (fun x => do .ok ((← quadfuncint x c.ntvals c.tcol ty) - randp)) randp
        (← get c.tcol c.tidxstart) (← get c.tcol (c.tidxstop - 1)) 1e-5 turns
    else .ok 0

/-- `TRACE`, `r1:152-220`, with the numbers of `rand01` in the order of the calls.  `mcget_ncount()` is 1.  `p_in` and `INorm2` are
`r1:144` and `r1:122`. -/
def Source.trace (c : Source) (turns : ℕ) (u1 u2 u3 u4 u5 u6 : ℝ) : Except Stop (Event ℝ) := do
  let (x, y) := c.place u1 u2
  let (theta, phi) := c.angles x y u3 u4
  let Eval ← c.energy turns u5
  let tval ← c.time turns Eval u6
  let E := Eval * 1000
  let INorm2 ← integ1 (fun x => linfuncint x c.xylength c.inxvec c.inyvec) (c.Emin / 1000) (c.Emax / 1000) 0.001 turns
  if E < 0 then .error .nan
  else
    let v := SE2V * √E
    let p := c.xw * c.yh / (c.dist * c.dist)
    .ok ⟨⟨x, y, 0⟩, angled c.angling (direction v theta phi), 0, 0, tval * 1e-6, p * (INorm2 / 1)⟩

/-- the area of the source, `SNS_source_2020.comp:149-155` (`srcArea`): not written if the radius and a side are 0.  The comparison
with 0 is that of `yheight && xwidth && !radius`. -/
def srcArea (radius xwidth yheight : ℝ) : Except Stop ℝ :=
  if yheight ≠ 0 ∧ xwidth ≠ 0 ∧ radius = 0 then .ok (xwidth * yheight)
  else if radius ≠ 0 then .ok (Real.pi * radius * radius)
  else .error .undef

end
end Verif.SnsSource
