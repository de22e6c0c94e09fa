import Verif.Model.Base
import Mathlib.Analysis.SpecialFunctions.Pow.Real
/-!
The two moderators with an analytic pulse:
`packages/legacycomponents/mcstas2/share/McStas-Components/sources/SNS_source4.comp` (below `S4`) and
`packages/legacycomponents/mcstas2/share/McStas-Components/sources/SNS_source_analytic.comp` (below `SA`).

Simplified: real numbers instead of doubles; the reading of the file of parameters is not modelled; the place and the direction are those of
`Verif.SnsSource` (`Source.place`, `Source.angles`, `direction`) and are left out here.
-/

namespace Verif.Ikeda
noncomputable section
open Classical

/-- `para_t`, the parameters of the pulse for one energy (`t0` is `to`), `S4:173-179`, `SA:273-279` -/
structure IC where
  (a b R t0 : ℝ)

/-- parameters for which the functions divide by zero, `S4:186, 253, 255, 381, 447, 452` -/
def IC.bad (c : IC) : Prop := c.a = 0 ∨ c.b = 0 ∨ c.a = c.b

/-- `tt`, `S4:181-182`, `SA:281-282` -/
def IC.late (c : IC) (t : ℝ) : ℝ := let tt := t - c.t0 * 10; if tt < 0 then 0 else tt

/-- `ikeda_carpenter_function_sp`, `S4:173-195`, and `f_sp`, `SA:273-291`, for parameters that are not `bad` -/
def IC.fsp (c : IC) (t : ℝ) : ℝ :=
  let tt := c.late t
  let eat := Real.exp (-c.a * tt)
  let ebt := Real.exp (-c.b * tt)
  let arg1 := (1 - c.R) * (c.a * tt) ^ 2 * eat
  let arg2 := 2 * c.R * c.a * c.a * c.b / (c.a - c.b) ^ 3
  let arg3 := 1 + (c.a - c.b) * tt + 0.5 * (c.a - c.b) ^ 2 * tt * tt
  0.5 * c.a * (arg1 + arg2 * (ebt - eat * arg3))

/-- `ambda`, `S4:253`, `SA:330` -/
def IC.lam (c : IC) : ℝ := (c.a - c.b) / c.a

/-- `delta`, `S4:255, 382`, `SA:332` -/
def IC.delta (c : IC) : ℝ := (1 / c.lam) ^ 3

/-- `gt`, `S4:259`, `SA:337` -/
def IC.gt (c : IC) (tt : ℝ) : ℝ := 0.5 * (c.a * tt) ^ 2 + c.a * tt + 1

/-- `Imax`, `Imin` and `arg3` of `ikeda_carpenter_function_sp_find_t`, `S4:257-262, 272-277, 304-309`; `tt` is the time after the delay -/
def IC.cum4 (c : IC) (tt : ℝ) : ℝ :=
  let eat := Real.exp (-c.a * tt)
  let ebt := Real.exp (-c.b * tt)
  let arg1 := 1 - c.gt tt * eat
  let arg2 := 1 - c.delta * (ebt - eat * c.b / c.a * (1 + c.lam * (c.a * tt + 1) + c.lam * c.lam * c.gt tt))
  (1 - c.R) * arg1 + c.R * arg2

/-- `cummulative_f_sp`, `SA:319-346` -/
def IC.cumA (c : IC) (t : ℝ) : ℝ :=
  let tt := c.late t
  let eat := Real.exp (-c.a * tt)
  let ebt := Real.exp (-c.b * tt)
  let arg1 := 1 - c.gt tt * eat
  let arg2 := c.delta * (1 - ebt)
  let arg3 := c.delta * c.b / c.a * eat * (1 + c.lam * (c.a * tt + 1) + c.lam * c.lam * c.gt tt)
  let arg4 := c.delta * c.b / c.a * (1 + c.lam + c.lam * c.lam)
  (1 - c.R) * arg1 + c.R * (arg2 + arg3 - arg4)

/-- `Imax` and `Imin` of `ikeda_carpenter_function_lp`, `S4:387-392, 406-411`, and of `f_lp`, `SA:478-483, 497-502` -/
def IC.rest (c : IC) (tt : ℝ) : ℝ :=
  let eat := Real.exp (-c.a * tt)
  let ebt := Real.exp (-c.b * tt)
  let arg1 := c.gt tt * eat
  let arg2 := c.delta * (ebt - eat * c.b / c.a * (1 + c.lam * (c.a * tt + 1) + c.lam * c.lam * c.gt tt))
  (1 - c.R) * arg1 + c.R * arg2

/-- `ikeda_carpenter_function_lp`, `S4:371-426`, and `f_lp`, `SA:462-517` -/
def IC.flp (c : IC) (t T : ℝ) : ℝ :=
  let tt := c.late t
  let tt1 := if tt - T < 0 then 0 else tt - T
  (c.rest tt1 - c.rest tt) / T

/-- `gamma` of the double integral, `S4:449`, `SA:570` -/
def IC.gamma (c : IC) (tt : ℝ) : ℝ := 0.5 * (c.a * tt) ^ 2 + 2 * c.a * tt + 3

/-- `intint_ikecar`, `S4:430-466` -/
def IC.intint4 (c : IC) (t T : ℝ) : ℝ :=
  let tt := c.late t
  let eat := Real.exp (-c.a * tt)
  let ebt := Real.exp (-c.b * tt)
  let arg1 := c.gamma tt / c.a * eat
  let arg2 := c.delta / c.b * ebt
  let arg3 := c.delta * c.b / c.a / c.a * (1 + 2 * c.lam + c.lam * c.a * tt + c.lam * c.lam * c.gamma tt) * eat
  ((1 - c.R) * arg1 + c.R * arg2 + c.R * arg3) / T

/-- `integral_integral_IC`, `SA:551-587` -/
def IC.intintA (c : IC) (t T : ℝ) : ℝ :=
  let tt := c.late t
  let eat := Real.exp (-c.a * tt)
  let ebt := Real.exp (-c.b * tt)
  let arg1 := c.gamma tt / c.a * eat
  let arg2 := c.delta / c.b * ebt
  let arg3 := c.delta * c.b / c.a / c.a * (1 + 2 * c.lam + c.lam * c.a * tt + c.lam * c.lam * c.gamma tt) * eat
  ((1 - c.R) * arg1 + c.R * arg2 - c.R * arg3) / T

/-- the first part of `CImax`, `CImin` and `arg4`, `S4:549-551, 561-563, 589-591` -/
def IC.ciHead (c : IC) (t T : ℝ) : ℝ :=
  let tt := c.late t
  (1 - c.R) / T * (tt - 3 / c.a) +
    c.R * c.delta / T * (tt - 1 / c.b - c.b / c.a * (1 + c.lam + c.lam * c.lam) * tt +
      c.b / c.a / c.a * (1 + 2 * c.lam + 3 * (c.lam * c.lam))) +
    c.intint4 t T

/-- `CImax`, `S4:547-556`, and `arg4`, `S4:587-596` -/
def IC.ciMax (c : IC) (t T : ℝ) : ℝ :=
  let tt := c.late t
  if T ≤ tt then
    c.ciHead t T + ((1 - c.R) / T * ((T - tt) + 3 / c.a) +
      c.R * c.delta / T * ((T - tt) + 1 / c.b - c.b / c.a * (1 + c.lam + c.lam * c.lam) * (T - tt) +
        c.b / c.a / c.a * (1 + 2 * c.lam + 3 * (c.lam * c.lam))) -
      c.intint4 (t - T) T)
  else c.ciHead t T

/-- `CImin`, `S4:559-568`: `tt-T` where `CImax` has `T-tt` -/
def IC.ciMin (c : IC) (t T : ℝ) : ℝ :=
  let tt := c.late t
  if T ≤ tt then
    c.ciHead t T + ((1 - c.R) / T * ((T - tt) + 3 / c.a) +
      c.R * c.delta / T * ((tt - T) + 1 / c.b - c.b / c.a * (1 + c.lam + c.lam * c.lam) * (T - tt) +
        c.b / c.a / c.a * (1 + 2 * c.lam + 3 * (c.lam * c.lam))) -
      c.intint4 (t - T) T)
  else c.ciHead t T

/-- `cummulative_f_lp`, `SA:628-664` -/
def IC.cumLp (c : IC) (t T : ℝ) : ℝ :=
  let tt := c.late t
  let phi := (1 - c.R) + c.R * c.delta * (1 - c.b / c.a * (1 + c.lam + c.lam * c.lam))
  if tt < T then c.intintA t T - c.intintA 0 T + tt / T * phi
  else c.intintA t T - c.intintA (t - T) T + phi

/-- what a turn of the loop does after the new value is known, `S4:312-327`, `SA:414-420, 726-735` -/
inductive Turn where
  | go | leave | abort

/-- the loop that looks for the time: nine bisections, then the secant, `S4:296-340, 575-625`, `SA:402-428, 713-744`.  `F` is the normalised function,
`check` the treatment of many turns.  The first number is the number of turns that is modelled: `check` ends the loop before it is used up.  A division by
zero is an error (in the code it gives a value that is not a number). -/
def search (F : ℝ → ℝ) (eps r : ℝ) (check : ℕ → ℝ → Turn) : ℕ → ℕ → ℝ → ℝ → ℝ → ℝ → Except Err ℝ
  | 0, _, _, _, _, _ => .error .recursionError
  | k + 1, n, tm, fm, tp, fp =>
    if ¬ n + 1 < 10 ∧ fp = fm then .error .undefinedBehaviour
    else
      let t := if n + 1 < 10 then 0.5 * (tp + tm) else tm + (tp - tm) / (fp - fm) * (r - fm)
      let diff := F t - r
      match check (n + 1) diff with
      | .abort => .error .cppException
      | .leave => .ok t
      | .go =>
        if eps < |diff| then
          if F t < r then search F eps r check k (n + 1) t (F t) tp fp
          else if r < F t then search F eps r check k (n + 1) tm fm t (F t)
          else search F eps r check k (n + 1) tm fm tp fp
        else .ok t

/-- `if(n<50) … else abort()`, `S4:312-327, 600-616` -/
def check4 (n : ℕ) (_ : ℝ) : Turn := if n < 50 then .go else .abort

/-- `if(n>50) abort()`, `SA:414-420` -/
def checkSp (n : ℕ) (_ : ℝ) : Turn := if 50 < n then .abort else .go

/-- `SA:726-735`: after 50 turns a larger deviation is accepted -/
def checkLp (n : ℕ) (diff : ℝ) : Turn := if n < 50 then .go else if |diff| < 1e-3 then .leave else .abort

/-- `ikeda_carpenter_function_sp_find_t`, `S4:226-342` -/
def IC.spFind4 (c : IC) (tmin tmax r : ℝ) : Except Err ℝ :=
  let lo := c.late tmin
  let hi := c.late tmax
  if lo = hi then .error .cppException
  else if c.bad then .error .undefinedBehaviour
  else if c.cum4 hi = c.cum4 lo then .error .undefinedBehaviour
  else
    let renorm := 1 / (c.cum4 hi - c.cum4 lo)
    match search (fun t => (c.cum4 t - c.cum4 lo) * renorm) 1e-4 r check4 52 0 lo 0 hi (c.cum4 hi) with
    | .error e => .error e
    | .ok t => .ok (t + c.t0 * 10)

/-- `ikeda_carpenter_function_lp_find_t`, `S4:505-628` -/
def IC.lpFind4 (c : IC) (tmin tmax T r : ℝ) : Except Err ℝ :=
  if c.bad ∨ T = 0 then .error .undefinedBehaviour
  else if c.ciMax tmax T = c.ciMin tmin T then .error .undefinedBehaviour
  else
    let renorm := 1 / (c.ciMax tmax T - c.ciMin tmin T)
    match search (fun t => (c.ciMax t T - c.ciMin tmin T) * renorm) 1e-4 r check4 52 0 tmin 0 tmax (c.ciMax tmax T) with
    | .error e => .error e
    | .ok t => .ok (t + c.t0 * 10)

/-- `sample_t_from_f_sp`, `SA:372-433`: the time and `p_t` -/
def IC.spFindA (c : IC) (tmin tmax r : ℝ) : Except Err (ℝ × ℝ) :=
  if c.bad then .error .undefinedBehaviour
  else if c.cumA tmax = c.cumA tmin then .error .undefinedBehaviour
  else
    let renorm := 1 / (c.cumA tmax - c.cumA tmin)
    match search (fun t => (c.cumA t - c.cumA tmin) * renorm) 1e-4 r checkSp 52 0 tmin 0 tmax 1 with
    | .error e => .error e
    | .ok t => .ok (t, c.cumA tmax - c.cumA tmin)

/-- `sample_t_from_f_lp`, `SA:681-748`: the time and `p_t` -/
def IC.lpFindA (c : IC) (tmin tmax T r : ℝ) : Except Err (ℝ × ℝ) :=
  if c.bad ∨ T = 0 then .error .undefinedBehaviour
  else
    let CImax := c.cumLp tmax T
    let CImin := if c.cumLp tmin T < 0 ∧ -1e-5 < c.cumLp tmin T then 0 else c.cumLp tmin T
    if 0 < CImax ∧ 0 ≤ CImin then
      if CImax = CImin then .error .undefinedBehaviour
      else
        let renorm := 1 / (CImax - CImin)
        match search (fun t => (c.cumLp t T - CImin) * renorm) 1e-4 r checkLp 52 0 tmin 0 tmax 1 with
        | .error e => .error e
        | .ok t => .ok (t, CImax - CImin)
    else .error .cppException

/-- the parameters of the components that concern the energy and the time, `S4:51-54`; `SA` has the same -/
structure Cfg where
  (Emin Emax tinmin tinmax proton_T : ℝ) (sample_E sample_t : ℤ)

/-- the time and `p_t`, `S4:801-836`; other values of `sample_t` leave both without a value -/
def Cfg.time4 (g : Cfg) (c : IC) (u : ℝ) : Except Err (ℝ × ℝ) :=
  if c.bad then .error .undefinedBehaviour
  else if g.sample_t = 0 then
    if g.proton_T ≤ 0 then
      let ttmax := if g.tinmax < 6 / c.b then g.tinmax else 6 / c.b
      (c.spFind4 g.tinmin ttmax u).map fun t => (t, 1)
    else
      let ttmax := if g.tinmax < g.proton_T + 6 / c.b then g.tinmax else g.proton_T + 6 / c.b
      (c.lpFind4 g.tinmin ttmax g.proton_T u).map fun t => (t, 1)
  else if g.sample_t = 1 then
    if g.proton_T ≤ 0 then
      let ttmax := if g.tinmax < 5 / c.b then g.tinmax else 5 / c.b
      let tval := g.tinmin + (ttmax - g.tinmin) * u
      .ok (tval, c.fsp tval * (ttmax - g.tinmin))
    else
      let ttmax := if g.tinmax < g.proton_T + 5 / c.b then g.tinmax else g.proton_T + 5 / c.b
      let tval := g.tinmin + (ttmax - g.tinmin) * u
      .ok (tval, c.flp tval g.proton_T * (ttmax - g.tinmin))
  else .error .undefinedBehaviour

/-- `ttmin` and `ttmax`, `SA:999-1002, 1006-1009, 1015-1018, 1023-1026` -/
def Cfg.rangeA (g : Cfg) (c : IC) : ℝ × ℝ :=
  let full := (if g.proton_T ≤ 0 then 20 / c.b + c.t0 * 10 else g.proton_T + 20 / c.b + c.t0 * 10)
  (if c.t0 * 10 < g.tinmin then g.tinmin else c.t0 * 10, if g.tinmax < full then g.tinmax else full)

/-- the time and `p_t`, `SA:996-1034`; other values of `sample_t` leave both without a value -/
def Cfg.timeA (g : Cfg) (c : IC) (u : ℝ) : Except Err (ℝ × ℝ) :=
  let ttmin := (g.rangeA c).1
  let ttmax := (g.rangeA c).2
  if c.bad then .error .undefinedBehaviour
  else if g.sample_t = 0 then
    if g.proton_T ≤ 0 then c.spFindA ttmin ttmax u
    else c.lpFindA ttmin ttmax g.proton_T u
  else if g.sample_t = 1 then
    if g.proton_T ≤ 0 then
      let tval := ttmin + (ttmax - g.tinmin) * u
      .ok (tval, c.fsp tval * (ttmax - ttmin))
    else
      let tval := ttmin + (ttmax - ttmin) * u
      .ok (tval, c.flp tval g.proton_T * (ttmax - ttmin))
  else .error .undefinedBehaviour

/-- `para_sp`, `S4:117-142`, `SA:158-183` -/
structure Spectrum where
  (c R1 T1 R2 T2 R3 T3 a b Ecut s delta g Io : ℝ)

/-- `spectral_function`, `S4:117-157`, `SA:158-195`, for a positive energy (in eV), positive temperatures and Ecut ≥ 0 -/
def Spectrum.value (q : Spectrum) (E : ℝ) : ℝ :=
  let k : ℝ := 8.617e-5
  let B : ℝ := 7.36e-3
  let D := 1 / (1 + (q.Ecut / E) ^ q.s)
  let x := if 2 * B < E then q.g * (E - 2 * B) else 0
  let rho := 1 + q.delta * Real.exp (-x) * (1 + x + 0.5 * x * x)
  let arg1 := q.Io * 1.0e12 * Real.exp (-q.c / √E)
  let arg2 := q.R1 * E / (k * q.T1) ^ 2 * Real.exp (-E / (k * q.T1))
  let arg3 := q.R2 * E / (k * q.T2) ^ 2 * Real.exp (-E / (k * q.T2))
  let arg4 := q.R3 * E / (k * q.T3) ^ 2 * Real.exp (-(E / (k * q.T3)) ^ q.b)
  let arg5 := D * rho / E ^ (1 - q.a)
  arg1 * (arg2 + arg3 + arg4 + arg5)

/-- `CL`, `S4:747`, `SA:926` -/
def Cfg.CL (g : Cfg) : ℝ := (1 / √(g.Emin * 1e-3) - 1 / √(g.Emax * 1e-3)) / (g.Emax - g.Emin) * 1e3

/-- `CU`, `S4:748`, `SA:927` -/
def Cfg.CU (g : Cfg) : ℝ := (Real.log (g.Emax * 1e-3) - Real.log (g.Emin * 1e-3)) / (g.Emax - g.Emin) * 1e3

/-- energies drawn uniformly, `S4:775-776`, `SA:964-965`: the energy in eV and `p_sa` -/
def Cfg.byEnergy (g : Cfg) (u : ℝ) : ℝ × ℝ := ((g.Emin + (g.Emax - g.Emin) * u) * 1e-3, 1)

/-- energies drawn uniformly in the wavelength, `S4:780-781`, `SA:969-970` -/
def Cfg.byLambda (g : Cfg) (u : ℝ) : ℝ × ℝ :=
  let Eval := (1 / (1 / √g.Emax + (1 / √g.Emin - 1 / √g.Emax) * u)) ^ 2 * 1e-3
  (Eval, g.CL * 2 * Eval ^ (1.5 : ℝ))

/-- energies drawn uniformly in the lethargy, `S4:785-786`, `SA:974-975` -/
def Cfg.byLethargy (g : Cfg) (u : ℝ) : ℝ × ℝ :=
  let Eval := Real.exp (Real.log g.Emin + (Real.log g.Emax - Real.log g.Emin) * u) * 1e-3
  (Eval, g.CU * Eval)

/-- the energy in eV and `p_E*p_sa`, `S4:774-796`; another value of `sample_E` writes a message and goes on without values.  An empty range of energies
divides by zero (`S4:747`). -/
def Cfg.energy4 (g : Cfg) (S : ℝ → ℝ) (u : ℝ) : Except Err (ℝ × ℝ) :=
  if g.Emax = g.Emin then .error .undefinedBehaviour
  else
    let fin := fun (x : ℝ × ℝ) => (x.1, S x.1 * x.2)
    if g.sample_E = 0 then .ok (fin (g.byEnergy u))
    else if g.sample_E = 1 then .ok (fin (g.byLambda u))
    else if g.sample_E = 2 then .ok (fin (g.byLethargy u))
    else .error .undefinedBehaviour

/-- the energy in eV and `p_E*p_sa`, `SA:963-981`; the table for `sample_E=0` is given by `drawn` (see `total`) -/
def Cfg.energyA (g : Cfg) (S : ℝ → ℝ) (drawn : ℝ → Except Err (ℝ × ℝ)) (u : ℝ) : Except Err (ℝ × ℝ) :=
  if g.Emax = g.Emin then .error .undefinedBehaviour
  else
    let fin := fun (x : ℝ × ℝ) => (x.1, S x.1 * (g.Emax - g.Emin) * 1e-3 * x.2)
    if g.sample_E = 0 then drawn u
    else if g.sample_E = 1 then .ok (fin (g.byEnergy u))
    else if g.sample_E = 2 then .ok (fin (g.byLambda u))
    else if g.sample_E = 3 then .ok (fin (g.byLethargy u))
    else .error .cppException

/-- the loop of `CItot` in `prepare_cumulative_spectral_function`, `SA:217-223`: the remaining turns, `u`, `E0`, `I0` and the sum -/
def totalLoop (S : ℝ → ℝ) (du : ℝ) : ℕ → ℝ → ℝ → ℝ → ℝ → ℝ
  | 0, _, _, _, s => s
  | n + 1, u, E0, I0, s =>
    let E1 := Real.exp u
    let I1 := S E1
    totalLoop S du n (u + du) E1 I1 (s + (E1 - E0) * (I1 + I0) * 0.5)

/-- `CItot`, `SA:205-223`.  `E0` has no value when the loop begins: `junk` is what is found in its place, and the first value of the spectrum is taken
at `Emin`, in meV.  The loop makes 100000 turns. -/
def Cfg.total (g : Cfg) (S : ℝ → ℝ) (junk : ℝ) : ℝ :=
  let umax := Real.log (g.Emax * 1e-3)
  let umin := Real.log (g.Emin * 1e-3)
  let du := (umax - umin) * 1e-5
  totalLoop S du 100000 (umin + du) junk (S g.Emin) 0

/-- `pade_function`, `S4:640-656`, `SA:762-778`; `p` is a, b, c, d, f, g, h, i, j, k -/
def pade (a b c d f g h i j k E : ℝ) : Except Err ℝ :=
  if f = 0 ∨ j = 0 ∨ 1 + h * E + i * E * E + (E / j) ^ k = 0 then .error .undefinedBehaviour
  else .ok (a * E ^ b * (1 + c * E + d * E * E + (E / f) ^ g) / (1 + h * E + i * E * E + (E / j) ^ k))

end
end Verif.Ikeda
