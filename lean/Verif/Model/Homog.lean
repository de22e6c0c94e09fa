import Verif.Model.Flight
/-!
The homogeneous scatterer,
`packages/mccomponents/lib/homogeneous_scatterer/HomogeneousNeutronScatterer.cc`.

Real numbers instead of doubles.  A call of `math::random(a, b)` (`mccomponents/lib/math/random.cc:35-39`)
is `a + u * (b - a)` where `u`, in the closed interval from 0 to 1, is an argument of the model.
The kernel is any object with state `K` (random numbers, recorded events).
-/

namespace Verif.Homog
open Solid Flight
noncomputable section
open Classical

/-- `AbstractNeutronScatterer::InteractionType`, `mccomposite/lib/mccomposite/AbstractNeutronScatterer.h:47` -/
inductive IType where
  | none | scattering | absorption
  deriving DecidableEq

/-- data members of the scatterer, `HomogeneousNeutronScatterer.h:34-36,101-104`, with the four
methods of its kernel.  `mu0` is the absorption coefficient without the packing factor, whether
it comes from the kernel or from the calculator (`HomogeneousNeutronScatterer.cc:86-90`). -/
structure Scat (K : Type) where
  shape : Shape
  (wT wA wS : ℝ)
  packing : ℝ
  (mu0 sigma0 : Ev → ℝ)
  kscatter : K → Ev → Except Err (K × Ev)
  kabsorb : K → Ev → Except Err K
  maxLoops : Nat
  minP : ℝ

variable {K : Type}

/-- `math::random(a, b)`, `mccomponents/lib/math/random.cc:35-39`, for the value `u` of
`rand()/RAND_MAX` -/
def random (u a b : ℝ) : ℝ := u * (b - a) + a

/-- `mu(ev)`, `HomogeneousNeutronScatterer.cc:82-92` -/
def Scat.mu (h : Scat K) (ev : Ev) : ℝ := h.mu0 ev * h.packing

/-- `m_kernel.scattering_coefficient(ev) * packing_factor`, `HomogeneousNeutronScatterer.cc:121,231,372` -/
def Scat.sigma (h : Scat K) (ev : Ev) : ℝ := h.sigma0 ev * h.packing

/-- the common beginning of `interact_path1` (`HomogeneousNeutronScatterer.cc:100-116`) and
`_interactM1` (207-226): the neutron at the surface, if it was not inside, and the distance it
flies before it leaves the shape -/
def enter (tol par : ℝ) (h : Scat K) (ev : Ev) : Except Err (Ev × ℝ) := do
  let loc ← locate tol h.shape ev.r
  let ev1 ← if loc ≠ .inside then toIncident tol par h.shape ev else .ok ev
  let tof ← tofBeforeExit tol par h.shape ev1
  .ok (ev1, tof * length ev1.v)

/-- the channel for the random number `r`, `HomogeneousNeutronScatterer.cc:130-156` -/
def Scat.channel (h : Scat K) (r : ℝ) : IType :=
  if r < h.wT then .none
  else if r < h.wT + h.wA then .absorption
  else .scattering

/-- the sum of the weights, `HomogeneousNeutronScatterer.cc:130-132` -/
def Scat.sum (h : Scat K) : ℝ := h.wT + h.wA + h.wS

/-- the neutron after the choice of a channel and of the place of the interaction, with its new
probability, before anything is done by the kernel: `HomogeneousNeutronScatterer.cc:140`
(transmission, not moved yet), 146-149 (absorption), 158-179 (scattering).  `u` is used for the
distance `x`. -/
def Scat.pick (h : Scat K) (u : ℝ) (c : IType) (ev : Ev) (distance : ℝ) : Ev :=
  let mu := h.mu ev
  let sigma := h.sigma ev
  let velocity := length ev.v
  match c with
  | .none => { ev with p := ev.p * (Real.exp (-(mu + sigma) * distance) * (h.sum / h.wT)) }
  | .absorption =>
    let x := random u 0 distance
    let prob := mu * distance * Real.exp (-(mu + sigma) * x)
    propagate { ev with p := ev.p * (prob * (h.sum / h.wA)) } (x / velocity)
  | .scattering =>
    let x := random u 0 distance
    let atten := Real.exp (-(mu + sigma) * x)
    propagate { ev with p := ev.p * (distance * atten * (h.sum / h.wS)) } (x / velocity)

/-- `calculate_attenuation`, `HomogeneousNeutronScatterer.cc:341-382` -/
def Scat.atten (tol par : ℝ) (h : Scat K) (ev : Ev) (endp : V3 ℝ) : Except Err ℝ :=
  attenuation tol par h.shape (h.mu ev) (h.sigma ev) ev endp

/-- `interact_path1`, `HomogeneousNeutronScatterer.cc:94-192`; `u1` is used for the choice of
the channel (134), `u2` for the place (146, 158) -/
def interactPath1 (tol par : ℝ) (h : Scat K) (u1 u2 : ℝ) (k : K) (ev : Ev) :
    Except Err (K × Ev × IType) := do
  let (ev1, distance) ← enter tol par h ev
  let c := h.channel (random u1 0 h.sum)
  let ev2 := h.pick u2 c ev1 distance
  match c with
  | .none => do
    let ev3 ← toExit tol par h.shape ev2
    .ok (k, ev3, .none)
  | .absorption => do
    let k' ← h.kabsorb k ev2
    .ok (k', { ev2 with p := -1 }, .absorption)
  | .scattering => do
    let (k', ev3) ← h.kscatter k ev2
    let save := { ev3 with p := ev3.p * h.packing }
    if save.p ≤ 0 then .ok (k', save, .absorption)
    else
      let ev4 ← toExit tol par h.shape save
      let a ← h.atten tol par save ev4.r
      .ok (k', { ev4 with p := ev4.p * a }, .scattering)

/-- `_interactM1`, `HomogeneousNeutronScatterer.cc:195-273`: the two neutrons pushed to `evts`;
the absorbed part is handed to the kernel at the place of entry (249-251).  For
`mu + sigma = 0` the code computes 0/0, here 0. -/
def interactM1 (tol par : ℝ) (h : Scat K) (u : ℝ) (k : K) (ev : Ev) : Except Err (K × List Ev) := do
  let (ev1, distance) ← enter tol par h ev
  let mu := h.mu ev1
  let sigma := h.sigma ev1
  let velocity := length ev1.v
  let transmission := Real.exp (-(mu + sigma) * distance)
  let absorption := (1 - transmission) * (mu / (mu + sigma))
  let out ← toExit tol par h.shape ev1
  let k1 ← h.kabsorb k { ev1 with p := ev1.p * absorption }
  let x := random u 0 distance
  let ev2 := propagate { ev1 with p := ev1.p * (distance * Real.exp (-(mu + sigma) * x)) } (x / velocity)
  let (k2, ev3) ← h.kscatter k1 ev2
  .ok (k2, [{ out with p := out.p * transmission }, { ev3 with p := ev3.p * h.packing }])

/-- `minimum_neutron_event_probability`, `HomogeneousNeutronScatterer.cc:37-38` (1e-20) -/
def minimumP : ℝ := 1 / 10 ^ 20

/-- the loop over what came out of one interaction, `HomogeneousNeutronScatterer.cc:304-326`: the
neutrons that are done and those still inside -/
def sortOut (tol : ℝ) (s : Shape) : List Ev → Except Err (List Ev × List Ev)
  | [] => .ok ([], [])
  | e :: es => do
    let (out, rest) ← sortOut tol s es
    if e.p < minimumP then .ok (out, rest)
    else
      let loc ← locate tol s e.r
      if loc ≠ .inside then .ok (e :: out, rest) else .ok (out, e :: rest)

/-- the loop over the neutrons to be scattered, `HomogeneousNeutronScatterer.cc:290-328`.  The
random numbers are taken from the stream `us`; `n` is the number used so far. -/
def scatterList (tol par : ℝ) (h : Scat K) (us : Nat → ℝ) :
    List Ev → K → Nat → Except Err (K × Nat × List Ev × List Ev)
  | [], k, n => .ok (k, n, [], [])
  | e :: es, k, n => do
    if 0 ≤ e.p ∧ e.p < h.minP then scatterList tol par h us es k n
    else
      let (k1, l) ← interactM1 tol par h (us n) k e
      let (out, rest) ← sortOut tol h.shape l
      let (k2, n2, out2, rest2) ← scatterList tol par h us es k1 (n + 1)
      .ok (k2, n2, out ++ out2, rest ++ rest2)

/-- the outer loop, `HomogeneousNeutronScatterer.cc:286-332`; `m` loops are left -/
def scatterLoop (tol par : ℝ) (h : Scat K) (us : Nat → ℝ) :
    Nat → List Ev → K → Nat → Except Err (K × Nat × List Ev × List Ev)
  | 0, l, k, n => .ok (k, n, [], l)
  | _ + 1, [], k, n => .ok (k, n, [], [])
  | m + 1, e :: es, k, n => do
    let (k1, n1, out, rest) ← scatterList tol par h us (e :: es) k n
    let (k2, n2, out2, left) ← scatterLoop tol par h us m rest k1 n1
    .ok (k2, n2, out ++ out2, left)

/-- `interactM_path1`, `HomogeneousNeutronScatterer.cc:277-338`; `n` random numbers were used
before -/
def interactMPath1 (tol par : ℝ) (h : Scat K) (us : Nat → ℝ) (k : K) (n : Nat) (ev : Ev) :
    Except Err (K × Nat × List Ev × IType) := do
  let (k', n', out, left) ← scatterLoop tol par h us h.maxLoops [ev] k n
  .ok (k', n', out ++ left, .scattering)

end
end Verif.Homog
