import Verif.Model.Homog
/-!
The composite scattering kernel,
`packages/mccomponents/lib/homogeneous_scatterer/CompositeScatteringKernel.cc`, and its construction by
`packages/mccomponents/python/mccomponents/homogeneous_scatterer/KernelComputationEngineRenderer.py`.

Real numbers instead of doubles.  `math::random01()` (`mccomponents/lib/math/random.cc:46-49`) is an
argument, a number in the closed interval from 0 to 1.  `assert` is taken to be enabled.
-/

namespace Verif.CKernel
open Flight
noncomputable section
open Classical

/-- a scattering kernel: the virtual methods of `AbstractScatteringKernel.h:34-61`, over a state `S`
(random numbers, recorded events) -/
structure Kern (S : Type) where
  mu : Ev → ℝ
  sigma : Ev → ℝ
  total : Bool
  scatter : S → Ev → Except Err (S × Ev)
  absorb : S → Ev → Except Err (S × Ev)

/-- data members, `CompositeScatteringKernel.h:54-59` and `CompositeScatteringKernel.cc:33-34`;
`totalInd` is `total_scattering_ind`, with `none` for -1 -/
structure CK (S : Type) where
  kernels : List (Kern S)
  average : Bool
  weights : List ℝ
  rots : List (M3 ℝ)
  totalInd : Option Nat

variable {S : Type}

/-- the loop over the weights in `select_kernel`, `CompositeScatteringKernel.cc:50-58`; `i` counts,
`t` is the sum so far -/
def selectLoop (x : ℝ) : Nat → ℝ → List ℝ → Option Nat
  | _, _, [] => none
  | i, t, w :: ws => if x < t + w then some i else selectLoop x (i + 1) (t + w) ws

/-- `select_kernel`, `CompositeScatteringKernel.cc:44-59`.  For `N = 0` the code returns -1, here 0;
both are indexes that do not exist. -/
def CK.select (c : CK S) (x : ℝ) : Nat :=
  let N := c.kernels.length
  if N = 1 then 0
  else match selectLoop x 0 0 c.weights with
    | some i => i
    | none => N - 1

/-- `tosubkernel`, `CompositeScatteringKernel.cc:65-72`: only the velocity is converted -/
def toSub (m : M3 ℝ) (ev : Ev) : Ev := { ev with v := m.transpose.mulVec ev.v }

/-- `tohostkernel`, `CompositeScatteringKernel.cc:73-78` -/
def toHost (m : M3 ℝ) (ev : Ev) : Ev := { ev with v := m.mulVec ev.v }

/-- the loop looking for kernels of total scattering, `CompositeScatteringKernel.cc:99-108`; `i` is
the index of the head, `n` their number so far, `ind` the last of them -/
def findTotal : Nat → Nat → Option Nat → List (Kern S) → Except Err (Option Nat)
  | _, _, ind, [] => .ok ind
  | i, n, ind, k :: ks =>
    let n' := if k.total then n + 1 else n
    let ind' := if k.total then some i else ind
    if n' > 1 then .error .cppException else findTotal (i + 1) n' ind' ks

/-- the constructor, `CompositeScatteringKernel.cc:83-118` -/
def construct (kernels : List (Kern S)) (weights : List ℝ) (rots : List (M3 ℝ)) (average : Bool) :
    Except Err (CK S) := do
  if kernels.length ≠ weights.length then .error .assertionError
  else if rots.length ≠ weights.length then .error .assertionError
  else
    let ind ← findTotal 0 0 none kernels
    let tw := weights.foldl (· + ·) 0
    .ok { kernels := kernels, average := average, weights := weights.map (· / tw), rots := rots,
          totalInd := ind }

/-- `absorption_coefficient`, `CompositeScatteringKernel.cc:126-140` -/
def CK.mu (c : CK S) (ev : Ev) : ℝ :=
  (c.kernels.foldl (fun ret k => ret + k.mu ev) 0) / c.kernels.length

/-- `scattering_coefficient`, `CompositeScatteringKernel.cc:142-160` -/
def CK.sigma (c : CK S) (ev : Ev) : ℝ :=
  match c.totalInd.bind (c.kernels[·]?) with
  | some k => k.sigma ev
  | none =>
    let ret := c.kernels.foldl (fun ret k => ret + k.sigma ev) 0
    if c.average then ret / c.kernels.length else ret

/-- the common body of `scatter` and `absorb`, `CompositeScatteringKernel.cc:165-170`, `176-181`; an
index that does not exist is undefined behaviour -/
def CK.run (c : CK S) (f : Kern S → S → Ev → Except Err (S × Ev)) (x : ℝ) (s : S) (ev : Ev) :
    Except Err (S × Ev) :=
  let index := c.select x
  match c.kernels[index]?, c.weights[index]?, c.rots[index]? with
  | some k, some w, some m => do
    let (s', ev') ← f k s (toSub m { ev with p := ev.p / w })
    .ok (s', toHost m ev')
  | _, _, _ => .error .undefinedBehaviour

/-- `scatter`, `CompositeScatteringKernel.cc:162-171` -/
def CK.scatter (c : CK S) (x : ℝ) (s : S) (ev : Ev) : Except Err (S × Ev) := c.run Kern.scatter x s ev

/-- `absorb`, `CompositeScatteringKernel.cc:173-182` -/
def CK.absorb (c : CK S) (x : ℝ) (s : S) (ev : Ev) : Except Err (S × Ev) := c.run Kern.absorb x s ev

/-- a constituent as described by the user: its kernel, the attributes `weight` and `rotmat`, `none`
for an attribute that is missing or `None`, `KernelComputationEngineRenderer.py:38-57` -/
structure Desc (S : Type) where
  kernel : Kern S
  weight : Option ℝ
  rotmat : Option (M3 ℝ)

/-- `w or 1.`, `KernelComputationEngineRenderer.py:41,52` -/
def Desc.cweight (d : Desc S) : ℝ :=
  match d.weight with
  | none => 1
  | some w => if w = 0 then 1 else w

/-- `rm`, `KernelComputationEngineRenderer.py:55-57` -/
def Desc.crot (d : Desc S) : M3 ℝ := d.rotmat.getD M3.one

/-- `onCompositeKernel`, `KernelComputationEngineRenderer.py:30-62`; the constituents are rendered
already.  Warnings and printing are left out.  `average` is the attribute after conversion to a
truth value. -/
def render (ds : List (Desc S)) (average : Bool) : Except Err (CK S) :=
  construct (ds.map (·.kernel)) (ds.map Desc.cweight) (ds.map Desc.crot) average

end
end Verif.CKernel
