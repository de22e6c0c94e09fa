import Verif.Model.Kinem
/-!
Powder diffraction: `packages/mccomponents/lib/kernels/sample/diffraction/SimplePowderDiffractionKernel.cc`
and `SimplePowderDiffractionData.h`; rotation of vectors `packages/mcni/lib/geometry/utils.icc`; integer
random numbers `packages/mccomponents/lib/math/random.cc`.

Real numbers instead of doubles; random numbers between 0 and 1 are arguments.  A result that is not a
finite number is `none`.  `mcni::PI` is taken to be π and `DEG2RAD` to be π/180.
-/

namespace Verif.Powder
open Solid Flight Homog Kinem
noncomputable section
open Classical

/-- `mcni::rotate`, `mcni/lib/geometry/utils.icc:14-43`; `epsilon` is 1e-7 by default (`utils.h:22`) -/
def rotate (v c : V3 ℝ) (angle eps : ℝ) : Option (V3 ℝ) := do
  let c1 ← normalize c
  let vpl := v.dot c1 • c1
  let r ← divD (length vpl) (length v)
  if |1 - r| < eps then some v
  else
    let vpp := v - vpl
    let epp ← normalize vpp
    let t := V3.cross epp c1
    some (length vpp • (Real.cos angle • epp - Real.sin angle • t) + vpl)

/-- `math::random(size_t, size_t)` from 0 to `n`, `mccomponents/lib/math/random.cc:30-33` -/
def randomIndex (u : ℝ) (n : Nat) : Nat := ⌊random u 0 n⌋₊ % n

/-- `asin` of C: not a number outside of [-1,1] (used in `SimplePowderDiffractionKernel.cc:231,243`) -/
def asinD (x : ℝ) : Option ℝ := if x < -1 ∨ 1 < x then none else some (Real.arcsin x)

/-- `SimplePowderDiffractionData::Peak`, `SimplePowderDiffractionData.h:19-29` -/
structure Peak where
  (q F2 : ℝ)
  mult : Int
  (width dw : ℝ)

/-- the data of `Details` that is used, `SimplePowderDiffractionKernel.cc:24-42`.  `pack` is 1 and
`XsectionFactor` 100 (lines 60-62). -/
structure Data where
  peaks : List Peak
  vol : ℝ
  absXs : ℝ

/-- `q_v[i]`, `SimplePowderDiffractionKernel.cc:86` -/
def Peak.qv (p : Peak) : ℝ := p.q * k2v

/-- `my_s_v2[i]`, `SimplePowderDiffractionKernel.cc:78-83` -/
def Data.sv2 (d : Data) (p : Peak) : ℝ :=
  4 * Real.pi * Real.pi * Real.pi * 1 * (if p.dw ≠ 0 then p.dw else 1) / d.vol / (v2k * v2k) *
    (p.mult * p.F2 / p.q) * 100

/-- the assertion in the constructor, `SimplePowderDiffractionKernel.cc:90-91` -/
def sorted : List Peak → Bool
  | p :: q :: ps => decide (p.qv ≤ q.qv) && sorted (q :: ps)
  | _ => true

/-- the constructor, `SimplePowderDiffractionKernel.cc:54-111` -/
def construct (d : Data) : Except Err Data := if sorted d.peaks then .ok d else .error .assertionError

/-- `Details::scattering_xs`, `SimplePowderDiffractionKernel.cc:122-142` (0/0 is 0 here) -/
def Data.scatteringXs (d : Data) (v : ℝ) : ℝ :=
  d.peaks.foldl (fun s p => if v ≥ p.qv / 2 then s + d.sv2 p else s) 0 / (v * v)

/-- `absorption_coefficient`, `SimplePowderDiffractionKernel.cc:152-158` -/
def Data.absorption (d : Data) (ev : Ev) : ℝ := d.absXs / d.vol * 100 * 2200 / length ev.v

/-- `scattering_coefficient`, `SimplePowderDiffractionKernel.cc:162-168` -/
def Data.coefficient (d : Data) (ev : Ev) : ℝ := d.scatteringXs (length ev.v) / d.vol

/-- the loop that counts the peaks, `SimplePowderDiffractionKernel.cc:209-213` -/
def countPeaks (v : ℝ) : List Peak → Nat
  | [] => 0
  | p :: ps => if v < p.qv / 2 then 0 else countPeaks v ps + 1

/-- the point on the cone, `SimplePowderDiffractionKernel.cc:234-268`, and the new value of `m_d_phi`.
`none`: not a number. -/
def azimuth (dphi theta u : ℝ) : Option (ℝ × ℝ) :=
  let free : ℝ × ℝ := (Real.pi * random u (-1) 1, 0)
  if dphi = 0 then some free
  else
    let num := Real.sin (dphi * (Real.pi / 180) / 2)
    match divD num (Real.sin (2 * theta)) with
    | none => if num = 0 then none else some free
    | some arg =>
      if arg < -1 ∨ 1 < arg then some free
      else
        let alpha := |2 * Real.arcsin arg|
        let a0 := 2 * random u 0 1 * alpha
        some (if a0 > alpha then Real.pi + (a0 - 1.5 * alpha) else a0 - 0.5 * alpha, dphi)

/-- the two rotations, `SimplePowderDiffractionKernel.cc:275-296` -/
def turn (v : V3 ℝ) (theta alpha0 : ℝ) : Option (V3 ℝ) := do
  let n : V3 ℝ := if |v.x| < |v.z| then ⟨1, 0, 0⟩ else ⟨0, 0, 1⟩
  let v1 ← rotate v (V3.cross v n) (2 * theta) 1e-7
  rotate v1 v alpha0 1e-7

/-- `scatter`, `SimplePowderDiffractionKernel.cc:178-318`: the neutron and the new `m_d_phi`.  `u1` selects
the peak, `u2` the broadening, `u3` the place on the cone.  Reading the first peak of an empty list is
undefined behaviour.  When the new velocity is not a number only the probability (-1) is kept here. -/
def scatter (d : Data) (dphi u1 u2 u3 : ℝ) (ev : Ev) : Except Err (Ev × ℝ) :=
  match d.peaks with
  | [] => .error .undefinedBehaviour
  | p0 :: ps =>
    let v := length ev.v
    if v < p0.qv / 2 then .ok ({ ev with p := -1 }, dphi)
    else
      let n := countPeaks v ps + 1
      let i := if n > 1 then randomIndex u1 n else 0
      match (p0 :: ps)[i]? with
      | none => .error .undefinedBehaviour
      | some pk =>
        let arg := if pk.width ≠ 0 then pk.qv * (1 + pk.width * random u2 (-1) 1) / (2 * v)
          else pk.qv / (2 * v)
        let xs := d.sv2 pk / (v * v) * n
        match asinD arg with
        | none => .ok ({ ev with p := -1 }, dphi)
        | some theta =>
          match azimuth dphi theta u3 with
          | none => .ok ({ ev with p := -1 }, dphi)
          | some (alpha0, dphi') =>
            match turn ev.v theta alpha0 with
            | none => .ok ({ ev with p := -1 }, dphi')
            | some w => .ok ({ ev with v := w, p := ev.p * (xs / d.vol) }, dphi')

end
end Verif.Powder
