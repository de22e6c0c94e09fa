import Verif.Model.Kinem
import Mathlib.Analysis.SpecialFunctions.Exp
import Mathlib.Analysis.SpecialFunctions.Pow.Real
/-!
Bragg diffraction by a single crystal: `packages/mccomponents/lib/kernels/sample/diffraction/SingleCrystalDiffractionKernel.cc`
(`.cc` below), `SingleCrystalDiffractionData.h`, `crystal.h`, and the construction of the kernel in
`packages/mccomponents/python/mccomponents/sample/diffraction/bindings/BoostPythonBinding.py`.

Real numbers instead of doubles, `PI` is the exact number; random numbers are arguments.  A result that is not a finite
number is `none`.
-/

namespace Verif.Bragg
open Solid Flight Homog Kinem
noncomputable section
open Classical

/-- `FWHM2RMS`, `.cc:29` -/
def fwhm2rms : ℝ := 0.424660900144

/-- `HKL`, `crystal.h:43-52` -/
structure HKL where
  (h k l F2 : ℝ)

/-- what is used of `Lattice`, `crystal.h:22-41` -/
structure Lat where
  (ra rb rc : V3 ℝ)
  V0 : ℝ

/-- constructor of `Lattice`, `crystal.h:27-40` -/
def lattice (a b c : V3 ℝ) : Option Lat := do
  let V := a.dot (b.cross c)
  let f ← divD (2 * Real.pi) V
  some ⟨f • b.cross c, f • c.cross a, f • a.cross b, |V|⟩

/-- `normal_vec`, `.cc:35-77`; what is divided by is never 0 -/
def normalVec (v : V3 ℝ) : V3 ℝ :=
  let onZ : V3 ℝ := ⟨v.y / √(v.y * v.y + v.x * v.x), -v.x / √(v.y * v.y + v.x * v.x), 0⟩
  if v.x = 0 ∧ v.y = 0 ∧ v.z = 0 then 0
  else if |v.x| < |v.y| then
    if |v.x| < |v.z| then ⟨0, v.z / √(v.z * v.z + v.y * v.y), -v.y / √(v.z * v.z + v.y * v.y)⟩ else onZ
  else
    if |v.y| < |v.z| then ⟨v.z / √(v.z * v.z + v.x * v.x), 0, -v.x / √(v.z * v.z + v.x * v.x)⟩ else onZ

/-- `HKLData`, `SingleCrystalDiffractionData.h:20-30`; the transposed axes `uT` are not stored -/
structure Peak where
  F2 : ℝ
  tau : V3 ℝ
  tauLength : ℝ
  (u1 u2 u3 : V3 ℝ)
  sig123 : ℝ
  (m1 m2 m3 : ℝ)
  cutoff : ℝ

/-- one element of `hkllist`, `.cc:124-148` -/
def peak (lat : Lat) (mosaic dd : ℝ) (q : HKL) : Option Peak := do
  let tau := q.h • lat.ra + q.k • lat.rb + q.l • lat.rc
  let tauLength := length tau
  let u1 := (← divD 1 tauLength) • tau
  let sx := fwhm2rms * dd * tauLength
  let u2 := normalVec u1
  let u3 := u1.cross u2
  let sy := fwhm2rms * tauLength * mosaic
  let m1 ← divD 1 (2 * sx * sx)
  let m2 ← divD 1 (2 * sy * sy)
  some { F2 := q.F2, tau := tau, tauLength := tauLength, u1 := u1, u2 := u2, u3 := u3, sig123 := sx * sy * sy,
         m1 := m1, m2 := m2, m3 := m2, cutoff := 5 * max sx (max sy sy) }

/-- to the local coordinates of a reflection, `.cc:209` with the transposed axes of `.cc:139-141` -/
def Peak.toLocal (p : Peak) (v : V3 ℝ) : V3 ℝ := ⟨p.u1.dot v, p.u2.dot v, p.u3.dot v⟩

/-- from the local coordinates, `.cc:407-409` -/
def Peak.toWorld (p : Peak) (v : V3 ℝ) : V3 ℝ := v.x • p.u1 + v.y • p.u2 + v.z • p.u3

/-- `TauData`, `SingleCrystalDiffractionData.h:33-47`; `index` is replaced by the reflection itself -/
structure Tau where
  peak : Peak
  (refl xs : ℝ)
  (rho o b1 b2 : V3 ℝ)
  (l11 l12 l22 y0x y0y : ℝ)

/-- the body of the loop in `setup_tau_info_list` for a reflection within the cutoff, `.cc:204-255` -/
def tauOf (xsFactor : ℝ) (ki : V3 ℝ) (p : Peak) : Option Tau := do
  let kl := length ki
  let rhoLength := length (ki - p.tau)
  let rho := p.toLocal ki - ⟨p.tauLength, 0, 0⟩
  let n := (← divD 1 rhoLength) • rho
  let o := (kl - rhoLength) • n
  let b1 := normalVec n
  let b2 := n.cross b1
  let n11 := p.m1 * b1.x * b1.x + p.m2 * b1.y * b1.y + p.m3 * b1.z * b1.z
  let n12 := p.m1 * b1.x * b2.x + p.m2 * b1.y * b2.y + p.m3 * b1.z * b2.z
  let n22 := p.m1 * b2.x * b2.x + p.m2 * b2.y * b2.y + p.m3 * b2.z * b2.z
  let det := n11 * n22 - n12 * n12
  let i11 ← divD n22 det
  let i12 ← divD (-n12) det
  let i22 ← divD n11 det
  let l11 ← sqrtD (i11 / 2)
  let l12 ← divD i12 (2 * l11)
  let l22 ← sqrtD (i22 / 2 - l12 * l12)
  let detL := l11 * l22
  let tx := b1.x * p.m1 * o.x + b1.y * p.m2 * o.y + b1.z * p.m3 * o.z
  let ty := b2.x * p.m1 * o.x + b2.y * p.m2 * o.y + b2.z * p.m3 * o.z
  let y0x := -(tx * i11 + ty * i12)
  let y0y := -(tx * i12 + ty * i22)
  let alpha := p.m1 * o.x * o.x + p.m2 * o.y * o.y + p.m3 * o.z * o.z -
    (y0x * y0x * n11 + y0y * y0y * n22 + 2 * y0x * y0y * n12)
  let refl ← divD (xsFactor * detL * Real.exp (-alpha)) p.sig123
  some { peak := p, refl := refl, xs := refl * p.F2 * 1e-2, rho := rho, o := o, b1 := b1, b2 := b2,
         l11 := l11, l12 := l12, l22 := l22, y0x := y0x, y0y := y0y }

/-- the loop in `setup_tau_info_list`, `.cc:184-284` -/
def tauLoop (tauMax xsFactor : ℝ) (ki : V3 ℝ) : List Peak → Option (List Tau)
  | [] => some []
  | p :: ps =>
    if p.tauLength > tauMax then some []
    else if |length (ki - p.tau) - length ki| > p.cutoff then tauLoop tauMax xsFactor ki ps
    else do
      let t ← tauOf xsFactor ki p
      some (t :: (← tauLoop tauMax xsFactor ki ps))

/-- `setup_tau_info_list` without the cache, `.cc:156-285` -/
def taus (V0 dd : ℝ) (ps : List Peak) (v : V3 ℝ) : Option (List Tau) := do
  let ki := v2k • v
  let kl := length ki
  let tauMax ← divD (2 * kl) (1 - 5 * dd)
  let f ← divD ((2 * Real.pi) ^ (5 / 2 : ℝ)) (V0 * kl * kl)
  tauLoop tauMax f ki ps

/-- `total_refl`, `.cc:244` -/
def totalRefl (ts : List Tau) : ℝ := (ts.map (·.refl)).sum

/-- `total_xs`, `.cc:254` -/
def totalXs (ts : List Tau) : ℝ := (ts.map (·.xs)).sum

/-- `scattering_coefficient`, `.cc:299-304, 335-341`, for a list of reflections -/
def coefficient (V0 : ℝ) (ts : List Tau) : Option ℝ := do some ((← divD (totalXs ts) V0) * 100)

/-- search for the reflection, `.cc:369-375`; `j` counts, `s` is the sum so far -/
def pickLoop (r : ℝ) : Nat → ℝ → List ℝ → Option Nat
  | _, _, [] => none
  | j, s, w :: ws => if s + w > r then some j else pickLoop r (j + 1) (s + w) ws

/-- the reflection chosen by `.cc:368-380` -/
def pick (ts : List Tau) (u : ℝ) : Nat :=
  match pickLoop (random u 0 (totalRefl ts)) 0 0 (ts.map (·.refl)) with
  | some j => j
  | none => ts.length - 1

/-- final wave vector in local coordinates before it is scaled, `.cc:389-393` -/
def Tau.kf (t : Tau) (z1 z2 : ℝ) : V3 ℝ :=
  let y1 := t.l11 * z1 + t.y0x
  let y2 := t.l12 * z1 + t.l22 * z2 + t.y0y
  t.rho + t.o + y1 • t.b1 + y2 • t.b2

/-- final velocity, `.cc:395-411` -/
def Tau.velocity (t : Tau) (v : V3 ℝ) (z1 z2 : ℝ) : Option (V3 ℝ) := do
  let kf := t.kf z1 z2
  let adjust ← divD (length v * v2k) (length kf)
  some (k2v • t.peak.toWorld (adjust • kf))

/-- `scatter`, `.cc:358-414`, after the list has been set up; `z1`, `z2` are the results of `normal_distrib_rand` -/
def scatter (V0 : ℝ) (ts : List Tau) (u z1 z2 : ℝ) (ev : Ev) : Option Ev :=
  if totalRefl ts ≤ 0 then some { ev with p := -1 }
  else do
    let t ← ts[pick ts u]?
    let v ← t.velocity ev.v z1 z2
    let w ← divD (t.xs * totalRefl ts) (totalXs ts * t.refl)
    some { ev with v := v, p := ev.p * w * (← coefficient V0 ts) }

/-- a kernel: `SingleCrystalDiffractionKernel.h:59-65` without absorption, and the list made by the constructor of `Details`, `.cc:110-149` -/
structure Crystal where
  V0 : ℝ
  dd : ℝ
  peaks : List Peak

/-- the members of `Details` that depend on the last neutron, `.cc:94-99`: its velocity and the list -/
abbrev Cache := Option (V3 ℝ × Option (List Tau))

/-- `setup_tau_info_list` with the cache, `.cc:159-160, 293-295` -/
def setup (K : Crystal) (c : Cache) (v : V3 ℝ) : Cache :=
  match c with
  | some (v0, ts) => if v0 = v then some (v0, ts) else some (v, taus K.V0 K.dd K.peaks v)
  | none => some (v, taus K.V0 K.dd K.peaks v)

/-- the list of reflections held by the cache (`taulist`, `.cc:94`) -/
def held (c : Cache) : Option (List Tau) := c.bind (·.2)

/-- the member functions of the kernel, `.cc:323-414` -/
inductive Call where
  | scatter (u z1 z2 : ℝ) (ev : Ev)
  | coefficient (ev : Ev)

/-- a call changes the cache and returns an event or a number, `.cc:335-341, 358-414` -/
def call (K : Crystal) (c : Cache) : Call → Cache × Option (Ev ⊕ ℝ)
  | .scatter u z1 z2 ev =>
    let c' := setup K c ev.v
    (c', do some (.inl (← scatter K.V0 (← held c') u z1 z2 ev)))
  | .coefficient ev =>
    let c' := setup K c ev.v
    (c', do some (.inr (← coefficient K.V0 (← held c'))))

/-- a sequence of calls of the same kernel (`.cc:323-414`) -/
def calls (K : Crystal) : Cache → List Call → List (Option (Ev ⊕ ℝ))
  | _, [] => []
  | c, x :: xs => (call K c x).2 :: calls K (call K c x).1 xs

/-- the list of reflections passed to C++, `BoostPythonBinding.py:52-64`: `hkllist` without those of no strength, sorted
by the length of the lattice vector.  Equal lengths are ordered by `(h, k, l, F2)` in python; here they keep their order. -/
def hkls (lat : Lat) (l : List HKL) : List HKL :=
  (l.filter fun q => q.F2 > 0).mergeSort fun p q =>
    length (p.h • lat.ra + p.k • lat.rb + p.l • lat.rc) ≤ length (q.h • lat.ra + q.k • lat.rb + q.l • lat.rc)

/-- `singlecrystaldiffractionkernel`, `BoostPythonBinding.py:30-68`, with the constructors of C++ (`.cc:110-149, 306-321`) -/
def create (a b c : V3 ℝ) (l : List HKL) (mosaic dd : ℝ) : Except Err (Option Crystal) :=
  match lattice a b c with
  | none => .ok none
  | some lat =>
    if hkls lat l = [] then .error .assertionError
    else .ok (do some ⟨lat.V0, dd, ← (hkls lat l).mapM (peak lat mosaic dd)⟩)

end
end Verif.Bragg
