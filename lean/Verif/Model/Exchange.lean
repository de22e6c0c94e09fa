import Verif.Model.Kinem
import Verif.Model.IdfNeutron
import Mathlib.Analysis.SpecialFunctions.Complex.Arg
/-!
Exchange of neutrons with other programs:
`packages/mcni/lib/neutron/to_mcpl.cc`, `packages/mcni/python/mcni/neutron_storage/mcpl.py`,
`packages/legacycomponents/vitess/lib/{mcvine2vitess,vitess2mcvine,utils}.h`,
`packages/legacycomponents/vitess/vitess/convert_neutrons.py` and the subcommands of
`packages/mcvine/python/mcvine/cli/neutronstorage.py`.

Real numbers instead of doubles.  A result that is not a number is `none`.  The MCPL library itself (byte layout, packing
of directions, compression) is not modelled: an MCPL file is the list of its particles, read in blocks.
-/

namespace Verif.Exchange
open Solid Flight Homog Kinem
noncomputable section

/-- the members of `mcpl_particle_t` filled in `to_mcpl.cc:58-82` (`pdgcode` is always 2112) -/
@[ext] structure Particle where
  position : V3 ℝ
  ekin : ℝ
  direction : V3 ℝ
  polarisation : V3 ℝ
  time : ℝ
  weight : ℝ

/-- one round of the loop of `write_mcpl`, `to_mcpl.cc:57-86`; the direction of a neutron at rest is 0/0
(lines 69-71) -/
def toParticle (ev : Event ℝ) : Option Particle := do
  let vl := length ev.v
  let dx ← divD ev.v.x vl
  let dy ← divD ev.v.y vl
  let dz ← divD ev.v.z vl
  some {
    position := ⟨ev.r.x * 100, ev.r.y * 100, ev.r.z * 100⟩
    ekin := v2E vl / 1e9
    direction := ⟨dx, dy, dz⟩
    polarisation := ⟨Real.sin ev.s1 * Real.sin ev.s2, Real.cos ev.s1, Real.sin ev.s1 * Real.cos ev.s2⟩
    time := ev.t * 1e3
    weight := ev.p }

/-- `write_mcpl`, `to_mcpl.cc:20-92`, and `mcv2mcpl`, `mcpl.py:50-55` -/
def writeMcpl (evs : List (Event ℝ)) : Option (List Particle) := evs.mapM toParticle

/-- `myfile.particle_blocks`, `mcpl.py:20`: the particles in blocks of `k` (10000 in the MCPL library); no block for a
file without particles -/
def blocks (k : ℕ) (ps : List Particle) : List (List Particle) := Idf.chunkN k ((ps.length + (k - 1)) / k) ps

/-- numpy `arctan2(y, x)` (used in `mcpl.py:33`), for real arguments -/
def arctan2 (y x : ℝ) : ℝ := Complex.arg ⟨x, y⟩

/-- one particle of the body of the loop, `mcpl.py:21-37`.  `conversion.e2v`, `utils/conversion.py:29-31`, is the same
formula with the same constants as `E2v` of `units_conversion.cc`; it is not a number for a negative energy. -/
def fromParticle (pb : Particle) : Option (Event ℝ) := do
  let v ← E2v (pb.ekin * 1e9)
  let ss := pb.polarisation.x * pb.polarisation.x + pb.polarisation.y * pb.polarisation.y +
    pb.polarisation.z * pb.polarisation.z
  some {
    r := ⟨pb.position.x / 100, pb.position.y / 100, pb.position.z / 100⟩
    v := ⟨v * pb.direction.x, v * pb.direction.y, v * pb.direction.z⟩
    s1 := if ss ≤ 0 then 0 else Real.arccos (pb.polarisation.y / √ss)
    s2 := if ss ≤ 0 then 0 else arctan2 pb.polarisation.x pb.polarisation.z
    t := pb.time / 1e3
    p := pb.weight }

/-- `mcpl2mcv`, `mcpl.py:13-48`: the rows written to the new file.  `np.concatenate` of an empty list is a `ValueError`
(line 41). -/
def mcpl2mcv (bs : List (List Particle)) (scale : Bool) : Except Err (List (Option (Event ℝ))) :=
  if bs.isEmpty then .error .valueError
  else
    let arr := (bs.map fun pb => pb.map fromParticle).flatten
    let N : ℝ := arr.length
    .ok (if scale then arr.map fun row => row.map fun ev => { ev with p := ev.p * N } else arr)

/-- `mcvine neutronstorage from_mcpl`, `cli/neutronstorage.py:102-109`: the weights are scaled if no option is given -/
def fromMcplCli (bs : List (List Particle)) (option : Option Bool) : Except Err (List (Option (Event ℝ))) :=
  mcpl2mcv bs (option.getD true)

/-- `vitess::Neutron`, `vitess/lib/neutron.h:15-26` (identification, debug and colour members are left out; `Spin` is
never set) -/
@[ext] structure VNeutron where
  time : ℝ
  wavelength : ℝ
  probability : ℝ
  position : V3 ℝ
  vector : V3 ℝ

/-- `wavelength`, `vitess/lib/utils.h:14-22` -/
def wavelength (v : V3 ℝ) : Option ℝ := divD (2 * Real.pi) (v2k * √(v.x * v.x + v.y * v.y + v.z * v.z))

/-- `mcvineneutron2vitessneutron`, `vitess/lib/mcvine2vitess.h:20-39`.  Simplification: an infinite wavelength is `none`
for the whole neutron. -/
def toVitess (ev : Event ℝ) : Option VNeutron := do
  let w ← wavelength ev.v
  some ⟨ev.t, w, ev.p, ev.r, ev.v⟩

/-- `vitessneutron2mcvineneutron`, `vitess/lib/vitess2mcvine.h:18-29`: the spin `s1`, `s2` of the event is kept -/
def fromVitess (n : VNeutron) (ev : Event ℝ) : Event ℝ :=
  { ev with t := n.time, p := n.probability, r := n.position, v := n.vector }

/-- one row of `vitess2mcvine_npyarr`, `convert_neutrons.py:29-57` -/
def fromVitessPy (n : VNeutron) : Option (Event ℝ) := do
  let v ← divD 3956.0346 n.wavelength
  some ⟨⟨0.01 * n.position.y, 0.01 * n.position.z, 0.01 * n.position.x⟩,
    ⟨v * n.vector.y, v * n.vector.z, v * n.vector.x⟩, 0, 0, 0.001 * n.time, n.probability⟩

end

/-- `mcvine neutronstorage extract`, `cli/neutronstorage.py:42-57`, from the bytes of the input file to those of the
output file; comparing with `None` is a `TypeError` (line 48).  `n` is not 0, so that `read` does not return `None`. -/
def extract (f : List UInt8) (start : Int) (stop : Option Int) : Except Err (List UInt8) :=
  match stop with
  | none => .error .typeError
  | some e =>
    if start ≥ e then .error .valueError
    else
      match Idf.readWindow f start (e - start) with
      | .error er => .error er
      | .ok none => .error .typeError
      | .ok (some rows) => .ok (Idf.write (.rows rows) []).1

/-- the range of `mcvine neutronstorage print`, `cli/neutronstorage.py:83-92`: start and number of the neutrons -/
def printRange (start : Int) (stop n : Option Int) : Except Err (Int × Int) :=
  match stop, n with
  | some _, some _ => .error .runtimeError
  | none, none => .error .typeError
  | some e, none => if e - start ≤ 0 then .error .valueError else .ok (start, e - start)
  | none, some m => if m ≤ 0 then .error .valueError else .ok (start, m)

end Verif.Exchange
