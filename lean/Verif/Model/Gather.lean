import Verif.Model.Run
import Mathlib.Data.List.Defs
/-!
Which files the post-processing finds: `packages/mcni/python/mcni/components/HistogramBasedMonitorMixin.py`,
`packages/mcni/python/mcni/components/outputs.py` and `packages/mcni/python/mcni/components/NeutronToStorage.py`, with
`packages/mcni/python/mcni/pyre_components/NeutronToStorage.py`.

Paths are lists of names; names `.` and `..` are not modelled. The rules of `glob` are those of the library of python
(component by component, with `*`, `?` and sets in brackets).
-/

namespace Verif.Gather

/-- names and paths, as in `os.path.join(outdir, '*', histogramfilename)`, `HistogramBasedMonitorMixin.py:61` -/
abbrev Name := List Char

/-- a path as the list of its names, `HistogramBasedMonitorMixin.py:61` -/
abbrev Path := List Name

/-- what a pattern given to `glob.glob` consists of, `HistogramBasedMonitorMixin.py:62` -/
inductive Tok where
  | star
  | any
  | lit (c : Char)
  | set (neg : Bool) (items : List Char)

/-- the rest of a set after `[`: whether it is negated, its characters, and what comes after; `none` without a closing
bracket (then `[` stands for itself), for `glob.glob` of `HistogramBasedMonitorMixin.py:62` -/
def takeSet (p : List Char) : Option (Bool × List Char × List Char) :=
  let neg := p.head? = some '!'
  let q := if neg then p.drop 1 else p
  let first := q.take 1
  if q = [] then none
  else if ']' ∈ q.drop 1 then
    some (neg, first ++ (q.drop 1).takeWhile (· ≠ ']'), ((q.drop 1).dropWhile (· ≠ ']')).drop 1)
  else none

/-- a character in a set with ranges, for `glob.glob` of `HistogramBasedMonitorMixin.py:62` -/
def setHas : List Char → Char → Bool
  | a :: '-' :: b :: r, c => (decide (a ≤ c) && decide (c ≤ b)) || setHas r c
  | a :: r, c => a == c || setHas r c
  | [], _ => false

/-- the pieces of a pattern (the number is at least the length), for `glob.glob` of `HistogramBasedMonitorMixin.py:62` -/
def tokens : Nat → List Char → List Tok
  | 0, _ => []
  | _, [] => []
  | n + 1, c :: p =>
    if c = '*' then .star :: tokens n p
    else if c = '?' then .any :: tokens n p
    else if c = '[' then
      match takeSet p with
      | some (neg, s, r) => .set neg s :: tokens n r
      | none => .lit '[' :: tokens n p
    else .lit c :: tokens n p

/-- a name fits the pieces of a pattern, for `glob.glob` of `HistogramBasedMonitorMixin.py:62` -/
def fits : List Tok → Name → Bool
  | [], s => s.isEmpty
  | .star :: p, s => s.tails.any (fits p)
  | .any :: p, s => match s with
    | [] => false
    | _ :: s => fits p s
  | .lit c :: p, s => match s with
    | [] => false
    | d :: s => c == d && fits p s
  | .set neg items :: p, s => match s with
    | [] => false
    | d :: s => (setHas items d != neg) && fits p s

/-- a name in a pattern with special characters, for `glob.glob` of `HistogramBasedMonitorMixin.py:62` -/
def magic (p : Name) : Bool := p.any fun c => c == '*' || c == '?' || c == '['

/-- hidden files, for `glob.glob` of `HistogramBasedMonitorMixin.py:62` -/
def hidden (s : Name) : Bool := s.head? == some '.'

/-- a name of a pattern and a name of a file, for `glob.glob` of `HistogramBasedMonitorMixin.py:62` -/
def nameFits (p s : Name) : Bool :=
  if magic p then (hidden p || !hidden s) && fits (tokens p.length p) s else s == p

/-- a pattern and the path of a file, for `glob.glob` of `HistogramBasedMonitorMixin.py:62` -/
def pathFits : Path → Path → Bool
  | [], [] => true
  | p :: ps, s :: ss => nameFits p s && pathFits ps ss
  | _, _ => false

/-- `glob.glob(os.path.join(outdir, '*', name))` with the contents of the files, `HistogramBasedMonitorMixin.py:61-64`,
`outputs.py:42-44`, `NeutronToStorage.py:108-109` -/
def gather {C : Type} (files : List (Path × C)) (outdir : Path) (name : Name) : List (Path × C) :=
  files.filter fun f => pathFits (outdir ++ [['*'], name]) f.1

/-- `number_mc_samples_filename`, `outputs.py:28` -/
def samplesName : Name := "number_of_mc_samples".toList

/-- the files of data of one component and the files with numbers of samples. Simplification: both kinds are kept apart.
`HistogramBasedMonitorMixin.py:58-89` -/
structure Disk (C F : Type) where
  data : List (Path × C)
  numbers : List (Path × F)

/-- writing a file (an older one is replaced), as `AbstractInstrumentSimulator.py:50-60` of
`packages/mcni/python/mcni/instrument_simulator` does -/
def write {C : Type} (files : List (Path × C)) (path : Path) (c : C) : List (Path × C) :=
  (path, c) :: files.filter fun f => f.1 != path

/-- one step of one process: its data and the number of its neutrons, `AbstractInstrumentSimulator.py:50-60` -/
structure Step (C F : Type) where
  (rank step : Nat)
  data : C
  n : F

/-- the file of a step: `getOutputDirInProgress` of `packages/mcni/python/mcni/SimulationContext.py:36-57` and the name of the
file, `HistogramBasedMonitorMixin.py:15-26` -/
def place {C F : Type} (outdir : Path) (name : Name) (size : Nat) (s : Step C F) : Path :=
  outdir ++ [Run.stepDir size s.rank s.step, name]

/-- what the steps of a simulation write, one after the other, `HistogramBasedMonitorMixin.py:15-26`,
`AbstractInstrumentSimulator.py:50-60`. Simplification: processes take turns (their files are different, C11). -/
def record {C F : Type} (outdir : Path) (name : Name) (size : Nat) : List (Step C F) → Disk C F → Disk C F
  | [], d => d
  | s :: ss, d => record outdir name size ss
      ⟨write d.data (place outdir name size s) s.data, write d.numbers (place outdir samplesName size s) s.n⟩

/-- `hist_mcs_sum`, `HistogramBasedMonitorMixin.py:58-89` -/
def histMcsSum {H F : Type} [Add H] [Zero F] [Add F] (d : Disk (Run.Hist H) F) (outdir : Path) (name : Name) :
    Except Err (Option (Run.Hist H × F)) :=
  Run.histSum ((gather d.data outdir name).map Prod.snd) ((gather d.numbers outdir samplesName).map Prod.snd)

/-- the numbers that `merge_and_normalize` divides, `HistogramBasedMonitorMixin.py:31-43`: without files `h.I` fails.
Simplification: the division and the file are left out, and the sum is that of one process (C12 is about several). -/
def mergeHist {H F : Type} [Add H] [Zero F] [Add F] (d : Disk (Run.Hist H) F) (outdir : Path) (name : Name) :
    Except Err (Run.Hist H × F) := do
  match ← histMcsSum d outdir name with
  | none => throw .attributeError
  | some r => return r

/-! ### storages of neutrons -/

/-- the `path` of a storage, `packages/mcni/python/mcni/pyre_components/NeutronToStorage.py:35-36` -/
structure Target where
  absolute : Bool
  names : Path

/-- `os.path.join(outdir, path)`, `packages/mcni/python/mcni/pyre_components/NeutronToStorage.py:53-56`; the output directory is
an absolute path here -/
def Target.file {C F : Type} (t : Target) (outdir : Path) (size : Nat) (s : Step C F) : Path :=
  if t.absolute then t.names else outdir ++ [Run.stepDir size s.rank s.step] ++ t.names

/-- files and directories, `packages/mcni/python/mcni/components/NeutronToStorage.py:70-88` -/
structure Fs (C F : Type) where
  dirs : List Path
  disk : Disk C F

/-- `process` of the storage, `packages/mcni/python/mcni/pyre_components/NeutronToStorage.py:46-60` with
`packages/mcni/python/mcni/components/NeutronToStorage.py:80-87` and the number of samples of the step: the directory of the step is
made (`SimulationContext.py:54-55`), those in `path` are not -/
def storeStep {C F : Type} (t : Target) (overwrite : Bool) (outdir : Path) (size : Nat) (s : Step C F) (fs : Fs C F) :
    Except Err (Fs C F) :=
  let file := t.file outdir size s
  let dirs := (outdir ++ [Run.stepDir size s.rank s.step]) :: fs.dirs
  if !overwrite && (fs.disk.data.any fun f => f.1 == file) then .error .runtimeError
  else if file.dropLast ∉ dirs then .error .ioError
  else .ok ⟨dirs, write fs.disk.data file s.data, write fs.disk.numbers (place outdir samplesName size s) s.n⟩

/-- all steps of a simulation, `packages/mcni/python/mcni/pyre_support/Instrument.py:137-149` -/
def storeAll {C F : Type} (t : Target) (overwrite : Bool) (outdir : Path) (size : Nat) : List (Step C F) → Fs C F →
    Except Err (Fs C F)
  | [], fs => .ok fs
  | s :: ss, fs => do storeAll t overwrite outdir size ss (← storeStep t overwrite outdir size s fs)

/-- the files that `merge_and_normalize_serial` merges, and the sum of the numbers of samples,
`packages/mcni/python/mcni/components/NeutronToStorage.py:61-65,103-133`: the name is the last one of `path` -/
def mergeFiles {C F : Type} [Zero F] [Add F] (d : Disk C F) (outdir : Path) (t : Target) : Except Err (List C × F) :=
  let files := gather d.data outdir (t.names.getLast?.getD [])
  let numbers := gather d.numbers outdir samplesName
  if files.length ≠ numbers.length then .error .assertionError
  else .ok (files.map Prod.snd, (numbers.map Prod.snd).foldr (· + ·) 0)

end Verif.Gather
