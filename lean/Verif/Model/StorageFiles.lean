import Mathlib.Algebra.Field.Defs
import Verif.Model.Storage
/-!
Model of the operations on whole neutron files: merging, normalizing and
post-processing.

`packages/mcni/python/mcni/neutron_storage/_merge.py`,
`packages/mcni/python/mcni/neutron_storage/__init__.py`,
`packages/mcni/python/mcni/components/NeutronToStorage.py`,
`packages/mcni/python/mcni/components/NeutronFromStorage.py`,
`packages/mccomponents/python/mccomponents/detector/event_utils.py`.
-/

namespace Verif.Storage

/-- A neutron as stored, ten doubles: columns of the array in
`packages/mcni/python/mcni/neutron_storage/idfneutron.py:4-5`, filled by
`packages/mcni/lib/neutron/Ceventbuffer.cc:60-116`.  Doubles are elements of a
field `F`. -/
structure Neutron (F : Type) where
  x : F
  y : F
  z : F
  vx : F
  vy : F
  vz : F
  s1 : F
  s2 : F
  t : F
  p : F
  deriving DecidableEq, Repr

/-- Files by path; directories and permissions are left out.  Used by
`os.path.exists`, `open` in `Storage.py:55-74`. -/
abbrev FS (α : Type) := String → Option (List α)

/-- Change one entry of the file map (`open`, `os.remove`, `os.rename`: `Storage.py:74`,
`neutron_storage/__init__.py:78-87`). -/
def FS.set {α} (fs : FS α) (path : String) (c : Option (List α)) : FS α :=
  fun q => if q = path then c else fs q

/-- Loop of `merge`, `_merge.py:19-26`: read every input completely and write
it to `out`.  Returns the writer reached and the exception, if any. -/
def mergeLoop {α} (fs : FS α) : List String → Writer α → Writer α × Option Err
  | [], out => (out, none)
  | path :: rest, out =>
    match fs path with
    | none => (out, some .runtimeError)
    | some file =>
      match read (openRead file) none with
      | .error e => (out, some e)
      | .ok (none, _) => mergeLoop fs rest out
      | .ok (some ns, _) =>
        -- `if neutrons:` — an empty buffer is false
        if ns.isEmpty then mergeLoop fs rest out
        else match write out ns with
          | .error e => (out, some e)
          | .ok out => mergeLoop fs rest out

/-- `merge(paths, newpath)`, `_merge.py:9-27`, on a file map; the output storage
is closed by its destructor when the function is left (`Storage.py:243`),
normally or by an exception.  `bufsize` is the default buffer size of
`Storage.__init__` (10000 in the code). -/
def merge {α} (bufsize : Nat) (fs : FS α) (paths : List String) (newpath : String) :
    Except Err Unit × FS α :=
  if paths.length = 0 then (.error .assertionError, fs)
  else if (fs newpath).isSome then (.error .runtimeError, fs)
  else
    let fs1 := fs.set newpath (some [])
    let (out, e) := mergeLoop fs1 paths (openWrite bufsize [])
    let content := match close out with
      | .ok out => out.disk
      | .error _ => out.disk
    (match e with | none => .ok () | some e => .error e, fs1.set newpath (some content))

/-- `neutrons[:, -1] /= N`, `__init__.py:118`. -/
def scaleRow {F} [Field F] (N : F) (r : Neutron F) : Neutron F := { r with p := r.p / N }

/-- The loop `while remain:` of `_normalize`, `__init__.py:113-124`; `f` is what
happens to every row (line 118), `chunk` is `int(1e6)` in the code.  A chunk
size of 0 would loop for ever; it is made to stop here (the code's constant is
positive). -/
def normalizeLoop {α} (f : α → α) (chunk : Nat) (remain : Nat) (input : Reader α) (out : Writer α) :
    Except Err (Writer α) :=
  if _h : remain = 0 ∨ chunk = 0 then .ok out
  else
    let n := min remain chunk
    match read input (some (n : Int)) with
    | .error e => .error e
    | .ok (none, _) => .error .typeError
    | .ok (some ns, input) =>
      match write out (ns.map f) with
      | .error e => .error e
      | .ok out => normalizeLoop f chunk (remain - n) input out
termination_by remain
decreasing_by omega

/-- `_normalize(input, N, output)`, `__init__.py:91-125`. -/
def normalizeTo {α} (f : α → α) (bufsize chunk : Nat) (fs : FS α) (input output : String) :
    Except Err (FS α) :=
  if input = output then .error .assertionError
  else if (fs output).isSome then .error .ioError
  else match fs input with
    | none => .error .ioError
    | some file =>
      match normalizeLoop f chunk file.length (openRead file) (openWrite bufsize []) with
      | .error e => .error e
      | .ok out => match close out with
        | .error e => .error e
        | .ok out => .ok (fs.set output (some out.disk))

/-- `normalize(neutronsfile, N)` without `output`, `__init__.py:71-88`: write
to a fresh temporary name `tmp` (made by `mkstemp`, so not in use) and rename. -/
def normalize {α} (f : α → α) (bufsize chunk : Nat) (fs : FS α) (file tmp : String) :
    Except Err (FS α) :=
  match normalizeTo f bufsize chunk fs file tmp with
  | .error e => .error e
  | .ok fs1 => .ok ((fs1.set file (fs1 tmp)).set tmp none)

/-! ### crash points -/

/-- File system calls issued by the modelled functions: `open(...,'w')`,
`stream.write`, `os.remove`, `os.rename` (`Storage.py:74,271-278`,
`neutron_storage/__init__.py:78-87`). -/
inductive FsOp (α : Type) where
  | create (path : String)
  | append (path : String) (recs : List α)
  | remove (path : String)
  | rename (src dst : String)

/-- Effect of one call of `Storage.py:74,271-278`, `neutron_storage/__init__.py:78-87` (POSIX: `open` for writing truncates, `rename` replaces
the target atomically). -/
def FsOp.apply {α} (fs : FS α) : FsOp α → FS α
  | .create p => fs.set p (some [])
  | .append p rs => fs.set p (some ((fs p).getD [] ++ rs))
  | .remove p => fs.set p none
  | .rename a b => (fs.set b (fs a)).set a none

/-- What a call of `Storage.py:74,271-278`, `neutron_storage/__init__.py:78-87` may have done when the process dies in the middle of it:
appending may be torn at any point, the others are atomic.  The io buffer of
Python and `Storage._buffer` only delay appends, which is a torn append of the
pending data. -/
inductive FsOp.Torn {α} (fs : FS α) : FsOp α → FS α → Prop where
  | before (op : FsOp α) : FsOp.Torn fs op fs
  | after (op : FsOp α) : FsOp.Torn fs op (op.apply fs)
  | middle (p : String) (rs : List α) (k : Nat) :
      FsOp.Torn fs (.append p rs) (FsOp.apply fs (.append p (rs.take k)))

/-- States in which a crash can leave the file system while `ops` (calls of `neutron_storage/__init__.py:78-87`
or `event_utils.py:35-39`) run. -/
inductive Crash {α} : FS α → List (FsOp α) → FS α → Prop where
  | here (fs : FS α) : Crash fs [] fs
  | torn {fs fs' : FS α} {op : FsOp α} {ops : List (FsOp α)} :
      FsOp.Torn fs op fs' → Crash fs (op :: ops) fs'
  | later {fs fs' : FS α} {op : FsOp α} {ops : List (FsOp α)} :
      Crash (op.apply fs) ops fs' → Crash fs (op :: ops) fs'

/-- File system calls of `normalize(neutronsfile, N)`, `__init__.py:78-87`
with `_normalize` `105-124` in between: `batches` are the scaled chunks. -/
def normalizeOps {α} (file tmp : String) (batches : List (List α)) : List (FsOp α) :=
  [.create tmp, .remove tmp, .create tmp] ++ batches.map (.append tmp) ++ [.rename tmp file]

/-- File system calls of `normalizeEventFile`, `event_utils.py:35-39`:
`events.tofile(file)` opens the file itself for writing. -/
def normalizeEventFileOps {α} (file : String) (events : List α) : List (FsOp α) :=
  [.create file, .append file events]

/-- All calls of `neutron_storage/__init__.py:78-87` or `event_utils.py:35-39` executed (no crash). -/
def runOps {α} (fs : FS α) (ops : List (FsOp α)) : FS α := ops.foldl FsOp.apply fs

/-! ### post processing of a neutron storing component -/

/-- `merge_and_normalize_serial`,
`packages/mcni/python/mcni/components/NeutronToStorage.py:103-141`, on the list of
per-step neutron files and the list of per-step sample counts (the globbed
files; `mcs_sum` of `packages/mcni/python/mcni/components/outputs.py:31-39` is
the sum).  Result `none`: nothing to do.  Simplification: the removal of an old
output file (119-121) is left out; merging is list concatenation (C05). -/
def mergeAndNormalizeSerial {F} [Field F] [DecidableEq F] (files : List (List (Neutron F)))
    (mcsamples : List F) : Except Err (Option (List (Neutron F))) :=
  if files.length ≠ mcsamples.length then .error .assertionError
  else if files.length = 0 then .ok none
  else
    let out := files.flatten
    let nevts := out.length
    if nevts = 0 then .ok (some out)
    else
      let nfactor := mcsamples.sum / (nevts : F)
      .ok (some (out.map (scaleRow nfactor)))

/-- `mcni.neutron_storage.merge_and_normalize`,
`packages/mcni/python/mcni/neutron_storage/__init__.py:25-62`: the same without
the guard for an empty merged file; Python's float division by the integer 0
raises. -/
def mergeAndNormalizeLib {F} [Field F] [DecidableEq F] (files : List (List (Neutron F)))
    (mcsamples : List F) : Except Err (Option (List (Neutron F))) :=
  if files.length ≠ mcsamples.length then .error .assertionError
  else if files.length = 0 then .ok none
  else
    let out := files.flatten
    let nevts := out.length
    if nevts = 0 then .error .zeroDivision
    else
      let nfactor := mcsamples.sum / (nevts : F)
      .ok (some (out.map (scaleRow nfactor)))

/-! ### parallel replay -/

/-- `NeutronFromStorage._setCursor` followed by `Storage.read`, for one rank,
`packages/mcni/python/mcni/components/NeutronFromStorage.py:36-82`: rank 0 uses its
cursor, rank `i` the received message `cursor + i*n` (69, 72).  Messages are
delivered reliably and in order. -/
def replayRank {α} (cursor : Int) (i n : Nat) (s : Reader α) : Except Err (List α × Reader α) :=
  match seek s (cursor + i * n) .start with
  | (.error e, _) => .error e
  | (.ok (), s) => match read s (some (n : Int)) with
    | .error e => .error e
    | .ok (none, _) => .error .typeError
    | .ok (some a, s) => .ok (a, s)

/-- One call of `process` on all ranks with `n` neutrons each; ranks `i`, `i+1`, ...
hold the readers of the list.  `NeutronFromStorage.py:36-82`. -/
def replayRanks {α} (cursor : Int) (n : Nat) : Nat → List (Reader α) →
    Except Err (List (List α) × List (Reader α))
  | _, [] => .ok ([], [])
  | i, s :: ss => do
    let (a, s) ← replayRank cursor i n s
    let (as, ss) ← replayRanks cursor n (i + 1) ss
    return (a :: as, s :: ss)

/-- A run: round after round, `ns` gives the batch size of each round; the
master cursor advances by `mpisize*n` (`NeutronFromStorage.py:79-80`). -/
def replay {α} (cursor : Int) (ss : List (Reader α)) : List Nat → Except Err (List (List (List α)))
  | [] => .ok []
  | n :: ns => do
    let (as, ss') ← replayRanks cursor n 0 ss
    let rest ← replay (cursor + (ss.length : Int) * n) ss' ns
    return as :: rest

end Verif.Storage
