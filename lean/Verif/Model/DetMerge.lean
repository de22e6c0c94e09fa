import Verif.Spec.Launch
import Verif.Model.Facility
import Mathlib.Algebra.Field.Basic
/-!
The file of events of a detector system: `packages/mccomponents/python/mccomponents/detector/event_utils.py` and
`packages/mccomponents/python/mccomponents/detector/DetectorSystemFromXml.py`.

What a shell makes of a line is that of C273 (`Launch.shell`).
-/

namespace Verif.DetMerge

open Launch (Text shell)

/-- an event, `event_utils.py:22-26`; a weight that is not a number or infinite is `none` -/
structure Ev (F : Type) where
  (pixelID tofChannelNo : Nat)
  p : Option F

/-- the files that matter: files of text and files of events, `event_utils.py:35-55` -/
structure Fs (F : Type) where
  text : Text → Option Text
  events : Text → Option (List (Ev F))

variable {F : Type}

/-- `open(path, 'wt').write(t)`, `event_utils.py:50-51` -/
def Fs.writeText (fs : Fs F) (path t : Text) : Fs F := { fs with text := fun q => if q = path then some t else fs.text q }

/-- `> path` and `events.tofile(path)`, `event_utils.py:39, 52` -/
def Fs.writeEvents (fs : Fs F) (path : Text) (l : List (Ev F)) : Fs F := { fs with events := fun q => if q = path then some l else fs.events q }

/-- `ostream.write("%s\n" % f)` for all files, `event_utils.py:51` -/
def listing : List Text → Text
  | [] => []
  | f :: fs => f ++ '\n' :: listing fs

/-- what `xargs -d "\n"` reads (`event_utils.py:52`): the parts that end with a new line, and what follows the last one if there is something -/
def lines (t : Text) : List Text :=
  let l := Facility.splitAll '\n' t
  if l.getLast? = some [] then l.dropLast else l

/-- `os.path.join(outdir, name)`, `event_utils.py:49`, `DetectorSystemFromXml.py:84`, for a directory without a slash at its end -/
def inDir (outdir name : Text) : Text := outdir ++ '/' :: name

/-- the file with the list of files, `event_utils.py:47-49` -/
def filelist (outdir : Text) : Text := inDir outdir "eventfiles-to-merge.list".toList

/-- the command, `event_utils.py:52-54`: `words` are those behind the first `cat`, `out` the one behind `>`, which is emptied first. Files that the first `cat` does not find are only
mentioned in a message, since the result of a pipe is that of its last program; without any lines `xargs` runs `cat` once, which finds nothing to read. If the second `cat` does not find a file
there is an error. -/
def pipe (fs : Fs F) (words : List Text) (out : Text) : Except Err (Fs F) :=
  let input := words.flatMap fun w => (fs.text w).getD []
  let fs0 := fs.writeEvents out []
  if (lines input).all fun f => (fs0.events f).isSome then .ok (fs0.writeEvents out ((lines input).flatMap fun f => (fs0.events f).getD []))
  else .error .runtimeError

/-- `mergeEventFiles`, `event_utils.py:42-55`; `out` is `name` in the directory `outdir`; `undefinedBehaviour` is a command that `Launch.shell` does not describe -/
def mergeEventFiles (fs : Fs F) (files : List Text) (outdir name : Text) : Except Err (Fs F) :=
  let fs1 := fs.writeText (filelist outdir) (listing files)
  match shell ("cat ".toList ++ filelist outdir), shell ('"' :: (inDir outdir name ++ ['"'])) with
  | some (_ :: words), some [out] => pipe fs1 words out
  | _, _ => .error .undefinedBehaviour

variable [Field F] [DecidableEq F]

/-- `events['p'] /= n`, `event_utils.py:38`; division by zero gives no number -/
def scale (n : F) (e : Ev F) : Ev F := { e with p := if n = 0 then none else e.p.map (· / n) }

/-- `normalizeEventFile`, `event_utils.py:35-39` -/
def normalizeEventFile (fs : Fs F) (file : Text) (n : F) : Except Err (Fs F) :=
  match fs.events file with
  | none => .error .ioError
  | some l => .ok (fs.writeEvents file (l.map (scale n)))

/-- `os.remove(out)`, `DetectorSystemFromXml.py:85-87` -/
def Fs.remove (fs : Fs F) (path : Text) : Fs F := { fs with events := fun q => if q = path then none else fs.events q }

/-- `merge_and_normalize_serial`, `DetectorSystemFromXml.py:64-97`: `files` are the files that `glob` finds, in any order, `samples` the numbers in the files with the numbers of samples -/
def mergeAndNormalize (fs : Fs F) (files : List Text) (samples : List F) (outdir name : Text) (overwrite : Bool) : Except Err (Fs F) :=
  if files.length ≠ samples.length then .error .valueError
  else if files = [] then .ok fs
  else
    let fs := if overwrite then fs.remove (inDir outdir name) else fs
    match mergeEventFiles fs files outdir name with
    | .error e => .error e
    | .ok fs => normalizeEventFile fs (inDir outdir name) samples.sum

end Verif.DetMerge
