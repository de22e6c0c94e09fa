import Verif.Model.Launch
import Verif.Model.Facility
/-!
Applications made from a list of components: `packages/mcvine/python/mcvine/applications/InstrumentBuilder.py`; the scripts that are run
afterwards: `packages/mcni/python/mcni/__init__.py`.

Text is a list of characters.  Not modelled: the texts printed and the log file.
-/

namespace Verif.Builder

open Verif.Launch (Text)

/-! ### the command -/

/-- `os.path.join(workdir, name)` for a directory without slash at its end, `InstrumentBuilder.py:32, 46, 50` -/
def inDir (workdir name : Text) : Text := workdir ++ '/' :: name

/-- `'"%s"' % a`, `InstrumentBuilder.py:45` -/
def quote (a : Text) : Text := '"' :: (a ++ ['"'])

/-- `ppsd`, `InstrumentBuilder.py:46` -/
def ppsd (workdir : Text) : Text := inDir workdir "post-processing-scripts".toList

/-- `sysargs`, `InstrumentBuilder.py:45-47`; `argv` is `sys.argv[1:]` -/
def sysargs (workdir : Text) (argv : List Text) : Text :=
  Launch.join (argv.map quote) ++ " --post-processing-scripts-dir=".toList ++ ppsd workdir

/-- what is written into `run.sh`, `InstrumentBuilder.py:49-52` -/
def runSh (python workdir : Text) (argv : List Text) : Text :=
  python ++ ' ' :: (inDir workdir "simapp.py".toList ++ ' ' :: (sysargs workdir argv ++ ['\n']))

/-! ### the number of nodes -/

/-- `int(v)`, `InstrumentBuilder.py:81`; signs, white space and underscores are not modelled (refused here) -/
def int (v : Text) : Except Err Nat :=
  if v = [] ∨ v.all Char.isDigit = false then .error .valueError else .ok (v.foldl (fun n c => 10 * n + (c.toNat - '0'.toNat)) 0)

/-- `'.nodes' in a`, `InstrumentBuilder.py:75` -/
def mentions (a : Text) : Bool := (Facility.cut ".nodes".toList a).isSome

/-- `_get_nodes_option`, `InstrumentBuilder.py:73-82`; the list is `sys.argv` -/
def nodesOption : List Text → Except Err Nat
  | [] => .ok 1
  | a :: as =>
    if "--".toList.isPrefixOf a ∧ mentions a then
      match Facility.split2 ['='] a with
      | .error e => .error e
      | .ok (opt, v) => if ".nodes".toList.isSuffixOf opt then int v else .error .assertionError
    else nodesOption as

/-! ### running -/

/-- what `run` does, `InstrumentBuilder.py:59, 63, 66`: the simulation is started with `run.sh`, a script is run with a command, the work
directory is removed -/
inductive Act
  | simulation (script : Text)
  | post (command : Text)
  | cleanup
  deriving DecidableEq

/-- `run_ppsd_in_parallel`, `mcni/__init__.py:75-84` and `_exec`, `mcni/__init__.py:69-72`: `scripts` are the files found, `status` is the result of
`os.system` -/
def runPpsd (launcher python : Text) (status : Text → Nat) (nodes : Nat) : List Text → List Act × Except Err Unit
  | [] => ([], .ok ())
  | script :: more =>
    match Launch.buildLaunchCmd launcher nodes (python ++ ' ' :: script) with
    | .error e => ([], .error e)
    | .ok cmd =>
      if status cmd ≠ 0 then ([.post cmd], .error .runtimeError)
      else
        let r := runPpsd launcher python status nodes more
        (.post cmd :: r.1, r.2)

/-- the surroundings of a run, `InstrumentBuilder.py:14, 30, 45, 49`, `_mpi_settings.py:10` -/
structure World where
  (launcher python workdir : Text)
  debug : Bool
  /-- `sys.argv` -/
  argv0 : Text
  argv : List Text
  /-- the return code of `bash run.sh`, `InstrumentBuilder.py:97` -/
  errcode : Text → Int
  /-- the scripts that the simulation has left, `mcni/__init__.py:78` -/
  scripts : List Text
  status : Text → Nat

/-- `_Proxy.run`, `InstrumentBuilder.py:27-67`, with `_exec`, `InstrumentBuilder.py:85-101`; `shlex.split` (line 91) is modelled for paths without
quotes and backslashes: with a space in the path there is no such script and `bash` fails -/
def run (w : World) : List Act × Except Err Unit :=
  let script := runSh w.python w.workdir w.argv
  if ' ' ∈ w.workdir then ([], .error .runtimeError)
  else if w.errcode script ≠ 0 then ([.simulation script], .error .runtimeError)
  else
    match nodesOption (w.argv0 :: w.argv) with
    | .error e => ([.simulation script], .error e)
    | .ok nodes =>
      match runPpsd w.launcher w.python w.status nodes w.scripts with
      | (acts, .error e) => (.simulation script :: acts, .error e)
      | (acts, .ok ()) => (.simulation script :: acts ++ (if w.debug then [] else [.cleanup]), .ok ())

/-! ### the inventory -/

/-- what a name stands for in the body of `class Inventory`, `InstrumentBuilder.py:108-118` -/
inductive Val
  | function
  | library
  | text (s : String)
  | facility (name : String)
  deriving DecidableEq

/-- the names in the body of the class, `InstrumentBuilder.py:108-118` -/
abbrev Env := String → Option Val

/-- an assignment, `InstrumentBuilder.py:113-114` -/
def set (env : Env) (n : String) (v : Val) : Env := fun m => if m = n then some v else env m

/-- `del`, `InstrumentBuilder.py:118` -/
def del (env : Env) (n : String) : Except Err Env :=
  match env n with
  | none => .error .nameError
  | some _ => .ok fun m => if m = n then none else env m

/-- the imports, `InstrumentBuilder.py:110-111` -/
def imports : Env := set (set (set (fun _ => none) "facility" .function) "component" .function) "mccomponents" .library

/-- one turn of the loop, `InstrumentBuilder.py:113-117`: in a class body `locals()` is the namespace of the class.  Names are
python identifiers; for others `exec` raises an exception. -/
def turn (env : Env) (name : String) : Except Err Env :=
  let env := set env "name" (.text name)
  let env := set env "code" (.text (name ++ " = facility(\"" ++ name ++ "\", default=\"mcni://optics/Dummy\" )"))
  match env "facility" with
  | some .function => .ok (set env name (.facility name))
  | some _ => .error .typeError
  | none => .error .nameError

/-- the loop, `InstrumentBuilder.py:113-117` -/
def turns : Env → List String → Except Err Env
  | env, [] => .ok env
  | env, n :: ns =>
    match turn env n with
    | .error e => .error e
    | .ok env => turns env ns

/-- the body of `class Inventory` in `_build`, `InstrumentBuilder.py:108-119` -/
def inventory (names : List String) : Except Err Env :=
  match turns imports names with
  | .error e => .error e
  | .ok env =>
    match del env "code" with
    | .error e => .error e
    | .ok env => del env "name"

end Verif.Builder
