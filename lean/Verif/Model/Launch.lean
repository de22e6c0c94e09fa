import Verif.Model.Base
/-!
Starting of parallel programs: `packages/mcni/python/mcni/pyre_support/MPILauncherBase.py`, `LauncherSerial.py`, `MpiApplication.py`,
`MpiAppBase.py`, `_mpi_settings.py`; working directories: `packages/mcni/python/mcni/AbstractComponent.py`,
`packages/mccomponents/python/mccomponents/sample/__init__.py`; finding of components: `packages/mcni/python/mcni/_find_component.py`.

Text is a list of characters.
-/

namespace Verif.Launch

/-- text, `MPILauncherBase.py:39` -/
abbrev Text := List Char

/-- how one argument of the user is put into the command, `MPILauncherBase.py:80-88` (`find` gives the first `=`) -/
def quoteArg (arg : Text) : Text :=
  if '=' ∈ arg then arg.takeWhile (· ≠ '=') ++ "=\"".toList ++ (arg.dropWhile (· ≠ '=')).tail ++ "\"".toList else arg

/-- the settings of a launcher, `MPILauncherBase.py:26-31`, `LauncherBase.py:17` -/
structure Settings where
  (command nodesopt extra python : Text)
  nodes : Int
  dry : Bool

/-- `MPILauncherBase.__init__` with the defaults of `mpirun`, `MPILauncherBase.py:28-31`; `python` is the interpreter that runs -/
def mpirun (python : Text) (nodes : Int) : Settings := ⟨"mpirun".toList, "-np".toList, [], python, nodes, false⟩

/-- `LauncherSlurm._defaults`, `LauncherSlurm.py:17-22` -/
def slurm (python : Text) (nodes : Int) : Settings := ⟨"srun".toList, "-n".toList, [], python, nodes, false⟩

/-- `nodes` of the command, `MPILauncherBase.py:64-65` -/
def processes (nodes : Int) : Nat := if nodes < 2 then 1 else nodes.toNat

/-- `MPILauncherBase._buildArgumentList`, `MPILauncherBase.py:52-90`; `argv0` and `argv` are `sys.argv`.  The branch for an empty
`python_mpi` (lines 61-62, `_get_python_mpi` does not exist) raises an exception. -/
def mpiArgs (s : Settings) (argv0 : Text) (argv : List Text) : Except Err (List Text) :=
  if s.python = [] then .error .attributeError
  else .ok ([s.command, s.extra, s.nodesopt ++ " ".toList ++ Nat.toDigits 10 (processes s.nodes), s.python, argv0, "--mode=worker".toList] ++
    argv.map quoteArg)

/-- `LauncherSerial._buildArgumentList`, `LauncherSerial.py:49-57` -/
def serialArgs (argv0 : Text) (argv : List Text) : List Text := ["python".toList, argv0, "--mode=worker".toList] ++ argv

/-- `" ".join(args)`, `MPILauncherBase.py:39`, `LauncherSerial.py:31` -/
def join : List Text → Text
  | [] => []
  | [a] => a
  | a :: b :: as => a ++ ' ' :: join (b :: as)

/-- `build_launch_cmd`, `_mpi_settings.py:11-20`; `launcher` is the environment variable -/
def buildLaunchCmd (launcher : Text) (nodes : Nat) (cmd : Text) : Except Err Text :=
  if launcher = "mpirun".toList then .ok ("mpirun -np ".toList ++ Nat.toDigits 10 nodes ++ ' ' :: cmd)
  else if launcher = "slurm".toList then .ok ("srun -n ".toList ++ Nat.toDigits 10 nodes ++ ' ' :: cmd)
  else if launcher = "serial".toList then .ok cmd
  else .error .notImplemented

/-! ### the application -/

/-- what an application does, `MpiAppBase.py:40`, `MPILauncherBase.py:45`: run `main` in this process, or a command in a shell -/
inductive Action
  | main
  | system (command : Text)
  deriving DecidableEq

/-- `launch`, `MPILauncherBase.py:34-49`, `LauncherSerial.py:26-41`: the commands that were run and whether it was launched; `status` is the
result of `os.system` -/
def launch (dry : Bool) (status : Text → Nat) (args : List Text) : List Action × Except Err Bool :=
  if args = [] then ([], .ok false)
  else if dry then ([], .ok false)
  else ([.system (join args)], if status (join args) ≠ 0 then .error .runtimeError else .ok true)

/-- the settings of an application, `MpiAppBase.py:19-21`, `MpiApplication.py:55-61, 77` -/
structure App where
  worker : Bool
  nodes : Int
  mpi : Bool
  dry : Bool

/-- `_init` (`MpiApplication.py:75-84`), `execute` (`MpiAppBase.py:24-32`), `onServer` (`MpiApplication.py:64-72`), `onComputeNodes`
(`MpiAppBase.py:35-41`); `result` is the result of `main` -/
def execute (a : App) (status : Text → Nat) (args : List Text) (result : Except Err Unit) : List Action × Except Err Unit :=
  if a.nodes > 1 ∧ a.worker = true ∧ a.mpi = false then ([], .error .runtimeError)
  else if a.worker then ([.main], result)
  else
    match launch a.dry status args with
    | (acts, .error e) => (acts, .error e)
    | (acts, .ok true) => (acts, .ok ())
    | (acts, .ok false) => (acts, .error .runtimeError)

/-! ### working directories -/

/-- the directories: which exist, and where a path leads from a working directory (`AbstractComponent.py:92-93`, `os.chdir`) -/
structure Dirs where
  Path : Type
  here : Path → Bool
  resolve : Path → Text → Path

/-- `os.chdir`, `AbstractComponent.py:93, 98` -/
def chdir (D : Dirs) (to : D.Path) (cwd : D.Path) : Except Err Unit × D.Path :=
  if D.here to then (.ok (), to) else (.error .ioError, cwd)

/-- `run_in_dir` with `ChangeDirectory`, `AbstractComponent.py:83-105`: `__exit__` is run also after an exception, whose propagation it
does not stop; an exception in `__exit__` replaces it -/
def runInDir (D : Dirs) {α : Type} (func : D.Path → Except Err α × D.Path) (dir : Text) (cwd : D.Path) : Except Err α × D.Path :=
  match chdir D (D.resolve cwd dir) cwd with
  | (.error e, c) => (.error e, c)
  | (.ok _, c) =>
    let (r, c) := func c
    match chdir D cwd c with
    | (.error e, c) => (.error e, c)
    | (.ok _, c) => (r, c)

/-- `samplecomponent`, `sample/__init__.py:18-47`: `load` is what is done in the directory of the file (lines 31-38) -/
def samplecomponent (D : Dirs) {α : Type} (load : D.Path → Except Err α × D.Path) (dir : Text) (cwd : D.Path) : Except Err α × D.Path :=
  match chdir D (D.resolve cwd dir) cwd with
  | (.error e, c) => (.error e, c)
  | (.ok _, c) =>
    match load c with
    | (.error e, c) => (.error e, c)
    | (.ok a, c) =>
      match chdir D cwd c with
      | (.error e, c) => (.error e, c)
      | (.ok _, c) => (.ok a, c)

/-! ### finding of components -/

/-- a supplier: its categories and the types in a category, `component_suppliers.py:31-45`, `RegistryBase.py:29-38` -/
structure Supplier where
  categories : List String
  types : String → List String

/-- the loop over the categories of one supplier, `_find_component.py:31-43` (without the close matches, which are only used for a warning) -/
def inSupplier (type : String) (name : String) (s : Supplier) (category : Option String) : List (String × String) :=
  ((category.elim s.categories fun c => [c]).filter fun c => type ∈ s.types c).map fun c => (c, name)

/-- the loop over the suppliers, `_find_component.py:22-44`; an unknown name is a `KeyError` -/
def inSuppliers (all : List (String × Supplier)) (type : String) (category : Option String) : List String → Except Err (List (String × String))
  | [] => .ok []
  | n :: ns =>
    match all.lookup n with
    | none => .error .keyError
    | some s =>
      match inSuppliers all type category ns with
      | .error e => .error e
      | .ok l => .ok (inSupplier type n s category ++ l)

/-- `find`, `_find_component.py:15-60`; an empty name is not true (line 16) -/
def find (all : List (String × Supplier)) (type : String) (category supplier : Option String) : Except Err (Option (String × String × String)) :=
  match category, supplier with
  | some c, some s =>
    if c ≠ "" ∧ s ≠ "" then .ok (some (type, c, s))
    else search (some c) (some s)
  | c, s => search c s
where
  /-- `_find_component.py:19-60` -/
  search (category supplier : Option String) : Except Err (Option (String × String × String)) :=
    match inSuppliers all type category (supplier.elim (all.map Prod.fst) fun s => [s]) with
    | .error e => .error e
    | .ok [] => .ok none
    | .ok [(c, s)] => .ok (some (type, c, s))
    | .ok (_ :: _ :: _) => .error .runtimeError

end Verif.Launch
