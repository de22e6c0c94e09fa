import Verif.Model.Base
/-!
Components of vitess, which are programs of their own: `packages/legacycomponents/vitess/vitess/Component.py`; lines without a file
are lines of it.
-/

namespace Verif.VitessRun

/-- names and commands, lines 36-38 -/
abbrev Text := List Char

/-- what is outside: the value of `VITESS_MODULES_DIR` (line 51), and what programs do: none if there is no program with this
path, otherwise its exit code and what it writes (lines 39-41); `ν` are neutrons as the program writes them -/
structure World (ν : Type) where
  dir : Option Text
  run : Text → Option (Nat × List ν)

/-- `_get_vitessmodulespath`, lines 50-55 -/
def modules {ν} (w : World ν) : Except Err Text :=
  match w.dir with
  | none => .error .runtimeError
  | some [] => .error .runtimeError
  | some d => .ok d

/-- the program, line 36; a module that is not given is no path. Simplification: absolute names and a `/` at the end are not modelled -/
def program (dir : Text) : Option Text → Except Err Text
  | none => .error .typeError
  | some m => .ok (dir ++ '/' :: m)

/-- the parameters, line 37: the loop goes over the keys of the dictionary (line 27) and takes each apart into two characters -/
def args : List (Text × Text) → Except Err (List Text)
  | [] => .ok []
  | ([a, b], _) :: ps =>
    match args ps with
    | .error e => .error e
    | .ok as => .ok (['-', a, ' ', b] :: as)
  | _ :: _ => .error .valueError

/-- `' '.join`, line 38 -/
def join : List Text → Text
  | [] => []
  | [t] => t
  | t :: ts => t ++ ' ' :: join ts

/-- what `communicate` returns, lines 39-40: what was written, if it goes into a pipe -/
def output {ν} (pipe : Bool) (written : List ν) : Option (List ν) := if pipe then some written else none

/-- numbers of Python, line 44: with `/` the quotient of two whole numbers is never a whole one -/
inductive Num where
  | int (n : Nat)
  | float (n : Nat)

/-- `resize` of a buffer, line 45, takes only whole numbers -/
def resize : Num → Except Err Nat
  | .int n => .ok n
  | .float _ => .error .typeError

/-- lines 41-46 after the program has run: the neutrons of the buffer; there is no length of `None` (line 44). A neutron takes
`VITESS_NEUTRON_SIZE` (line 17) characters, so the quotient is the number of neutrons -/
def finish {ν} (code : Nat) (out : Option (List ν)) : Except Err (List ν) :=
  if code ≠ 0 then .error .runtimeError
  else match out with
    | none => .error .typeError
    | some ns =>
      match resize (.float ns.length) with
      | .error e => .error e
      | .ok n => .ok (ns.take n)

/-- `process`, lines 34-47: the neutrons afterwards. The output of the program goes into no pipe (line 39), and the program has the path
of the whole command, as there is no shell (line 39). Simplification: what the program reads is part of `run` -/
def process {ν} (w : World ν) (module_ : Option Text) (params : List (Text × Text)) : Except Err (List ν) :=
  match modules w with
  | .error e => .error e
  | .ok d =>
    match program d module_ with
    | .error e => .error e
    | .ok p =>
      match args params with
      | .error e => .error e
      | .ok as =>
        match w.run (join (p :: as)) with
        | none => .error .ioError
        | some (code, written) => finish code (output false written)

end Verif.VitessRun
