import Verif.Model.Base
/-!
The result cache of commands: `packages/mcvine/python/mcvine/cli/_provenance.py`.
Python strings are lists of characters.
-/

namespace Verif.Cache

/-- Python `str`, the type of the values formatted in `_provenance.py:91-97` -/
abbrev Str := List Char

/-- `' '.join(l)`, `_provenance.py:94,96` -/
def joinSp : List Str → Str
  | [] => []
  | [a] => a
  | a :: b :: l => a ++ ' ' :: joinSp (b :: l)

/-- Python's `sorted` on strings, `_provenance.py:95`: insertion by the
lexicographic order of code points. -/
def insertSorted (a : Str) : List Str → List Str
  | [] => [a]
  | b :: l => if a ≤ b then a :: b :: l else b :: insertSorted a l

/-- `sorted(args)`, `_provenance.py:95` -/
def sorted : List Str → List Str
  | [] => []
  | a :: l => insertSorted a (sorted l)

/-- `arg_str(params, args)`, `_provenance.py:91-97`.  `params` is the dictionary
in insertion order with values already rendered by `%s`; `plist` (line 93) is
computed but not used by the code, and `' '.join(params)` iterates the keys. -/
def argStr (params : List (Str × Str)) (args : List Str) : Str :=
  let pstr := joinSp (params.map Prod.fst)
  let astr := joinSp (sorted args)
  pstr ++ ' ' :: astr

/-- `unique_identifier`, `_provenance.py:100-106`; `md5` is an arbitrary function. -/
def uniqueIdentifier (md5 : Str → Str) (params : List (Str × Str)) (args : List Str) : Str :=
  md5 (argStr params args)

/-- `cache_path`, `_provenance.py:109-112`, as the list of path components
below the cache root (`cmdpath.split()` given as a list). -/
def cachePath (md5 : Str → Str) (cmd : List Str) (params : List (Str × Str)) (args : List Str) : List Str :=
  cmd ++ [uniqueIdentifier md5 params args]

/-- The command line with which `--keep-in-cache` re-runs the command,
`_provenance.py:61`, as the argument part after `cmdpath`. -/
def rerunArgs (params : List (Str × Str)) (args : List Str) : Str := argStr params args

/-- The `--use-cache` / `--keep-in-cache` behaviour of `save_metadata`,
`_provenance.py:30-72`, over a cache (map from paths to results) and the command
itself `f` (a function of parameters and arguments).  Simplification: the
re-run in a subprocess (line 61-62) is taken as running `f` with the same
parameters. -/
def invoke {R} (md5 : Str → Str) (f : List (Str × Str) → List Str → R) (cmd : List Str)
    (useCache keep : Bool) (params : List (Str × Str)) (args : List Str)
    (cache : List Str → Option R) : R × (List Str → Option R) :=
  let path := cachePath md5 cmd params args
  match (if useCache then cache path else none) with
  | some r => (r, cache)
  | none =>
    let r := f params args
    (r, if keep then fun p => if p = path then some r else cache p else cache)

end Verif.Cache
