import Verif.Model.Base
import Mathlib.Data.List.Infix
/-!
The sources that are made for components of McStas in a build with cmake:
`packages/legacycomponents/mcstas2/python/mcstas2/cmake_utils.py`; lines without a file are lines of it.
-/

namespace Verif.CmakeSrc

/-- names and lines, line 74 -/
abbrev Text := List Char

/-- a component: category and type (line 18), whether there is a factory for it already (lines 20-23), and the time of its file
(lines 26, 29) -/
structure Comp where
  (category type : Text)
  wrapped : Bool
  time : Nat

/-- `component_src_subdir`, lines 39-42 -/
def subdir (category type : Text) : Text := category ++ '_' :: type

/-- the directory of a component, line 27 -/
def Comp.dir (c : Comp) : Text := subdir c.category c.type

/-- the line for a directory, line 74 -/
def cmakeLine (dir : Text) : Text := "add_subdirectory".toList ++ '(' :: (dir ++ [')'])

/-- `_init_components_cmakefile`, lines 81-89 -/
def header : List Text :=
  ["add_custom_target".toList ++ '(' :: "wrap-mcstas-components-cmake)".toList,
   "add_dependencies".toList ++ '(' :: "wrap-mcstas-components-cmake reconfigure-to-include-mcstas-components)".toList]

/-- the file `CMakeLists.txt` as its lines (none: it does not exist or has only blanks, lines 68-71), and the directories with their times -/
structure Tree where
  lines : Option (List Text)
  dirs : List (Text × Nat)

/-- the lines after lines 68-77: a line is added if its text is nowhere in the file (it has no end of line, so it would be in one line) -/
def addLine (lines : Option (List Text)) (dir : Text) : List Text :=
  let ls := lines.getD header
  if ls.any fun l => decide (cmakeLine dir <:+: l) then ls else ls ++ [cmakeLine dir]

/-- `create_sources_for_a_component`, lines 45-78, at the time `now`. Simplification: the files in the directory are those of C355-C356, and a
directory that exists gets a new time -/
def create (now : Nat) (c : Comp) (t : Tree) : Tree :=
  ⟨some (addLine t.lines c.dir), (c.dir, now) :: t.dirs.filter fun d => d.1 != c.dir⟩

/-- the time of a directory, lines 28-29 -/
def timeOf (dirs : List (Text × Nat)) (d : Text) : Option Nat := (dirs.find? fun x => x.1 == d).map Prod.snd

/-- `bypass`, lines 19-32 -/
def bypass (c : Comp) (t : Tree) : Bool :=
  if !c.wrapped then false
  else match timeOf t.dirs c.dir with
    | some u => !decide (u < c.time)
    | none => true

/-- `create_sources_for_components`, lines 12-36 -/
def createAll (now : Nat) : List Comp → Tree → Tree
  | [], t => t
  | c :: cs, t => createAll now cs (if bypass c t then t else create now c t)

end Verif.CmakeSrc
