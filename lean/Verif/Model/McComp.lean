import Verif.Model.McInstr
import Verif.Model.DataFiles
/-!
The parsing of components of McStas: `packages/legacycomponents/mcstas2/python/mcstas2/utils/parsers/McStasComponentParser.py`, the class
`Parameter` of `ComponentInfo.py` and `__init__.py` in the same directory.

Texts are lists of characters; only ascii white space and letters are considered.
-/

namespace Verif.McComp
open Facility McInstr

/-! ### the lists of parameters -/

/-- the first match of a pattern that begins with `^` (`re.MULTILINE`), `McStasComponentParser.py:427-434`; the flag is on at the beginning of
a line -/
def searchLines (is : List Item) : Bool → Txt → Option (List Txt)
  | b, [] => if b then matchAt is [] else none
  | b, c :: s => ((if b then matchAt is (c :: s) else none).or (searchLines is (c == '\n') s))

/-- the letters of a word, without regard to upper and lower case (`re.IGNORECASE`), `McStasComponentParser.py:139-145, 427` -/
def word (w : Txt) : List Item := w.map fun c => .one (letter c)

/-- `[ ]+`, `McStasComponentParser.py:152` -/
def gap : List Item := [.one (· == ' '), .star (· == ' ') false]

/-- `PARAM_PATTERN` with two words, `McStasComponentParser.py:139-145, 176-182`, with `re.DOTALL` -/
def listRe (w : Txt) : List Item :=
  .star blank false :: (word w ++ (gap ++ (word "PARAMETERS".toList ++
    [.star (fun c => !(c == '(')) false, .one (· == '('), .star (fun c => !(c == ')')) true, .one (· == ')')])))

/-- `DEF_COMP`, `McStasComponentParser.py:175, 177` -/
def compRe : List Item :=
  .star blank false :: (word "DEFINE".toList ++ (gap ++ (word "COMPONENT".toList ++ [.star (fun c => !(c == '\n')) true, .one (· == '\n')])))

/-- `_defValues`, `McStasComponentParser.py:427-440`; the patterns have one group, so the matches are strings -/
def defValues (is : List Item) (text : Txt) : Option Txt :=
  match searchLines is true text with
  | some (m :: _) => some (strip m)
  | _ => none

/-- `s.strip(chars)`, `McStasComponentParser.py:343, 375, 420` -/
def stripSet (p : Char → Bool) (s : Txt) : Txt := ((s.dropWhile p).reverse.dropWhile p).reverse

/-- the characters `"` and `'`, `McStasComponentParser.py:375` -/
def quote (c : Char) : Bool := c == '"' || c == '\''

/-- a parameter: type, name and value, `McStasComponentParser.py:353-356` -/
structure Param where
  (type name value : Txt)
  deriving DecidableEq

/-- the value of a parameter, `McStasComponentParser.py:372-375`: the text after `=`, if there is exactly one -/
def valuePart : List Txt → Txt
  | [_, v] => stripSet quote (strip v)
  | _ => []

/-- type and name, `McStasComponentParser.py:378-390` -/
def typeName (s : Txt) : Txt × Txt :=
  match splitAll '*' s with
  | [a, b] => (strip a ++ " *".toList, strip b)
  | _ =>
    match DataFiles.words s with
    | [t, n] => (strip t, strip n)
    | [n] => ([], strip n)
    | _ => ([], [])

/-- `_paramMatch`, `McStasComponentParser.py:362-392` -/
def paramMatch (var : Txt) : Param :=
  if var.isEmpty then ⟨[], [], []⟩
  else
    let parts := splitAll '=' var
    let tn := typeName (parts.headD [])
    ⟨tn.1, tn.2, valuePart parts⟩

/-- the loop of `_defParams`, `McStasComponentParser.py:344-359`: a parameter without a name makes the list empty -/
def collect : List Txt → Option (List Param)
  | [] => some []
  | it :: items =>
    let m := paramMatch (strip it)
    if m.name.isEmpty then none else (collect items).map fun ps => m :: ps

/-- `_defParams`, `McStasComponentParser.py:338-359` -/
def defParams (line : Txt) : List Param :=
  (collect (splitAll ',' (stripSet (fun c => c == ' ' || c == '(' || c == ')' || c == '\n') line))).getD []

/-- `_setDefParams`, `McStasComponentParser.py:328-335`, for the word before `PARAMETERS` -/
def params (w text : Txt) : List Param :=
  match defValues (listRe w) text with
  | none => []
  | some v => if v.isEmpty then [] else defParams v

/-- `_setListParams`, `McStasComponentParser.py:415-424` -/
def names (w text : Txt) : List Txt :=
  match defValues (listRe w) text with
  | none => []
  | some v => if v.isEmpty then [] else (splitAll ',' (stripSet (fun c => c == ' ' || c == '(' || c == ')') v)).map strip

/-- `_parseDefComp`, `McStasComponentParser.py:312-319` -/
def compName (text : Txt) : Txt := (defValues compRe text).getD []

/-! ### the sections -/

/-- `[ \n\t]`, `McStasComponentParser.py:136` -/
def space (c : Char) : Bool := c == ' ' || c == '\n' || c == '\t'

/-- a section that begins at the beginning of the text, `McStasComponentParser.py:134-136`: the pattern up to the bracket, and then what is
before the first closing bracket (`.*?` with a look ahead) -/
def sectionAt (w s : Txt) : Option Txt :=
  match matchAt (word w ++ [.star space false, .one (· == '%'), .one (· == '{'), .star (fun _ => true) true]) s with
  | some (r :: _) => (cut ['%', '}'] r).map Prod.fst
  | _ => none

/-- the first section with the name, `McStasComponentParser.py:446-461`; the empty text if there is none -/
def section' (w : Txt) : Txt → Txt
  | [] => (sectionAt w []).getD []
  | c :: s => (sectionAt w (c :: s)).getD (section' w s)

/-- `_cleanupText`, `McStasComponentParser.py:302-309` -/
def cleanup (text : Txt) : Txt :=
  let t := text.filter fun c => !(c == '\r')
  removeComments t.length t

/-! ### parameters of components -/

/-- the value of a parameter of a component, `ComponentInfo.py:92-103` -/
inductive Default (F : Type) where
  | num (x : F)
  | int (n : ℤ)
  | str (s : Txt)
  deriving DecidableEq

/-- `Parameter`, `ComponentInfo.py:79-106` -/
structure Parameter (F : Type) where
  (name type : Txt)
  default : Default F
  description : Txt

/-- the type of a parameter, `ComponentInfo.py:83-90` -/
def typeOf (t : Txt) : Txt :=
  let t := if t = "string".toList then "char *".toList else t
  if t = [] then "double".toList else t

/-- `Parameter.__init__`, `ComponentInfo.py:81-106`: `float` and `int` of python are arguments, with `none` for `ValueError`; other exceptions do
not occur as the default is a string -/
def Parameter.new {F : Type} [Zero F] (float : Txt → Option F) (int : Txt → Option ℤ) (name type dflt descr : Txt) : Except Err (Parameter F) :=
  let type := typeOf type
  if type = "float".toList ∨ type = "double".toList then
    .ok ⟨name, type, (float dflt).elim (.int 0) .num, descr⟩
  else if type = "int".toList then .ok ⟨name, type, .int ((int dflt).getD 0), descr⟩
  else if type = "char *".toList then .ok ⟨name, type, .str (if dflt = ['0'] then [] else dflt), descr⟩
  else .error .keyError

/-- `_addDescription`, `parsers/__init__.py:110-120`; the descriptions of the header are a function -/
def addDescription {F : Type} [Zero F] (float : Txt → Option F) (int : Txt → Option ℤ) (descr : Txt → Option Txt) :
    List Param → Except Err (List (Parameter F))
  | [] => .ok []
  | p :: ps => do
    let q ← Parameter.new float int p.name p.type p.value ((descr p.name).getD [])
    let qs ← addDescription float int descr ps
    .ok (q :: qs)

/-- the parameters of the component in `parseComponent`, `parsers/__init__.py:27-35`, for the body of a file; `header` is the name of the
component in the header -/
def inputs {F : Type} [Zero F] (float : Txt → Option F) (int : Txt → Option ℤ) (descr : Txt → Option Txt) (header text : Txt) :
    Except Err (List (Parameter F)) :=
  let name := compName text
  if header ≠ name then .error .assertionError
  else do
    let ds ← addDescription float int descr (params "DEFINITION".toList text)
    let ss ← addDescription float int descr (params "SETTING".toList text)
    let n ← Parameter.new float int "name".toList "char *".toList (name.map Char.toLower) "component name".toList
    .ok (n :: ds ++ ss)

/-! ### the section `SHARE` -/

/-- `header_start_signature` is not used; `implementation_start_signature`, `parsers/__init__.py:107` -/
def signature : Txt := "// ----------  implementation for SHARE ----------".toList

/-- the name after `%include`, `parsers/__init__.py:79-82` and `ShareIncludeParser.py:20-21`: a text in double quotes without them, a text in
single quotes with them.  Simplified: no escapes; `ParseException` of pyparsing stands as `runtimeError` -/
def included (line : Txt) : Except Err Txt :=
  match lstrip (line.drop "%include".toList.length) with
  | c :: s =>
    if quote c then
      match cut [c] s with
      | some (h, _) => .ok (if c = '"' then h else c :: (h ++ [c]))
      | none => .error .runtimeError
    else .error .runtimeError
  | [] => .error .runtimeError

/-- a line of the section in the loop, `parsers/__init__.py:76-84`: the line that is kept and the line that is compared with the signature -/
def shareLine (line : Txt) : Except Err (Txt × Txt) :=
  if "%include".toList.isPrefixOf (strip line) then do
    let h ← included (strip line)
    let l := "#include \"mcstas2/share/".toList ++ h ++ ".h\"".toList
    .ok (l, l)
  else .ok (line, strip line)

/-- the loop, `parsers/__init__.py:76-88`: the lines, and the index of the last one with the signature -/
def shareLoop : Nat → List Txt → Except Err (List Txt × Option Nat)
  | _, [] => .ok ([], none)
  | i, l :: ls => do
    let (k, c) ← shareLine l
    let (ks, j) ← shareLoop (i + 1) ls
    .ok (k :: ks, j.or (if c = signature then some i else none))

/-- `_format_share_str`, `parsers/__init__.py:62-105`: header and implementation -/
def formatShare (share : Txt) : Except Err (Txt × Txt) :=
  let lines := splitAll '\n' share
  if lines.length ≤ 1 then .ok ([], [])
  else do
    let (ls, i) ← shareLoop 0 lines
    match i with
    | none => .error .runtimeError
    | some i => .ok (List.intercalate ['\n'] (ls.take i), List.intercalate ['\n'] (ls.drop i))

end Verif.McComp
