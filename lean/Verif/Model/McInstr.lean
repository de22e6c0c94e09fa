import Verif.Model.Facility
import Verif.Model.Geometer
/-!
The conversion of instruments of McStas: `packages/legacycomponents/mcstas2/python/mcstas2/utils/parsers/McStasInstrumentParser.py`,
`packages/legacycomponents/mcstas2/python/mcstas2/cli/convertinstrument.py` and `packages/mcvine/python/mcvine/pyre_support/pml.py`.

Texts are lists of characters; only ascii white space and letters are considered.
-/

namespace Verif.McInstr
open Facility Geometer

/-- a text, as `McStasInstrumentParser.py:136` gets it -/
abbrev Txt := List Char

/-! ### regular expressions -/

/-- the parts of the regular expressions of `McStasInstrumentParser.py:91-102`: `[..]*` (captured or not), one character of a class, and
`(word|word)` without regard to upper and lower case, captured -/
inductive Item where
  | star (p : Char → Bool) (cap : Bool)
  | one (p : Char → Bool)
  | alt (ws : List Txt)

/-- the module `re` for `p*` followed by `k`, used by `McStasInstrumentParser.py:152-154, 292-293`: as many characters as possible, fewer if `k`
fails; what was matched and the result of `k` -/
def greedy {α : Type} (p : Char → Bool) (k : Txt → Option α) : Txt → Option (Txt × α)
  | [] => (k []).map fun a => ([], a)
  | c :: s =>
    if p c then
      match greedy p k s with
      | some (t, a) => some (c :: t, a)
      | none => (k (c :: s)).map fun a => ([], a)
    else (k (c :: s)).map fun a => ([], a)

/-- the same letters, `re.IGNORECASE` in `McStasInstrumentParser.py:292` -/
def same (a b : Txt) : Bool := a.map Char.toLower == b.map Char.toLower

/-- the first of the words for which the rest matches, `(RELATIVE|ABSOLUTE)` in `McStasInstrumentParser.py:101-102` -/
def alternatives {α : Type} (k : Txt → Option α) (s : Txt) : List Txt → Option (Txt × α)
  | [] => none
  | w :: ws =>
    if same (s.take w.length) w then
      match k (s.drop w.length) with
      | some a => some (s.take w.length, a)
      | none => alternatives k s ws
    else alternatives k s ws

/-- a match at the beginning of the text: what was captured, as the module `re` does it for `McStasInstrumentParser.py:152-154, 292-293` -/
def matchAt : List Item → Txt → Option (List Txt)
  | [], _ => some []
  | .star p cap :: is, s =>
    (greedy p (matchAt is) s).map fun r => if cap then r.1 :: r.2 else r.2
  | .one p :: is, s =>
    match s with
    | [] => none
    | c :: s => if p c then matchAt is s else none
  | .alt ws :: is, s => (alternatives (matchAt is) s ws).map fun r => r.1 :: r.2

/-- the first element of `findall`, `McStasInstrumentParser.py:154, 160, 293, 302` -/
def search (is : List Item) : Txt → Option (List Txt)
  | [] => matchAt is []
  | c :: s =>
    match matchAt is (c :: s) with
    | some r => some r
    | none => search is s

/-- `[ \t]`, `McStasInstrumentParser.py:92` -/
def blank (c : Char) : Bool := c == ' ' || c == '\t'

/-- `[^ ()=]`, `McStasInstrumentParser.py:93` -/
def nameChar (c : Char) : Bool := !(c == ' ' || c == '(' || c == ')' || c == '=')

/-- `[^()]`, `McStasInstrumentParser.py:94` -/
def noBracket (c : Char) : Bool := !(c == '(' || c == ')')

/-- a letter of a pattern without regard to upper and lower case, `McStasInstrumentParser.py:101-102, 292` -/
def letter (a c : Char) : Bool := c.toLower == a.toLower

/-- `COMPONENT`, `McStasInstrumentParser.py:96`, with `re.DOTALL` -/
def componentRe : List Item :=
  [.star blank false, .star nameChar true, .star blank false, .one (· == '='), .star blank false, .star nameChar true, .star blank false,
   .one (· == '('), .star noBracket true, .one (· == ')'), .star (fun _ => true) true]

/-- `.`, `McStasInstrumentParser.py:98` -/
def dot (c : Char) : Bool := !(c == '\n')

/-- `POSITION` and `ROTATION` after the first word, `McStasInstrumentParser.py:98-102` -/
def vectorRe : List Item :=
  [.star blank false, .one (· == '('), .star dot true, .one (· == ','), .star dot true, .one (· == ','), .star dot true, .one (· == ')'),
   .star blank false, .alt ["RELATIVE".toList, "ABSOLUTE".toList], .star blank false, .star (fun c => !(c == ' ')) true]

/-- `POSITION`, `ROTATION`, `McStasInstrumentParser.py:101-102`; `key` is `AT` or `ROTATED` -/
def clauseRe (key : Txt) : List Item := key.map (fun c => .one (letter c)) ++ vectorRe

/-! ### the parser -/

/-- `s.split(sep)` for `McStasInstrumentParser.py:142`: `sep` is not empty -/
def splitWord (sep : Txt) : Nat → Txt → List Txt
  | 0, s => [s]
  | fuel + 1, s =>
    match cut sep s with
    | none => [s]
    | some (a, b) => a :: splitWord sep fuel b

/-- what is behind the first `*/`, for `_removeComments`, `McStasInstrumentParser.py:372-376` -/
def closeComment (s : Txt) : Option Txt := (cut ['*', '/'] s).map (·.2)

/-- `_removeComments`, `McStasInstrumentParser.py:372-376` with `COMMENT` of line 91; the expression is not greedy, so a comment ends at the
first `*/`; a comment that is not closed stays.  `fuel`: the length of the text -/
def removeComments : Nat → Txt → Txt
  | 0, s => s
  | _ + 1, [] => []
  | fuel + 1, c :: s =>
    if ['/', '*'].isPrefixOf (c :: s) then
      match closeComment (s.drop 1) with
      | some r => removeComments fuel r
      | none => c :: removeComments fuel s
    else c :: removeComments fuel s

/-- a value of a vector, `_cast` of `McStasInstrumentParser.py:303-307` -/
inductive Val (F : Type) where
  | num (x : F)
  | text (s : Txt)

/-- three values, `McStasInstrumentParser.py:308` -/
abbrev Vec (F : Type) := Val F × Val F × Val F

/-- a position or orientation as returned by `_vectorRelation`, `McStasInstrumentParser.py:284-322, 338`: `nowhere` for `(v, None, None)` -/
inductive Place (F : Type) where
  | nowhere (v : Option (Vec F))
  | absolute (v : Vec F)
  | relative (v : Vec F) (ref : Txt)

/-- a component, `McStasInstrumentParser.py:124-130` -/
structure Comp (F : Type) where
  (name type : Txt)
  params : List (Txt × Txt)
  (position orientation : Place F)

/-- assignment to a dictionary, `McStasInstrumentParser.py:213, 246` -/
def assign (d : List (Txt × Txt)) (k v : Txt) : List (Txt × Txt) := (k, v) :: d.filter fun e => e.1 != k

/-- looking up in a dictionary, `McStasInstrumentParser.py:225` -/
def look (d : List (Txt × Txt)) (k : Txt) : Option Txt := (d.find? fun e => e.1 == k).map (·.2)

/-- one parameter, `McStasInstrumentParser.py:208-213` -/
def param (d : List (Txt × Txt)) (pp : Txt) : List (Txt × Txt) :=
  match splitAll '=' pp with
  | [k, v] => assign d (strip k) (strip v)
  | _ => d

/-- `_params`, `McStasInstrumentParser.py:200-215` -/
def params (text : Txt) : List (Txt × Txt) :=
  if text.isEmpty then [] else (splitAll ',' (strip text)).foldl param []

/-- `upper()`, `McStasInstrumentParser.py:262, 310` -/
def upper (s : Txt) : Txt := s.map Char.toUpper

/-- the part before the first blank, `McStasInstrumentParser.py:257-258` -/
def firstPart (s : Txt) : Txt := s.takeWhile fun c => c != ' '

/-- `_propKeyValue`, `McStasInstrumentParser.py:251-263` -/
def propKeyValue (line : Txt) : Option (Txt × Txt) :=
  if line.isEmpty then none
  else
    let line := strip line
    if (firstPart line).isEmpty then none else some (upper (firstPart line), line)

/-- the loop of `_properties`, `McStasInstrumentParser.py:237-248` -/
def propertiesFrom (d : List (Txt × Txt)) : List Txt → List (Txt × Txt)
  | [] => d
  | t :: tl =>
    match propKeyValue t with
    | none => propertiesFrom d tl
    | some (k, v) => if k = "FINALLY".toList ∨ k = "END".toList then d else propertiesFrom (assign d k v) tl

/-- `_properties`, `McStasInstrumentParser.py:229-248` -/
def properties (text : Txt) : List (Txt × Txt) := if text.isEmpty then [] else propertiesFrom [] (splitAll '\n' text)

/-- `_property`, `McStasInstrumentParser.py:218-226`; the keys are in upper case -/
def property (key text : Txt) : Txt := if text.isEmpty then [] else (look (properties text) key).getD []

variable {F : Type} (float : Txt → Option F)

/-- `_cast`, `McStasInstrumentParser.py:303-307`; `float` is the conversion of python -/
def cast (s : Txt) : Val F := match float s with | some x => .num x | none => .text s

/-- `_vectorRelation` and `_relativeToComp`, `McStasInstrumentParser.py:284-338`; `none`: no match.  The relation is one of the two words
because of the regular expression -/
def vectorRelation (key text : Txt) : Option (Place F) :=
  match search (clauseRe key) (property key text) with
  | some [x, y, z, rel, ref] =>
    let v := (cast float x, cast float y, cast float z)
    if upper rel = "ABSOLUTE".toList then some (.absolute v)
    else some (.relative v (if ref.map Char.toLower = "previous".toList then "previous".toList else ref))
  | _ => none

/-- `_position`, `McStasInstrumentParser.py:266-272, 299-300` -/
def positionOf (text : Txt) : Place F := (vectorRelation float "AT".toList text).getD (.nowhere none)

/-- `_rotation` with the default of `McStasInstrumentParser.py:168-172, 275-281, 295-296, 364-369` -/
def rotationOf [Zero F] (text : Txt) (pos : Place F) : Place F :=
  let zero : Vec F := (.num 0, .num 0, .num 0)
  match vectorRelation float "ROTATED".toList text with
  | some r => r
  | none => match pos with
    | .nowhere _ => .nowhere (some zero)
    | .absolute _ => .absolute zero
    | .relative _ ref => .relative zero ref

/-- one component, `McStasInstrumentParser.py:151-173`; `none`: no match, the text is skipped -/
def component [Zero F] (text : Txt) : Option (Comp F) :=
  match search componentRe text with
  | some [name, type, ps, rest] =>
    let pos := positionOf float rest
    some ⟨name, type, params ps, pos, rotationOf float rest pos⟩
  | _ => none

/-- `parse`, `McStasInstrumentParser.py:136-176`, without the header (`_parseHeader`, lines 179-197, is not modelled) -/
def parse [Zero F] (text : Txt) : List (Comp F) :=
  let text := removeComments text.length text
  ((splitWord "COMPONENT".toList text.length text).drop 1).filterMap (component float)

/-! ### the script -/

/-- the lines of a converted script for one component, `convertinstrument.py:84-92`: the construction in a category, and the call of
`append` with `position`, `orientation`, `relativeTo` -/
inductive Stmt (F : Type) where
  | new (name : Txt) (cat : Option Txt) (type : Txt) (params : List (Txt × Txt))
  | append (name : Txt) (pos ori : Option (Vec F)) (relativeTo : Option Txt)

/-- the vector of a position or orientation, index 0 in `convertinstrument.py:90` -/
def Place.vec : Place F → Option (Vec F)
  | .nowhere v => v
  | .absolute v => some v
  | .relative v _ => some v

/-- `relativeTo`, `convertinstrument.py:91`: index 2 if index 1 is 'relative' (the comparison by `is` holds because constants of this form
are shared) -/
def Place.ref : Place F → Option Txt
  | .relative _ r => some r
  | _ => none

/-- `_render_non_pyre`, `convertinstrument.py:68-98`; `cat`: the category of a type, `none` if it is unknown -/
def render (cat : Txt → Option Txt) (comps : List (Comp F)) : List (Stmt F) :=
  comps.flatMap fun c =>
    [.new c.name (cat c.type) c.type c.params, .append c.name c.position.vec c.orientation.vec c.position.ref]

/-- a vector of numbers; a text in its place is a `TypeError` when python computes with it (`Geometer2.py:124-144`); here at once -/
def numbers : Vec F → Except Err (V3 F)
  | (.num x, .num y, .num z) => .ok ⟨x, y, z⟩
  | _ => .error .typeError

/-- the state of the script: the names of variables that are assigned, the geometer, and position and orientation that were stored on the
components (`Instrument.py:90-91`), the last first -/
structure Script (F : Type) where
  vars : List Txt
  geo : Geo Txt F
  placed : List (Txt × V3 F × Ori F)

/-- one statement.  Components are constructed in their category (an unknown one is an `AttributeError`); the call of `append` is that of
`mcni/python/mcni/Instrument.py:66-92`.  The name of the reference is the name of a variable.  Names are assumed to be names that python
accepts, and the names `instrument`, `mcomps`, `mcvine` of `convertinstrument.py:69-70` not to be those of components.  The construction of
the component itself is not modelled -/
def Stmt.exec [DecidableEq F] [Ring F] (toM : V3 F → M3 F) (fuel : Nat) (s : Script F) : Stmt F → Except Err (Script F)
  | .new name cat _ _ =>
    match cat with
    | none => .error .attributeError
    | some _ => .ok { s with vars := name :: s.vars }
  | .append name pos ori relativeTo =>
    if name ∉ s.vars then .error .nameError
    else if (match relativeTo with | none => false | some r => decide (r ∉ s.vars)) then .error .nameError
    else match pos, ori with
      | none, none => .ok s
      | _, _ => do
        let p ← match pos with | none => .ok (⟨0, 0, 0⟩ : V3 F) | some v => numbers v
        let o ← match ori with | none => .ok (⟨0, 0, 0⟩ : V3 F) | some v => numbers v
        match instrumentRegister toM fuel s.geo name p (.angles o) relativeTo with
        | (.error er, _) => .error er
        | (.ok (p, o), g) => .ok { s with geo := g, placed := (name, p, o) :: s.placed }

/-- the script, `convertinstrument.py:68-98`; `fuel`: the recursion limit -/
def exec [DecidableEq F] [Ring F] (toM : V3 F → M3 F) (fuel : Nat) (s : Script F) : List (Stmt F) → Except Err (Script F)
  | [] => .ok s
  | st :: sts => do
    let s ← st.exec toM fuel s
    exec toM fuel s sts

/-- the script from the beginning, `convertinstrument.py:69-70`: `mcvine.instrument()` has a geometer of its own without `element_sequence`
(`mcni/python/mcni/Instrument.py:94-96`) -/
def runScript [DecidableEq F] [Ring F] (toM : V3 F → M3 F) (fuel : Nat) (sts : List (Stmt F)) : Except Err (Script F) :=
  exec toM fuel ⟨[], empty none, []⟩ sts

/-! ### the inventory -/

/-- `PmlRenderer._coord`, `pml.py:115-122`: the meaning of the text for the geometer (`Geometer.py:34-60` of `mcni/python/mcni/pyre_support`),
where `previous` is the keyword; `.lower()` of `None` is an `AttributeError` -/
def coord : Place F → Except Err (Coord (Vec F) Txt)
  | .nowhere _ => .error .attributeError
  | .absolute v => .ok (.absolute v)
  | .relative v ref => .ok (.relative v (if ref = "previous".toList then .previous else .elem ref))

/-- a value of a component in the script for the configuration: a text, a number, a tuple, or a dictionary, `convertinstrument.py:278-297` -/
inductive PyVal (V : Type) where
  | text (s : Txt)
  | other (v : V)
  | tuple (l : List (PyVal V))
  | dict (l : List (Txt × PyVal V))

/-- `propagate_values`, `pml.py:168-186`; `eval` is the function of python with the parameters of the instrument as variables: `none` if it
raises.  In `other` there are the values for which `eval` raises because they are no texts -/
def propagate {V : Type} (eval : Txt → Option (PyVal V)) : PyVal V → PyVal V
  | .tuple l => .tuple (l.attach.map fun x => propagate eval x.1)
  | .dict l => .dict (l.attach.map fun e => (e.1.1, if e.1.1.head? = some '_' then e.1.2 else propagate eval e.1.2))
  | .text s => (eval s).getD (.text s)
  | .other v => .other v
termination_by x => sizeOf x
decreasing_by
  · have := List.sizeOf_lt_of_mem x.2; simp_wf; omega
  · have h1 := List.sizeOf_lt_of_mem e.2
    have h2 : sizeOf e.1.2 < sizeOf e.1 := by
      rcases e with ⟨⟨a, b⟩, h⟩; simp; omega
    simp_wf; omega

end Verif.McInstr
