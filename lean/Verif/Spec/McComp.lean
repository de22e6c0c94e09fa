import Verif.Model.McComp
import Verif.Spec.McInstr
/-!
Specification for the parsing of components of McStas: the layout of the files.
-/

namespace Verif.McComp
open McInstr

/-- a name: not empty, no white space, no characters with a meaning -/
def Name (s : Txt) : Prop := s ≠ [] ∧ ∀ c ∈ s, c.isWhitespace = false ∧ c ≠ ',' ∧ c ≠ '=' ∧ c ≠ '*' ∧ c ≠ '(' ∧ c ≠ ')'

/-- the type in a declaration: none, `double `, `char * ` -/
inductive Kind where
  | none
  | plain (t g : Txt)
  | pointer (t g h : Txt)

/-- the text -/
def Kind.text : Kind → Txt
  | .none => []
  | .plain t g => t ++ g
  | .pointer t g h => t ++ g ++ '*' :: h

/-- the type that is meant -/
def Kind.type : Kind → Txt
  | .none => []
  | .plain t _ => t
  | .pointer t _ _ => t ++ " *".toList

/-- white space stands between the parts -/
def Kind.Ok : Kind → Prop
  | .none => True
  | .plain t g => Name t ∧ White g ∧ g ≠ []
  | .pointer t g h => Name t ∧ White g ∧ White h

/-- the default in a declaration: none, `= value`, `= "value"` -/
inductive Dflt where
  | none
  | bare (b v : Txt)
  | quoted (b : Txt) (q : Char) (v : Txt)

/-- the text -/
def Dflt.text : Dflt → Txt
  | .none => []
  | .bare b v => '=' :: (b ++ v)
  | .quoted b q v => '=' :: (b ++ q :: (v ++ [q]))

/-- the value that is meant -/
def Dflt.value : Dflt → Txt
  | .none => []
  | .bare _ v => v
  | .quoted _ _ v => v

/-- a character that is not white space and not a quotation mark -/
def Solid (c : Char) : Prop := c.isWhitespace = false ∧ c ≠ '"' ∧ c ≠ '\''

/-- the rules of the language: a text in quotes has no line breaks and no quotation marks; a value has no commas and brackets; white space only
inside -/
def Dflt.Ok : Dflt → Prop
  | .none => True
  | .bare b v => White b ∧ v ≠ [] ∧ (∀ c ∈ v.head?, Solid c) ∧ (∀ c ∈ v.getLast?, Solid c) ∧ ∀ c ∈ v, c ≠ ',' ∧ c ≠ '=' ∧ c ≠ '(' ∧ c ≠ ')'
  | .quoted b q v => White b ∧ (q = '"' ∨ q = '\'') ∧ ∀ c ∈ v, c ≠ '"' ∧ c ≠ '\'' ∧ c ≠ '\n'

/-- the characters that the parser treats alike in quotes and elsewhere are not in quotes -/
def Dflt.Safe : Dflt → Prop
  | .none => True
  | .bare _ _ => True
  | .quoted _ _ v => ∀ c ∈ v, c ≠ ',' ∧ c ≠ '=' ∧ c ≠ '(' ∧ c ≠ ')'

/-- a declaration -/
structure Decl where
  a : Txt
  kind : Kind
  (name b : Txt)
  dflt : Dflt
  d : Txt

/-- the text of a declaration -/
def Decl.text (d : Decl) : Txt := d.a ++ (d.kind.text ++ (d.name ++ (d.b ++ (d.dflt.text ++ d.d))))

/-- what is declared -/
def Decl.param (d : Decl) : Param := ⟨d.kind.type, d.name, d.dflt.value⟩

/-- a declaration by the rules of the language -/
structure Decl.Ok (d : Decl) : Prop where
  white : White d.a ∧ White d.b ∧ White d.d
  kind : d.kind.Ok
  name : Name d.name
  dflt : d.dflt.Ok

/-- the text begins with the word after blanks -/
def Begins (w line : Txt) : Prop := ∃ b k r, line = b ++ (k ++ r) ∧ Blanks b ∧ k.map Char.toLower = w.map Char.toLower

/-- no line of the text begins with the word -/
def NoLine (w text : Txt) : Prop :=
  ∀ x y z, text = x ++ (y ++ z) → (x = [] ∨ x.getLast? = some '\n') → '\n' ∉ y → (z = [] ∨ z.head? = some '\n') → ¬ Begins w y

/-- a list of parameters `WORD PARAMETERS (body)` in a text -/
structure Listed (w text body : Txt) : Prop where
  layout : ∃ pre b key g key' mid post,
    text = pre ++ (b ++ (key ++ (' ' :: g ++ (key' ++ (mid ++ '(' :: (body ++ ')' :: post)))))) ∧
    (pre = [] ∨ pre.getLast? = some '\n') ∧ NoLine w pre ∧ Blanks b ∧ Spelled key w ∧ (∀ c ∈ g, c = ' ') ∧
    Spelled key' "PARAMETERS".toList ∧ '(' ∉ mid ∧ ')' ∉ body

/-- the definition `DEFINE COMPONENT name` in a text -/
structure Defined (text name : Txt) : Prop where
  layout : ∃ pre b key g key' x y post,
    text = pre ++ (b ++ (key ++ (' ' :: g ++ (key' ++ (x ++ (name ++ (y ++ '\n' :: post))))))) ∧
    (pre = [] ∨ pre.getLast? = some '\n') ∧ NoLine "DEFINE".toList pre ∧ Blanks b ∧ Spelled key "DEFINE".toList ∧ (∀ c ∈ g, c = ' ') ∧
    Spelled key' "COMPONENT".toList ∧ Blanks x ∧ Blanks y ∧ Name name

/-- the words of the lists of parameters -/
def ListWord (w : Txt) : Prop := w ∈ ["DEFINITION".toList, "SETTING".toList, "OUTPUT".toList, "STATE".toList]

/-- the text declares these parameters in the list with the word: none if there is no such list or an empty one -/
inductive Declares (w text : Txt) : List Decl → Prop
  | absent : NoLine w text → Declares w text []
  | empty {body : Txt} : White body → Listed w text body → Declares w text []
  | some {ds : List Decl} : ds ≠ [] → (∀ d ∈ ds, d.Ok) → Listed w text (List.intercalate [','] (ds.map Decl.text)) → Declares w text ds

/-- the words of the sections -/
def SectionWord (w : Txt) : Prop :=
  w ∈ ["DECLARE".toList, "INITIALIZE".toList, "TRACE".toList, "SAVE".toList, "FINALLY".toList, "MCDISPLAY".toList, "SHARE".toList]

/-- the head of a section is somewhere in the text -/
def HasHead (w text : Txt) : Prop :=
  ∃ x k s y, text = x ++ (k ++ (s ++ '%' :: '{' :: y)) ∧ k.map Char.toLower = w.map Char.toLower ∧ ∀ c ∈ s, c = ' ' ∨ c = '\n' ∨ c = '\t'

/-- a section `WORD %{ body %}` in a text -/
structure Sectioned (w text body : Txt) : Prop where
  layout : ∃ pre key s post, text = pre ++ (key ++ (s ++ '%' :: '{' :: (body ++ '%' :: '}' :: post))) ∧
    (pre = [] ∨ pre.getLast? = some '\n') ∧ ¬ HasHead w pre ∧ Spelled key w ∧ (∀ c ∈ s, c = ' ' ∨ c = '\n' ∨ c = '\t') ∧
    ¬ ['%', '}'] <:+: body

/-- the number that a text means: a number, or a quotient of numbers -/
inductive Means {F : Type} [Field F] (float : Txt → Option F) : Txt → F → Prop
  | num {s : Txt} {x : F} : float s = some x → Means float s x
  | quotient {s t : Txt} {x y : F} : float s = some x → float t = some y → y ≠ 0 → Means float (s ++ '/' :: t) (x / y)

/-- the types of parameters of components -/
def Known (t : Txt) : Prop := t ∈ ["".toList, "double".toList, "float".toList, "int".toList, "string".toList, "char *".toList]

/-- the parameter of a component for a declaration: the name, the description, and the default as a number or a text -/
structure Gives {F : Type} (float : Txt → Option F) (int : Txt → Option ℤ) (descr : Txt → Option Txt) (d : Decl) (q : Parameter F) : Prop where
  name : q.name = d.name
  description : ∀ s, descr d.name = some s → q.description = s
  number : d.kind.type ∈ ["".toList, "double".toList, "float".toList] → ∀ x, float d.dflt.value = some x → q.default = .num x
  integer : d.kind.type = "int".toList → ∀ n, int d.dflt.value = some n → q.default = .int n
  text : d.kind.type ∈ ["string".toList, "char *".toList] → d.dflt.value ≠ "0".toList → q.default = .str d.dflt.value

/-- a line of the section `SHARE` and what becomes of it: a library is included by its name, another line stays -/
inductive Shared : Txt → Txt → Prop
  | incl {x y z h : Txt} : White x → White y → White z → '"' ∉ h → '\n' ∉ h →
      Shared (x ++ ("%include".toList ++ (y ++ '"' :: (h ++ '"' :: z)))) ("#include \"mcstas2/share/".toList ++ h ++ ".h\"".toList)
  | other {l : Txt} : (∀ x r, White x → l ≠ x ++ ("%include".toList ++ r)) → Shared l l

/-- the line that separates header and implementation -/
def Separator (l : Txt) : Prop := ∃ x y, White x ∧ White y ∧ l = x ++ ("// ----------  implementation for SHARE ----------".toList ++ y)

end Verif.McComp
