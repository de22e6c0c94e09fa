import Verif.Model.McInstr
import Verif.Spec.Geometer
import Mathlib.Data.List.Infix
import Mathlib.Data.List.Forall2
/-!
Specification for the conversion of instruments of McStas: the layout of the files and the placement of the components.
-/

namespace Verif.McInstr
open Geometer Frames

/-- written like the word, in upper or lower case -/
def Spelled (a word : Txt) : Prop := List.Forall₂ (fun c w => c = w ∨ c = w.toLower) a word

/-- blanks and tabs -/
def Blanks (b : Txt) : Prop := ∀ c ∈ b, c = ' ' ∨ c = '\t'
/-- white space -/
def White (b : Txt) : Prop := ∀ c ∈ b, c.isWhitespace = true

/-- comments `/* ... */` are left out -/
inductive Uncommented : Txt → Txt → Prop
  | plain {t : Txt} : ¬ ['/', '*'] <:+: t → Uncommented t t
  | comment {a b s t : Txt} : ¬ ['/', '*'] <:+: a → ¬ ['*', '/'] <:+: b → Uncommented s t →
      Uncommented (a ++ ['/', '*'] ++ b ++ ['*', '/'] ++ s) (a ++ t)

/-- the layout of a clause `AT (x, y, z) RELATIVE ref`, `AT (x, y, z) ABSOLUTE`; the same with `ROTATED` -/
structure Clause where
  (b0 key b1 x y z b2 rel b3 ref b4 : Txt)

/-- the line -/
def Clause.line (c : Clause) : Txt :=
  c.b0 ++ (c.key ++ (' ' :: c.b1 ++ ('(' :: c.x ++ (',' :: c.y ++ (',' :: c.z ++ (')' :: c.b2 ++ (c.rel ++ (c.b3 ++ c.ref)))))))) ++ c.b4

/-- a clause with the key word -/
structure Clause.Ok (word : Txt) (c : Clause) : Prop where
  key : Spelled c.key word
  blanks : Blanks c.b0 ∧ Blanks c.b1 ∧ Blanks c.b2 ∧ Blanks c.b3 ∧ Blanks c.b4
  values : ∀ s, s = c.x ∨ s = c.y ∨ s = c.z → ',' ∉ s ∧ ')' ∉ s ∧ '\n' ∉ s
  relation : (Spelled c.rel "ABSOLUTE".toList ∧ c.b3 = [] ∧ c.ref = []) ∨
    (Spelled c.rel "RELATIVE".toList ∧ c.b3 ≠ [] ∧ c.ref ≠ [] ∧ ∀ a ∈ c.ref, a.isWhitespace = false ∧ a ≠ ',' ∧ a ≠ ')')

variable {F : Type} (float : Txt → Option F)

/-- a number, or else the text -/
def valueOf (s : Txt) : Val F := (float s).elim (.text s) .num

/-- the three values -/
def Clause.vec (c : Clause) : Vec F := (valueOf float c.x, valueOf float c.y, valueOf float c.z)

/-- what the clause says: relative if there is a reference; `PREVIOUS` is a key word -/
def Clause.place (c : Clause) : Place F :=
  if c.ref = [] then .absolute (c.vec float)
  else .relative (c.vec float) (if c.ref.map Char.toLower = "previous".toList then "previous".toList else c.ref)

/-- a parameter `name = value` -/
structure Par where
  (a k b c v d : Txt)

/-- the text of a parameter -/
def Par.text (p : Par) : Txt := p.a ++ p.k ++ p.b ++ '=' :: (p.c ++ p.v ++ p.d)

/-- no white space at the ends, no characters with a meaning -/
def Token (s : Txt) : Prop :=
  (∀ c ∈ s.head?, c.isWhitespace = false) ∧ (∀ c ∈ s.getLast?, c.isWhitespace = false) ∧ ∀ c ∈ s, c ≠ ',' ∧ c ≠ '=' ∧ c ≠ '(' ∧ c ≠ ')'

/-- a parameter in the layout -/
structure Par.Ok (p : Par) : Prop where
  white : White p.a ∧ White p.b ∧ White p.c ∧ White p.d
  tokens : Token p.k ∧ Token p.v

/-- the first word of a line in upper case -/
def headWord (f : Txt) : Txt := ((f.dropWhile Char.isWhitespace).takeWhile fun c => !c.isWhitespace).map Char.toUpper

/-- another line -/
def Plain (f : Txt) : Prop :=
  '\n' ∉ f ∧ headWord f ≠ "AT".toList ∧ headWord f ≠ "ROTATED".toList ∧ headWord f ≠ "END".toList ∧ headWord f ≠ "FINALLY".toList

/-- the end of the instrument -/
def Stops (f : Txt) : Prop :=
  ∃ g w r word, f = g ++ w ++ r ∧ White g ∧ (word = "END".toList ∨ word = "FINALLY".toList) ∧ Spelled w word ∧ '\n' ∉ f ∧
    (r = [] ∨ r.head? = some ' ')

/-- the source of a component behind the word `COMPONENT` -/
structure Src where
  (b0 name b1 b2 type b3 pad : Txt)
  ps : List Par
  fill0 : List Txt
  at' : Clause
  fill1 : List Txt
  rot : Option Clause
  (fill2 stop : List Txt)

/-- the lines behind the parameters -/
def Src.lines (s : Src) : List Txt := s.fill0 ++ s.at'.line :: (s.fill1 ++ (s.rot.toList.map Clause.line ++ (s.fill2 ++ s.stop)))

/-- the text behind the word `COMPONENT` -/
def Src.text (s : Src) : Txt :=
  s.b0 ++ (s.name ++ (s.b1 ++ '=' :: (s.b2 ++ (s.type ++ (s.b3 ++ '(' ::
    (((if s.ps = [] then s.pad else List.intercalate [','] (s.ps.map Par.text))) ++ ')' :: List.intercalate ['\n'] s.lines))))))

/-- a component in the layout of the documentation -/
structure Src.Ok (s : Src) : Prop where
  blanks : Blanks s.b0 ∧ (∀ c ∈ s.b1, c = ' ') ∧ Blanks s.b2 ∧ (∀ c ∈ s.b3, c = ' ') ∧ White s.pad
  names : ∀ c, c ∈ s.name ∨ c ∈ s.type → c.isWhitespace = false ∧ c ≠ '(' ∧ c ≠ ')' ∧ c ≠ '='
  filled : s.name ≠ [] ∧ s.type ≠ []
  params : ∀ p ∈ s.ps, p.Ok
  fill : ∀ f, f ∈ s.fill0 ∨ f ∈ s.fill1 ∨ f ∈ s.fill2 → Plain f
  at_ok : s.at'.Ok "AT".toList
  rot_ok : ∀ c ∈ s.rot, c.Ok "ROTATED".toList
  stop : s.stop = [] ∨ ∃ t ts, s.stop = t :: ts ∧ Stops t
  word : ¬ "COMPONENT".toList <:+: s.text
  ends : ∃ u c, s.text = u ++ [c] ∧ c.isWhitespace = true

/-- the file -/
def file (header : Txt) (srcs : List Src) : Txt := header ++ srcs.flatMap fun s => "COMPONENT".toList ++ s.text

/-- the value that is given last -/
def Src.Given (s : Src) (k v : Txt) : Prop := ∃ l1 p l2, s.ps = l1 ++ p :: l2 ∧ p.k = k ∧ p.v = v ∧ ∀ q ∈ l2, q.k ≠ k

/-- without rotation: as the reference of the position -/
def Src.turn [Zero F] (s : Src) : Place F :=
  match s.rot with
  | some r => r.place float
  | none => match s.at'.place float with
    | .relative _ ref => .relative (.num 0, .num 0, .num 0) ref
    | _ => .absolute (.num 0, .num 0, .num 0)

/-- the component has the name, type, parameters, position and orientation of the source -/
structure Means [Zero F] (s : Src) (c : Comp F) : Prop where
  name : c.name = s.name
  type : c.type = s.type
  params : ∀ k v, (k, v) ∈ c.params ↔ s.Given k v
  position : c.position = s.at'.place float
  orientation : c.orientation = s.turn float

/-! ### placement -/

/-- the coordinates of the geometer for a position or orientation with numbers -/
inductive Coords : Place F → Coord (V3 F) Txt → Prop
  | absolute (x y z : F) : Coords (.absolute (.num x, .num y, .num z)) (.absolute ⟨x, y, z⟩)
  | relative (x y z : F) (ref : Txt) : ref ≠ "previous".toList → Coords (.relative (.num x, .num y, .num z) ref) (.relative ⟨x, y, z⟩ (.elem ref))
  | previous (x y z : F) : Coords (.relative (.num x, .num y, .num z) "previous".toList) (.relative ⟨x, y, z⟩ .previous)

/-- angles as an orientation -/
def anglesOf : Coord (V3 F) Txt → Coord (Ori F) Txt
  | .absolute v => .absolute (.angles v)
  | .relative v r => .relative (.angles v) r

/-- the placement that the file describes: position and orientation of each component -/
def Describes (comps : List (Comp F)) (reg : Txt → Option (Coord (V3 F) Txt × Coord (Ori F) Txt)) : Prop :=
  ∀ c ∈ comps, ∃ p o, Coords c.position p ∧ Coords c.orientation o ∧ reg c.name = some (p, anglesOf o)

/-- each component is placed by numbers, position and orientation relative to the same: the instrument, or a component before -/
def SameReference (comps : List (Comp F)) : Prop :=
  ∀ l1 c l2, comps = l1 ++ c :: l2 →
    (∃ p o : V3 F, Coords c.position (.absolute p) ∧ Coords c.orientation (.absolute o)) ∨
    ∃ (p o : V3 F) (b : Comp F), Coords c.position (.relative p (.elem b.name)) ∧ Coords c.orientation (.relative o (.elem b.name)) ∧ b ∈ l1

/-! ### values -/

/-- texts that are expressions are replaced by their values, except below keys that begin with an underscore; everything else stays -/
inductive Replaced {V : Type} (eval : Txt → Option (PyVal V)) : PyVal V → PyVal V → Prop
  | value {s v} : eval s = some v → Replaced eval (.text s) v
  | text {s} : eval s = none → Replaced eval (.text s) (.text s)
  | other {v} : Replaced eval (.other v) (.other v)
  | tuple {l l'} : List.Forall₂ (Replaced eval) l l' → Replaced eval (.tuple l) (.tuple l')
  | dict {l l'} : l'.map (·.1) = l.map (·.1) →
      (∀ (i : Nat) (k : Txt) (v v' : PyVal V), l[i]? = some (k, v) → l'[i]? = some (k, v') → k.head? = some '_' → v' = v) →
      (∀ (i : Nat) (k : Txt) (v v' : PyVal V), l[i]? = some (k, v) → l'[i]? = some (k, v') → k.head? ≠ some '_' → Replaced eval v v') →
      Replaced eval (.dict l) (.dict l')

end Verif.McInstr
