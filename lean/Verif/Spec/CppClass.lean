import Verif.Model.CppClass
import Mathlib.Data.List.Forall2
/-!
What is expected of the class that is made for a component of McStas.
-/

namespace Verif.CppClass

/-- white space only -/
def Blank (s : Text) : Prop := ∀ c ∈ s, c.isWhitespace

/-- a word of C without white space and without characters that divide declarations -/
def Word (s : Text) : Prop := s ≠ [] ∧ ∀ c ∈ s, ¬ c.isWhitespace ∧ c ≠ ',' ∧ c ≠ ';' ∧ c ≠ '*'

/-- a declared variable: how many times it is a pointer, and its name (for an array with its size) -/
structure Declarator where
  stars : Nat
  name : Text

/-- the text of a variable -/
def VarText (s : Text) (v : Declarator) : Prop :=
  Word v.name ∧ ∃ a b c, Blank a ∧ Blank b ∧ Blank c ∧ s = a ++ List.replicate v.stars '*' ++ b ++ v.name ++ c

/-- the text of a declaration of variables of one type: a word, a space, and the variables with commas between them -/
def DeclText (s : Text) (base : Text) (vars : List Declarator) : Prop :=
  Word base ∧ vars ≠ [] ∧ ∃ a ts, Blank a ∧ List.Forall₂ VarText ts vars ∧ s = a ++ base ++ ' ' :: List.intercalate [','] ts

/-- the text of declarations, each with a semicolon -/
def SectionText (s : Text) (ds : List (Text × List Declarator)) : Prop :=
  ∃ ts tail, Blank tail ∧ List.Forall₂ (fun t d => DeclText t d.1 d.2) ts ds ∧ s = (ts.map (· ++ [';'])).flatten ++ tail

/-- what is declared in C: the variable has its type, as often pointer as there are stars -/
def meant (base : Text) (v : Declarator) : Member := ⟨base ++ List.replicate v.stars '*', v.name⟩

end Verif.CppClass
