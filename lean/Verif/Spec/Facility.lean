import Verif.Model.Facility
import Mathlib.Data.List.Basic
/-!
Specification of the syntax of component specifiers: `<supplier>://<category>/<type>(<arg>,<arg>,...)`, where all parts but
the type may be left out.
-/

namespace Verif.Facility

/-- a specifier written in this syntax -/
def written (s : Spec) : List Char :=
  (match s.supplier with | none => [] | some a => a ++ [':', '/', '/']) ++
  (match s.category with | none => [] | some a => a ++ ['/']) ++ s.type ++
  (match s.args with | none => [] | some as => ['('] ++ List.intercalate [','] as ++ [')'])

/-- blanks before and after are left out -/
def Trimmed (a b : List Char) : Prop :=
  ∃ x y, a = x ++ b ++ y ∧ (∀ c ∈ x, c.isWhitespace) ∧ (∀ c ∈ y, c.isWhitespace) ∧
    (∀ c ∈ b.head?, ¬ c.isWhitespace) ∧ ∀ c ∈ b.getLast?, ¬ c.isWhitespace

/-- the parts contain none of the characters with a meaning, there is no white space in the type, and if there are arguments
then they are not all blank -/
structure Clean (s : Spec) : Prop where
  supplier : ∀ a ∈ s.supplier, '/' ∉ a
  category : ∀ a ∈ s.category, '/' ∉ a
  type : '/' ∉ s.type ∧ '(' ∉ s.type ∧ (s.args ≠ none → ∀ c ∈ s.type, ¬ c.isWhitespace)
  args : ∀ as ∈ s.args, (∀ a ∈ as, '/' ∉ a ∧ '(' ∉ a ∧ ',' ∉ a) ∧ (as.length ≥ 2 ∨ ∃ a ∈ as, ∃ c ∈ a, ¬ c.isWhitespace)

end Verif.Facility
