import Verif.Model.Launch
/-!
What is expected of the starting of parallel programs, of working directories and of the finding of components.
-/

namespace Verif.Launch

/-- a character that means nothing special to a shell -/
def Plain (c : Char) : Prop := c.isAlphanum = true ∨ c ∈ "-_./=:,+@%".toList

instance (c : Char) : Decidable (Plain c) := inferInstanceAs (Decidable (_ ∨ _))

/-- how a shell (POSIX, 2.2 and 2.6.5) divides a command into words; only spaces, double quotes and characters without special meaning are
described, `none` for everything else.  `quoted`: inside of double quotes; `word`: the word that has begun. -/
def shellFrom : Bool → Option Text → Text → Option (List Text)
  | false, none, [] => some []
  | false, some w, [] => some [w]
  | true, _, [] => none
  | false, word, c :: cs =>
    if c = ' ' then (shellFrom false none cs).map fun l => word.elim l fun w => w :: l
    else if c = '"' then shellFrom true (some (word.getD [])) cs
    else if Plain c then shellFrom false (some (word.getD [] ++ [c])) cs
    else none
  | true, word, c :: cs =>
    if c = '"' then shellFrom false (some (word.getD [])) cs
    else if c = '$' ∨ c = '`' ∨ c = '\\' then none
    else shellFrom true (some (word.getD [] ++ [c])) cs

/-- the words of a command -/
def shell (command : Text) : Option (List Text) := shellFrom false none command

/-- a word that a shell leaves as it is -/
def PlainWord (w : Text) : Prop := w ≠ [] ∧ ∀ c ∈ w, Plain c

/-- an option with a value: the name is plain, the value has no character that is special inside of double quotes -/
def PlainOption (w : Text) : Prop :=
  ∃ k v, w = k ++ '=' :: v ∧ '=' ∉ k ∧ (∀ c ∈ k, Plain c) ∧ ∀ c ∈ v, c ≠ '"' ∧ c ≠ '$' ∧ c ≠ '`' ∧ c ≠ '\\'

/-- what the processes are started with: the program of the user with its arguments, as workers -/
def started (s : Settings) (extra : List Text) (argv0 : Text) (argv : List Text) : List Text :=
  [s.command] ++ extra ++ [s.nodesopt, Nat.toDigits 10 (max 1 s.nodes).toNat, s.python] ++ [argv0, "--mode=worker".toList] ++ argv

/-- a supplier that has a component of the type in the category -/
def Has (all : List (String × Supplier)) (type category supplier : String) : Prop :=
  ∃ s, (supplier, s) ∈ all ∧ category ∈ s.categories ∧ type ∈ s.types category

/-- suppliers: names are different, a category is listed once, and there are no types in a category that is not listed -/
def Proper (all : List (String × Supplier)) : Prop :=
  (all.map Prod.fst).Nodup ∧ ∀ n s, (n, s) ∈ all → s.categories.Nodup ∧ ∀ c t, t ∈ s.types c → c ∈ s.categories

end Verif.Launch
