import Verif.Model.FactoryPy
/-!
What is expected of the python module that is made for a component of McStas.
-/

namespace Verif.FactoryPy

/-- a text that can stand between three quotes: no backslash, no three quotes, no quote at its end -/
def Quotable (s : Text) : Prop := '\\' ∉ s ∧ (∀ x y, s ≠ x ++ '"' :: '"' :: '"' :: y) ∧ s.getLast? ≠ some '"'

/-- values with quotable texts, without `None`, with known classes, and without lists within lists (also not within objects in lists) -/
inductive Fine : Bool → Val → Prop where
  | num (b) (n : Int) : Fine b (.num n)
  | str (b) {s : Text} (h : Quotable s) : Fine b (.str s)
  | list {xs : List Val} (h : ∀ x ∈ xs, Fine true x) : Fine false (.list xs)
  | obj (b) {cls : Text} {attrs : List (Text × Val)} (hc : cls = "ComponentInfo".toList ∨ cls = "Parameter".toList)
      (hn : (attrs.map Prod.fst).Nodup) (hp : ∀ p ∈ attrs, p.1.head? ≠ some '_') (h : ∀ p ∈ attrs, Fine b p.2) : Fine b (.obj cls attrs)

/-- the value that the user gave to a parameter: the positional ones in order, then those with a keyword, then the default -/
def given {V : Type} (params : List (Text × V)) (args : List V) (kw : List (Text × V)) (i : Nat) : Option V :=
  if i < args.length then args[i]? else
    match params[i]? with
    | none => none
    | some p => some ((kw.lookup p.1).getD p.2)

end Verif.FactoryPy
