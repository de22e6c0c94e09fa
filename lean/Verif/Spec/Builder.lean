import Verif.Spec.Launch
import Verif.Model.Builder
/-!
What is expected of applications that are made from a list of components.
-/

namespace Verif.Builder

open Verif.Launch (Text)

/-- text that a shell leaves as it is inside of double quotes -/
def Quotable (a : Text) : Prop := ∀ c ∈ a, c ≠ '"' ∧ c ≠ '$' ∧ c ≠ '`' ∧ c ≠ '\\'

/-- the program that is to be run: the application with the arguments of the user, and where to leave scripts -/
def wanted (python workdir : Text) (argv : List Text) : List Text :=
  [python, workdir ++ "/simapp.py".toList] ++ argv ++ ["--post-processing-scripts-dir=".toList ++ workdir ++ "/post-processing-scripts".toList]

/-- `u` is somewhere in `s` -/
def Within (u s : Text) : Prop := ∃ a b, s = a ++ u ++ b

/-- an argument about nodes: an option in which `.nodes` is found -/
def AboutNodes (a : Text) : Prop := (∃ b, a = "--".toList ++ b) ∧ Within ".nodes".toList a

/-- the commands for the scripts, one after the other -/
def commands (launcher : Text) (nodes : Nat) (python : Text) (scripts : List Text) : List Text :=
  scripts.map fun s => launcher ++ Nat.toDigits 10 nodes ++ ' ' :: (python ++ ' ' :: s)

end Verif.Builder
