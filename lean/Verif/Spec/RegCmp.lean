import Verif.Model.RegCmp
/-!
What is expected of the comparison of the settings of two applications.
-/

namespace Verif.RegCmp

/-- the part of a registry that is reached by the names of components -/
def part : Reg → List String → Option Reg
  | r, [] => some r
  | r, n :: ns => match r.components.lookup n with
    | none => none
    | some r => part r ns

/-- the value of a setting; a setting that is missing is taken for one with the value `None` -/
def value (r : Reg) (k : String) : Val := ((r.entries.find? fun x => x.1 = k).map Prod.snd).getD none

/-- a registry as it is made: in each part there is a name, names of settings and of components are different -/
def Proper (r : Reg) : Prop :=
  ∀ path q, part r path = some q → (∃ v, ("name", v) ∈ q.entries) ∧ (q.entries.map Prod.fst).Nodup ∧ (q.components.map Prod.fst).Nodup ∧
    (∀ v, ("components", v) ∉ q.entries)

/-- the differences of two registries, with the number of spaces that shows how deep they are: values of a setting that is not the name, components
that only one of them has, and the differences of components that both have -/
inductive Differs : Reg → Reg → Nat → Line → Prop
  | value {r1 r2 : Reg} {i : Nat} {k : String} : k ≠ "name" → value r1 k ≠ value r2 k → Differs r1 r2 i (.changed i k (value r1 k) (value r2 k))
  | left {r1 r2 q : Reg} {i : Nat} {n : String} : part r1 [n] = some q → part r2 [n] = none → Differs r1 r2 i (.only (i + 2) n (RegCmp.value q "name") none)
  | right {r1 r2 q : Reg} {i : Nat} {n : String} : part r1 [n] = none → part r2 [n] = some q → Differs r1 r2 i (.only (i + 2) n none (RegCmp.value q "name"))
  | inside {r1 r2 q1 q2 : Reg} {i : Nat} {n : String} {l : Line} : part r1 [n] = some q1 → part r2 [n] = some q2 → Differs q1 q2 (i + 2) l →
      Differs r1 r2 i l

/-- a line that tells a difference -/
def Tells : Line → Prop
  | .changed _ _ _ _ => True
  | .only _ _ _ _ => True
  | _ => False

end Verif.RegCmp
