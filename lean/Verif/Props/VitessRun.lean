import Verif.Spec.VitessRun
import Mathlib.Tactic.Common
/-!
The property of components of vitess (C368).
-/

namespace Verif.VitessRun
open Spec

/-- **C368** (partial): without a place for the modules, and if the module without parameters fails, the user is told so. Missing: that the neutrons
afterwards are those that the module writes, see `C368_false`. -/
theorem C368_partial {ν} (w : World ν) (m : Text) :
    (¬ IsSet w → ∀ module_ params, process w module_ params = .error .runtimeError) ∧
    (∀ d, w.dir = some d → d ≠ [] → ∀ code ns, w.run (d ++ '/' :: m) = some (code, ns) → code ≠ 0 →
      process w (some m) [] = .error .runtimeError) := by
  constructor
  · intro h module_ params
    have : modules w = .error .runtimeError := by
      unfold modules
      split
      · rfl
      · rfl
      · rename_i d hd hn
        exact absurd ⟨d, hn, hd⟩ h
    unfold process
    rw [this]
  · intro d hd hne code ns hr hc
    have : modules w = .ok d := by
      unfold modules
      rw [hd]
      cases d with
      | nil => exact absurd rfl hne
      | cons => rfl
    unfold process
    rw [this]
    dsimp only [program, args, join]
    rw [hr]
    dsimp only [finish]
    rw [if_pos hc]

/-- a world with a module that fails -/
example : let w : World Nat := ⟨some ['v'], fun _ => some (1, [])⟩
    IsSet w ∧ w.run (['v'] ++ '/' :: ['m']) = some (1, []) :=
  ⟨⟨_, rfl, by simp⟩, rfl⟩

/-- **C368** (false in general): there is never a result, whatever the module does; also if it does its work and writes neutrons. -/
theorem C368_false {ν} (w : World ν) (module_ : Option Text) (params : List (Text × Text)) :
    (∀ ns, process w module_ params ≠ .ok ns) ∧
    (∀ ns, Fine w ns → module_ ≠ none → params = [] → process w module_ params = .error .typeError) := by
  have hf : ∀ code (written : List ν) ns, finish code (output false written) ≠ .ok ns := by
    intro code written ns
    unfold finish
    split <;> simp [output]
  constructor
  · intro ns h
    unfold process at h
    split at h
    · cases h
    · split at h
      · cases h
      · split at h
        · cases h
        · split at h
          · cases h
          · exact hf _ _ _ h
  · rintro ns ⟨⟨d, hd, hne⟩, hr⟩ hm rfl
    obtain ⟨m, rfl⟩ := Option.ne_none_iff_exists'.1 hm
    have : modules w = .ok d := by
      unfold modules
      rw [hd]
      cases d with
      | nil => exact absurd rfl hne
      | cons => rfl
    unfold process
    rw [this]
    dsimp only [program, args, join]
    rw [hr]
    rfl

/-- a world in which all is fine -/
example : Fine (⟨some ['v'], fun _ => some (0, [1, 2])⟩ : World Nat) [1, 2] :=
  ⟨⟨_, rfl, by simp⟩, fun _ => rfl⟩

/-- **C368** (false in general): parameters do not reach the module: keys that have not two characters are an error, and of those that have two the value is
not used. -/
theorem C368_args_false (k v v' : Text) (a b : Char) :
    (k.length ≠ 2 → args [(k, v)] = .error .valueError) ∧ args [([a, b], v)] = args [([a, b], v')] ∧
    args [([a, b], v)] = .ok [['-', a, ' ', b]] := by
  refine ⟨fun h => ?_, rfl, rfl⟩
  match k, h with
  | [], _ => rfl
  | [_], _ => rfl
  | [_, _], h => exact absurd rfl h
  | _ :: _ :: _ :: _, _ => rfl

/-- a key of one character, as the modules have them -/
example : ['a'].length ≠ 2 := by
  decide

end Verif.VitessRun
