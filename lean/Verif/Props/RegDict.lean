import Verif.Lemmas.RegDict
/-!
The property of the dictionary of a registry (C367).
-/

namespace Verif.RegDict
open Spec

/-- **C367** (partial): in the dictionary of a registry there is, at the path of every registry in it, a dictionary with its name and the values of its
properties, and there is none at other paths. Missing: registries on the path with properties called `name` or `components`, see `C367_name_false` and `C367_false`. -/
theorem C367_partial (path : List String) (r : Reg) (d : Dict) (h : render r = .ok d)
    (hp : ∀ q r', q <+: path → at_ r q = some r' → Proper r') :
    (∀ r', at_ r path = some r' → ∃ d', look d path = some d' ∧ Shows r' d') ∧ (at_ r path = none → look d path = none) := by
  induction path generalizing r d with
  | nil =>
    have ha : at_ r [] = some r := by cases r; rfl
    rw [ha]
    refine ⟨fun r' e => ?_, fun e => by cases e⟩
    cases e
    exact ⟨d, rfl, shows_render (hp [] r List.prefix_rfl ha) h⟩
  | cons f path ih =>
    have hr := hp [] r (List.nil_prefix) (by cases r; rfl)
    obtain ⟨name, ps, fs⟩ := r
    have key : (fs.lookup f = none ∧ look d (f :: path) = none) ∨
        ∃ s e, fs.lookup f = some s ∧ render s = .ok e ∧ look d (f :: path) = look e path := by
      unfold render at h
      split at h
      · rename_i he
        rw [Bool.and_eq_true, List.isEmpty_iff, List.isEmpty_iff] at he
        cases h
        rw [he.2]
        exact .inl ⟨rfl, rfl⟩
      · split at h
        · cases h
        · rename_i cs hcs
          have hd : (entries name ps).lookup "components" = some (.dict []) := by
            rw [lookup_entries, show List.lookup "components" ps = none from hr.2]
            rfl
          have hc := finish_comps hd h
          rw [look, hc]
          by_cases hem : cs.isEmpty = true
          · rw [if_pos hem, renderFacs_isEmpty hcs hem]
            exact .inl ⟨rfl, rfl⟩
          · rw [if_neg hem]
            dsimp only
            rcases renderFacs_lookup fs cs hcs f with ⟨a, b⟩ | ⟨s, e, a, b, c⟩
            · rw [b]
              exact .inl ⟨a, rfl⟩
            · rw [c]
              exact .inr ⟨s, e, a, b, rfl⟩
    rcases key with ⟨a, b⟩ | ⟨s, e, a, b, c⟩
    · rw [b, at_, a]
      exact ⟨fun r' e => (by cases e), fun _ => rfl⟩
    · rw [c, at_, a]
      refine ih s e b fun q r' hq hr' => hp (f :: q) r' (List.cons_prefix_cons.2 ⟨rfl, hq⟩) ?_
      rw [at_, a]
      exact hr'

/-- an instrument with a source that has an energy -/
example : let r := Reg.mk "app" [("ncount", "10")] [("source", .mk "source" [("energy", "60")] [])]
    (∃ d, render r = .ok d) ∧ (∃ r', at_ r ["source"] = some r' ∧ Proper r') ∧ Proper r :=
  ⟨⟨_, rfl⟩, ⟨_, rfl, rfl, rfl⟩, rfl, rfl⟩

/-- **C367** (false in general): a registry with a facility and a property called `components` has no dictionary. -/
theorem C367_false (name v f : String) : render (.mk name [("components", v)] [(f, .mk f [] [])]) = .error .typeError := by
  rfl

/-- **C367** (false in general): a property called `name` hides the name of the registry. -/
theorem C367_name_false (name v : String) (h : v ≠ name) :
    ∃ d, render (.mk name [("name", v)] []) = .ok d ∧ d.lookup "name" = some (.str v) ∧ d.lookup "name" ≠ some (.str name) := by
  refine ⟨_, rfl, rfl, fun e => ?_⟩
  injection e with e
  injection e with e
  exact h e

/-- a different name -/
example : "mysource" ≠ "source" := by
  decide

end Verif.RegDict
