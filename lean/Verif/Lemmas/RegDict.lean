import Verif.Spec.RegDict
import Mathlib.Tactic.Common
/-!
Lemmas about the dictionary of a registry.
-/

namespace Verif.RegDict
open Spec

theorem lk {α} (x : String) (v : α) (l : List (String × α)) (k : String) :
    ((x, v) :: l).lookup k = if k = x then some v else l.lookup k := by
  rw [List.lookup_cons]
  by_cases h : k = x
  · rw [if_pos h, beq_iff_eq.2 h]
  · rw [if_neg h, beq_eq_false_iff_ne.2 h]

theorem lookup_append' {α} (a b : List (String × α)) (k : String) : (a ++ b).lookup k = (a.lookup k).or (b.lookup k) := by
  induction a with
  | nil => rfl
  | cons x a ih =>
    obtain ⟨x, v⟩ := x
    rw [List.cons_append, lk, lk]
    by_cases h : k = x
    · rw [if_pos h, if_pos h]
      rfl
    · rw [if_neg h, if_neg h]
      exact ih

theorem lookup_map' (ps : List (String × String)) (k : String) :
    (ps.map fun p => (p.1, Val.str p.2)).lookup k = (ps.lookup k).map Val.str := by
  induction ps with
  | nil => rfl
  | cons x a ih =>
    obtain ⟨x, v⟩ := x
    rw [List.map_cons, lk, lk]
    by_cases h : k = x
    · rw [if_pos h, if_pos h]
      rfl
    · rw [if_neg h, if_neg h]
      exact ih

theorem lookup_del (d : Dict) {k j : String} (h : k ≠ j) : (del d j).lookup k = d.lookup k := by
  induction d with
  | nil => rfl
  | cons x a ih =>
    obtain ⟨x, v⟩ := x
    unfold del at ih ⊢
    by_cases hx : x = j
    · rw [List.filter_cons_of_neg (by simp [hx]), ih, lk, if_neg (hx ▸ h)]
    · rw [List.filter_cons_of_pos (by simpa using hx), lk, lk, ih]

theorem lookup_del_self (d : Dict) (k : String) : (del d k).lookup k = none := by
  induction d with
  | nil => rfl
  | cons x a ih =>
    obtain ⟨x, v⟩ := x
    unfold del at ih ⊢
    by_cases hx : x = k
    · rw [List.filter_cons_of_neg (by simp [hx]), ih]
    · rw [List.filter_cons_of_pos (by simpa using hx), lk, if_neg (Ne.symm hx), ih]

theorem lookup_entries (name : String) (ps : List (String × String)) (k : String) :
    (entries name ps).lookup k = ((ps.lookup k).map Val.str).or
      (if k = "components" then some (.dict []) else if k = "name" then some (.str name) else none) := by
  unfold entries
  rw [lookup_append', lookup_map', lk, lk]
  rfl

theorem finish_other {d c d' : Dict} (h : finish d c = .ok d') {k : String} (hk : k ≠ "components") : d'.lookup k = d.lookup k := by
  unfold finish at h
  split at h
  · split at h
    · cases h
      exact lookup_del d hk
    · cases h
      rw [lk, if_neg hk]
  · split at h
    · split at h
      · cases h
        exact lookup_del d hk
      · cases h
        rfl
    · cases h
  · cases h

theorem finish_comps {d c d' : Dict} (hd : d.lookup "components" = some (.dict [])) (h : finish d c = .ok d') :
    d'.lookup "components" = if c.isEmpty then none else some (.dict c) := by
  unfold finish at h
  rw [hd] at h
  dsimp only at h
  split at h
  · rename_i hc
    cases h
    rw [if_pos hc]
    exact lookup_del_self d _
  · rename_i hc
    cases h
    rw [if_neg hc]
    rfl

theorem renderFacs_lookup (fs : List (String × Reg)) (ds : Dict) (h : renderFacs fs = .ok ds) (f : String) :
    (fs.lookup f = none ∧ ds.lookup f = none) ∨ ∃ r d, fs.lookup f = some r ∧ render r = .ok d ∧ ds.lookup f = some (.dict d) := by
  induction fs generalizing ds with
  | nil =>
    unfold renderFacs at h
    cases h
    exact .inl ⟨rfl, rfl⟩
  | cons x fs ih =>
    obtain ⟨g, r⟩ := x
    unfold renderFacs at h
    split at h
    · cases h
    · rename_i d hd
      split at h
      · cases h
      · rename_i es hes
        cases h
        rw [lk, lk]
        by_cases hf : f = g
        · rw [if_pos hf, if_pos hf]
          exact .inr ⟨r, d, rfl, hd, rfl⟩
        · rw [if_neg hf, if_neg hf]
          exact ih es hes

theorem renderFacs_isEmpty {fs : List (String × Reg)} {ds : Dict} (h : renderFacs fs = .ok ds) : ds.isEmpty = true → fs = [] := by
  cases fs with
  | nil => exact fun _ => rfl
  | cons x fs =>
    obtain ⟨g, r⟩ := x
    unfold renderFacs at h
    split at h
    · cases h
    · split at h
      · cases h
      · cases h
        intro e
        cases e

/-- one registry: name and properties are in its dictionary -/
theorem shows_render {r : Reg} (hp : Proper r) {d : Dict} (h : render r = .ok d) : Shows r d := by
  obtain ⟨name, ps, fs⟩ := r
  obtain ⟨h1, h2⟩ := hp
  unfold render at h
  split at h
  · rename_i he
    rw [Bool.and_eq_true, List.isEmpty_iff, List.isEmpty_iff] at he
    cases h
    refine ⟨rfl, fun k hk _ => ?_⟩
    rw [he.1, lk, if_neg hk]
    rfl
  · split at h
    · cases h
    · refine ⟨?_, fun k hk hk' => ?_⟩
      · rw [finish_other h (by decide), lookup_entries]
        change ((List.lookup "name" ps).map Val.str).or _ = _
        rw [show List.lookup "name" ps = none from h1]
        rfl
      · rw [finish_other h hk', lookup_entries, if_neg hk', if_neg hk, Option.or_none]

end Verif.RegDict
