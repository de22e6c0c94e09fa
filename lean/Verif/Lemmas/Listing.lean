import Verif.Spec.Listing
import Verif.Lemmas.Facility
import Verif.Lemmas.Launch
import Verif.Props.Launch
import Verif.Props.Facility
/-!
Lemmas about the lists of components and the command `mcvine component`.
-/

namespace Verif.Listing

open Launch Spec

theorem stem_iff (n t : String) : stem n = some t ↔ n = t ++ ".comp" := by
  unfold stem
  constructor
  · intro h
    split at h
    · rename_i hs
      obtain ⟨x, hx⟩ := List.isSuffixOf_iff_suffix.mp hs
      cases h
      apply String.toList_inj.mp
      rw [String.toList_append, String.toList_ofList, ← hx]
      simp
    · cases h
  · rintro rfl
    have : ".comp".toList.isSuffixOf (t ++ ".comp").toList := by
      rw [List.isSuffixOf_iff_suffix, String.toList_append]; exact List.suffix_append _ _
    rw [if_pos this, String.toList_append]
    simp

theorem mem_defaultCategories (L : Library) (c : String) :
    c ∈ defaultCategories L ↔ (c, true) ∈ L.items ∧ ¬ hidden c ∧ c ≠ "CVS" ∧ c ≠ "data" := by
  unfold defaultCategories
  simp only [List.mem_map, List.mem_filter, Prod.exists, Bool.and_eq_true, Bool.not_eq_true', List.contains_iff_mem, exists_and_right, exists_eq_right]
  constructor
  · rintro ⟨b, h1, ⟨h2, h3⟩, rfl⟩
    simp at h3
    exact ⟨h1, by simp [h2], h3.1, h3.2⟩
  · rintro ⟨h1, h2, h3, h4⟩
    exact ⟨true, h1, ⟨by simpa using h2, by simp [h3, h4]⟩, rfl⟩

theorem mem_defaultComponents (L : Library) (c t : String) :
    t ∈ defaultComponents L c ↔ (t ++ ".comp", true) ∈ L.files c ∧ ¬ hidden (t ++ ".comp") := by
  unfold defaultComponents
  simp only [List.mem_filterMap, List.mem_filter, Prod.exists, Bool.and_eq_true, Bool.not_eq_true', stem_iff]
  constructor
  · rintro ⟨n, b, ⟨h1, ⟨h2, -⟩, rfl⟩, rfl⟩
    exact ⟨h1, by simp [h2]⟩
  · rintro ⟨h1, h2⟩
    refine ⟨_, true, ⟨h1, ⟨by simpa using h2, ?_⟩, rfl⟩, rfl⟩
    rw [List.contains_eq_mem]
    simp only [List.mem_singleton, decide_eq_false_iff_not]
    intro h
    have := congrArg (fun s => s.toList.getLast?) h
    simp only [String.toList_append] at this
    rw [List.getLast?_append] at this
    rw [show ".comp".toList.getLast? = some 'p' from by decide, show "CVS".toList.getLast? = some 'S' from by decide, Option.some_or] at this
    exact absurd this (by decide)

theorem mem_registeredIn (r : List (String × List String)) (c t : String) : t ∈ registeredIn r c ↔ Registered r c t := by
  unfold registeredIn Registered
  cases r.lookup c with
  | none => simp
  | some l => simp

theorem mem_componentsIn (all : List (String × Supplier)) (c t s : String) : (t, s) ∈ componentsIn all c ↔ Has all t c s := by
  unfold componentsIn Has
  simp only [List.mem_flatMap, Prod.exists]
  constructor
  · rintro ⟨n, v, h1, h2⟩
    by_cases hc : c ∈ v.categories
    · rw [if_neg (not_not_intro hc)] at h2
      obtain ⟨t', ht, e⟩ := List.mem_map.mp h2
      cases e
      exact ⟨v, h1, hc, ht⟩
    · rw [if_pos hc] at h2; simp at h2
  · rintro ⟨v, h1, h2, h3⟩
    refine ⟨s, v, h1, ?_⟩
    rw [if_neg (not_not_intro h2)]
    exact List.mem_map.mpr ⟨t, h3, rfl⟩

theorem mem_allCategories (all : List (String × Supplier)) (c : String) :
    c ∈ allCategories all ↔ ∃ n s, (n, s) ∈ all ∧ c ∈ s.categories := by
  unfold allCategories
  simp only [List.mem_dedup, List.mem_flatMap, Prod.exists]

theorem lookup_mem {α : Type} {all : List (String × α)} {n : String} {v : α} (h : all.lookup n = some v) : (n, v) ∈ all := by
  induction all with
  | nil => cases h
  | cons p ps ih =>
    obtain ⟨m, w⟩ := p
    rw [List.lookup_cons] at h
    by_cases e : n = m
    · subst e
      simp at h; subst h; exact List.mem_cons_self
    · have : (n == m) = false := by simpa using e
      rw [this] at h
      exact List.mem_cons_of_mem _ (ih h)

theorem lookup_unique {α : Type} {all : List (String × α)} (hd : (all.map Prod.fst).Nodup) {n : String} {v : α} (h : (n, v) ∈ all) : all.lookup n = some v := by
  induction all with
  | nil => cases h
  | cons p ps ih =>
    obtain ⟨m, w⟩ := p
    rw [List.map_cons, List.nodup_cons] at hd
    rw [List.lookup_cons]
    rcases List.mem_cons.mp h with e | h'
    · cases e; simp
    · have : (n == m) = false := by
        simp only [beq_eq_false_iff_ne]
        rintro rfl
        exact hd.1 (List.mem_map.mpr ⟨_, h', rfl⟩)
      rw [this]; exact ih hd.2 h'

theorem splitAll_no (s : List Char) : ∀ a ∈ Facility.splitAll ',' s, ',' ∉ a := by
  induction s with
  | nil => simp [Facility.splitAll]
  | cons d s ih =>
    rw [Facility.splitAll]
    by_cases hd : d = ','
    · rw [if_pos hd]
      intro a ha
      rcases List.mem_cons.mp ha with rfl | ha
      · simp
      · exact ih a ha
    · rw [if_neg hd]
      cases h : Facility.splitAll ',' s with
      | nil => exact absurd h (Facility.splitAll_ne _ _)
      | cons p ps =>
        rw [h] at ih
        intro a ha
        rcases List.mem_cons.mp ha with rfl | ha
        · rw [List.mem_cons, not_or]
          exact ⟨fun e => hd e.symm, ih p List.mem_cons_self⟩
        · exact ih a (List.mem_cons_of_mem _ ha)

theorem splitAll_join (s : List Char) : List.intercalate [','] (Facility.splitAll ',' s) = s := by
  rw [← Facility.join_eq]
  induction s with
  | nil => rfl
  | cons d s ih =>
    rw [Facility.splitAll]
    cases h : Facility.splitAll ',' s with
    | nil => exact absurd h (Facility.splitAll_ne _ _)
    | cons p ps =>
      rw [h] at ih
      by_cases hd : d = ','
      · rw [if_pos hd]; subst hd
        show [] ++ ',' :: Facility.join (p :: ps) = _
        rw [ih]; rfl
      · rw [if_neg hd]
        cases ps with
        | nil => show d :: p = _; rw [← ih]; rfl
        | cons q qs =>
          show (d :: p) ++ ',' :: Facility.join (q :: qs) = _
          rw [← ih]; rfl

/-- a specifier is written in the syntax for specifiers -/
theorem specifier_written (type : String) (args : List (List Char)) :
    specifier type args = Facility.written ⟨none, none, type.toList, if args = [] then none else some args⟩ := by
  unfold specifier Facility.written
  by_cases h : args = []
  · simp [h]
  · simp [h, Facility.join_eq]

end Verif.Listing
