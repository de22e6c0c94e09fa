import Verif.Model.Cache
import Mathlib.Data.List.Perm.Basic
/-! Helper lemmas for the cache key. -/

namespace Verif.Cache

theorem insertSorted_perm (a : Str) (l : List Str) : (insertSorted a l).Perm (a :: l) := by
  induction l with
  | nil => exact List.Perm.refl _
  | cons b l ih =>
    simp only [insertSorted]
    split
    · exact List.Perm.refl _
    · exact (List.Perm.cons b ih).trans (List.Perm.swap a b l)

theorem sorted_perm (l : List Str) : (sorted l).Perm l := by
  induction l with
  | nil => exact List.Perm.refl _
  | cons a l ih => exact (insertSorted_perm a _).trans (List.Perm.cons a ih)

theorem append_cons_inj' {a a' : Str} {b b' : Str} (ha : ' ' ∉ a) (ha' : ' ' ∉ a')
    (h : a ++ ' ' :: b = a' ++ ' ' :: b') : a = a' ∧ b = b' := by
  induction a generalizing a' with
  | nil =>
    cases a' with
    | nil => simpa using h
    | cons x a' =>
      simp only [List.nil_append, List.cons_append, List.cons.injEq] at h
      exact absurd (h.1 ▸ List.mem_cons_self) ha'
  | cons x a ih =>
    cases a' with
    | nil =>
      simp only [List.nil_append, List.cons_append, List.cons.injEq] at h
      exact absurd (h.1 ▸ List.mem_cons_self) ha
    | cons y a' =>
      simp only [List.cons_append, List.cons.injEq] at h
      have := ih (fun hm => ha (List.mem_cons_of_mem _ hm)) (fun hm => ha' (List.mem_cons_of_mem _ hm)) h.2
      exact ⟨by rw [h.1, this.1], this.2⟩

/-- words: non-empty, without space -/
def Word (a : Str) : Prop := a ≠ [] ∧ ' ' ∉ a

theorem joinSp_inj (l : List Str) : ∀ l' : List Str, (∀ a ∈ l, Word a) → (∀ a ∈ l', Word a) →
    joinSp l = joinSp l' → l = l' := by
  induction l with
  | nil =>
    intro l' _ h' h
    cases l' with
    | nil => rfl
    | cons b l' =>
      have hb := (h' b (by simp)).1
      cases l' with
      | nil => simp only [joinSp] at h; exact absurd h.symm hb
      | cons c l' => simp [joinSp] at h
  | cons a l ih =>
    intro l' hl h' h
    have ha := hl a (by simp)
    cases l' with
    | nil =>
      cases l with
      | nil => simp only [joinSp] at h; exact absurd h ha.1
      | cons c l => simp [joinSp] at h
    | cons b l' =>
      have hb := h' b (by simp)
      cases l with
      | nil =>
        cases l' with
        | nil => simp only [joinSp] at h; rw [h]
        | cons c l' =>
          simp only [joinSp] at h
          exact absurd (h ▸ List.mem_append_right b List.mem_cons_self) ha.2
      | cons c l =>
        cases l' with
        | nil =>
          simp only [joinSp] at h
          exact absurd (h ▸ List.mem_append_right a List.mem_cons_self) hb.2
        | cons d l' =>
          simp only [joinSp] at h
          obtain ⟨h1, h2⟩ := append_cons_inj' ha.2 hb.2 h
          rw [h1, ih (d :: l') (fun x hx => hl x (by simp only [List.mem_cons] at *; tauto))
            (fun x hx => h' x (by simp only [List.mem_cons] at *; tauto)) h2]

theorem str_antisymm {a b : Str} (h : a ≤ b) (h' : b ≤ a) : a = b := List.le_antisymm h h'
theorem str_trans {a b c : Str} (h : a ≤ b) (h' : b ≤ c) : a ≤ c := List.le_trans h h'
theorem str_total (a b : Str) : a ≤ b ∨ b ≤ a := List.le_total a b

theorem insertSorted_swap (a b : Str) (l : List Str) :
    insertSorted a (insertSorted b l) = insertSorted b (insertSorted a l) := by
  induction l with
  | nil =>
    simp only [insertSorted]
    by_cases h : a ≤ b <;> by_cases h' : b ≤ a <;> simp only [h, h', if_true, if_false]
    · rw [str_antisymm h h']
    · rcases str_total a b with h1 | h1
      · exact absurd h1 h
      · exact absurd h1 h'
  | cons c l ih =>
    simp only [insertSorted]
    by_cases hbc : b ≤ c <;> by_cases hac : a ≤ c <;> simp only [hbc, hac, if_true, if_false, insertSorted]
    · by_cases h : a ≤ b <;> by_cases h' : b ≤ a <;> simp only [h, h', if_true, if_false]
      · rw [str_antisymm h h']
      · rcases str_total a b with h1 | h1
        · exact absurd h1 h
        · exact absurd h1 h'
    · have h : ¬ a ≤ b := fun h => hac (str_trans h hbc)
      simp only [h, if_false]
    · have h : ¬ b ≤ a := fun h => hbc (str_trans h hac)
      simp only [h, if_false]
    · rw [ih]

theorem sorted_of_perm {l l' : List Str} (h : l.Perm l') : sorted l = sorted l' := by
  induction h with
  | nil => rfl
  | cons a _ ih => simp only [sorted, ih]
  | swap a b l => simp only [sorted]; exact insertSorted_swap _ _ _
  | trans _ _ h1 h2 => exact h1.trans h2

end Verif.Cache
