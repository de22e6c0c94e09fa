import Verif.Spec.PyreGeo
import Mathlib.Data.List.Nodup
/-!
Lemmas on the geometer of pyre.
-/

namespace Verif.PyreGeo

open Spec

variable {R : Type}

theorem body_ok : ∀ (names : List String) (ns : Ns), "Register" ∉ names → ns "Register" = none →
    ∃ ns', body ns names = .ok ns' ∧ ∀ n, ns' n = if n ∈ names then some n else ns n
  | [], ns, _, _ => ⟨ns, rfl, fun n => by simp⟩
  | a :: l, ns, h, h0 => by
    rw [List.mem_cons, not_or] at h
    obtain ⟨ns', e, he⟩ := body_ok l (fun m => if m = a then some a else ns m) h.2 (by simp [h.1, h0])
    refine ⟨ns', by simp [body, h0, e], ?_⟩
    intro n
    rw [he]
    by_cases h1 : n ∈ l
    · simp [h1]
    · by_cases h2 : n = a
      · subst h2; simp [h1]
      · simp [h1, h2]

theorem body_register (before after : List String) (x : String) : ∀ ns : Ns, body ns (before ++ "Register" :: x :: after) = .error .typeError := by
  induction before with
  | nil =>
    intro ns
    rw [List.nil_append, body]
    split
    · rfl
    · simp [body]
  | cons a l ih =>
    intro ns
    rw [List.cons_append, body]
    split
    · rfl
    · exact ih _

theorem makeGeometer_ok (origin : R) (names : List String) (user : String → Option R) (dump : Bool) (hne : names ≠ []) (h : "Register" ∉ names) :
    ∃ g, makeGeometer origin names user dump = .ok g ∧ (∀ n, g.reg n = if n ∈ names then some ((user n).getD origin) else none) ∧
      (g.callable = true ↔ "transformer" ∉ names) ∧ g.dumps = (if "dump" ∈ names then true else dump) := by
  obtain ⟨ns, e, hn⟩ := body_ok names (fun _ => none) h rfl
  refine ⟨⟨fun n => (ns n).map fun s => (user s).getD origin, (ns "transformer").isNone, if (ns "dump").isSome then true else dump⟩, by simp [makeGeometer, buildInventory, hne, e, Except.map], ?_, ?_, ?_⟩
  · intro n
    dsimp only
    rw [hn]
    split <;> rfl
  · dsimp only
    rw [hn]
    split <;> simp_all
  · dsimp only
    rw [hn]
    by_cases hd : "dump" ∈ names <;> simp [hd]

theorem index_get {α : Type} [DecidableEq α] : ∀ (l : List α) (i : Nat) (x : α), l.Nodup → l[i]? = some x → index x l = some i
  | [], i, x, _, h => by simp at h
  | a :: l, 0, x, _, h => by
    have : a = x := by simpa using h
    simp [index, this]
  | a :: l, i + 1, x, hn, h => by
    have h' : l[i]? = some x := by simpa using h
    have hx : x ∈ l := List.mem_of_getElem? h'
    have ha : a ≠ x := fun e => (List.nodup_cons.1 hn).1 (e ▸ hx)
    simp [index, ha, index_get l i x (List.nodup_cons.1 hn).2 h']

theorem index_none {α : Type} [DecidableEq α] : ∀ (l : List α) (x : α), x ∉ l → index x l = none
  | [], _, _ => rfl
  | a :: l, x, h => by
    rw [List.mem_cons, not_or] at h
    simp [index, Ne.symm h.1, index_none l x h.2]

theorem tryAliases_unique (reg : String → Option R) (place : String) (r : R) (hr : reg place = some r) :
    ∀ l : List String, place ∈ l → (∀ a ∈ l, a ≠ place → reg a = none) → tryAliases reg l = .ok r
  | [], h, _ => by simp at h
  | a :: l, h, ho => by
    by_cases e : a = place
    · simp [tryAliases, e, hr]
    · have : place ∈ l := by
        rcases List.mem_cons.1 h with h | h
        · exact absurd h.symm e
        · exact h
      simp [tryAliases, ho a (by simp) e, tryAliases_unique reg place r hr l this fun b hb => ho b (by simp [hb])]

end Verif.PyreGeo
