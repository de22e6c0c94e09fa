import Verif.Spec.Help
import Mathlib.Tactic.Common
/-!
Lemmas about asking for help.
-/

namespace Verif.Help

open Spec

mutual

theorem requested_iff : ∀ e : Comp, requested e = true ↔ ∃ c, Within c e ∧ c.asked = true
  | .mk a f n s => by
    rw [requested]
    cases a with
    | true => exact ⟨fun _ => ⟨_, .here _, rfl⟩, fun _ => rfl⟩
    | false =>
      rw [if_neg (by simp), requestedAny_iff s]
      constructor
      · rintro ⟨d, hd, c, hc, ha⟩; exact ⟨c, .sub (e := .mk false f n s) hd hc, ha⟩
      · rintro ⟨c, hc, ha⟩
        cases hc with
        | here => simp [Comp.asked] at ha
        | sub hd h => exact ⟨_, hd, c, h, ha⟩

theorem requestedAny_iff : ∀ s : List Comp, requestedAny s = true ↔ ∃ d ∈ s, ∃ c, Within c d ∧ c.asked = true
  | [] => by simp [requestedAny]
  | d :: s => by
    rw [requestedAny]
    by_cases h : requested d = true
    · rw [if_pos h]
      exact ⟨fun _ => ⟨d, by simp, (requested_iff d).1 h⟩, fun _ => rfl⟩
    · rw [if_neg h, requestedAny_iff s]
      constructor
      · rintro ⟨e, he, r⟩; exact ⟨e, by simp [he], r⟩
      · rintro ⟨e, he, r⟩
        rcases List.mem_cons.1 he with hed | he
        · exact absurd ((requested_iff d).2 (hed ▸ r)) h
        · exact ⟨e, he, r⟩

end

theorem setList_mem {d : Comp} : ∀ {s : List Comp}, d ∈ setList s → ∃ e ∈ s, d = setAll e
  | [], h => by simp [setList] at h
  | e :: s, h => by
    rw [setList] at h
    rcases List.mem_cons.1 h with rfl | h
    · exact ⟨e, by simp, rfl⟩
    · obtain ⟨e', he, r⟩ := setList_mem h
      exact ⟨e', by simp [he], r⟩

theorem setAll_flag (e : Comp) : (setAll e).flag = true := by
  cases e; rfl

theorem within_setAll {c x : Comp} (h : Within c x) : ∀ e, x = setAll e → c.flag = true := by
  induction h with
  | here => rintro e rfl; exact setAll_flag e
  | sub hd _ ih =>
    rintro e rfl
    cases e with
    | mk a f n s =>
      obtain ⟨e', _, r⟩ := setList_mem hd
      exact ih e' r

mutual

theorem bare_setAll : ∀ e : Comp, bare (setAll e) = bare e
  | .mk a f n s => by rw [setAll, bare, bare, bareList_setList s]

theorem bareList_setList : ∀ s : List Comp, bareList (setList s) = bareList s
  | [] => rfl
  | c :: s => by rw [setList, bareList, bareList, bare_setAll c, bareList_setList s]

end

theorem flags_worker (app : Comp) (h : ∀ c, Within c app → c.flag = false) (hr : requested app = false) :
    init .worker app = app := by
  have hb : beforeInventory app = app := by
    unfold beforeInventory
    rw [h app (.here _), hr]
    rfl
  unfold init
  rw [hb]
  cases app with
  | mk a f n s =>
    have hf : f = false := h _ (.here _)
    have hs : s.any Comp.flag = false := by
      rw [List.any_eq_false]
      intro d hd
      rw [h d (.sub (e := .mk a f n s) hd (.here _))]
      simp
    subst hf
    simp [tellNeutrons, initInventory, hs]

end Verif.Help
