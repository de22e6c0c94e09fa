import Mathlib.Data.List.Basic
import Mathlib.Tactic.Linarith
import Verif.Lemmas.Launch
import Verif.Spec.Builder

namespace Verif.Builder

open Verif.Launch

lemma shell_quote' (a : Text) (h : Quotable a) : shell (quote a) = some [a] := by
  unfold shell quote
  rw [shellFrom_out, if_neg (by decide), if_pos rfl]
  rw [show (none : Option Text).getD [] = [] from rfl, shell_quoted a ['"'] h, List.nil_append, shellFrom_in, if_pos rfl]
  rfl

lemma shell_quotes (argv : List Text) (h : ∀ a ∈ argv, Quotable a) : shell (join (argv.map quote)) = some argv := by
  induction argv with
  | nil => rfl
  | cons a as ih =>
    cases as with
    | nil => simpa [join] using shell_quote' a (h a (by simp))
    | cons b bs =>
      have := shell_append _ _ (ih fun x hx => h x (List.mem_cons_of_mem _ hx)) (quote a) false none _ (shell_quote' a (h a (by simp)))
      simpa [join, shell] using this

lemma cut_some (u : Text) : ∀ s : Text, (Facility.cut u s).isSome = true ↔ Within u s := by
  intro s
  induction s with
  | nil =>
    unfold Facility.cut
    split_ifs with h
    · simp only [Option.isSome_some, true_iff]
      obtain ⟨t, ht⟩ := List.isPrefixOf_iff_prefix.mp h
      exact ⟨[], t, by simpa using ht.symm⟩
    · simp only [Option.isSome_none, Bool.false_eq_true, false_iff]
      rintro ⟨a, b, hab⟩
      apply h
      have : u = [] := by
        have := congrArg List.length hab
        simp only [List.length_nil, List.length_append] at this
        exact List.eq_nil_of_length_eq_zero (by omega)
      simp [this]
  | cons c s ih =>
    unfold Facility.cut
    split_ifs with h
    · simp only [Option.isSome_some, true_iff]
      obtain ⟨t, ht⟩ := List.isPrefixOf_iff_prefix.mp h
      exact ⟨[], t, by simpa using ht.symm⟩
    · rw [Option.isSome_map, ih]
      constructor
      · rintro ⟨a, b, rfl⟩
        exact ⟨c :: a, b, by simp⟩
      · rintro ⟨a, b, hab⟩
        cases a with
        | nil => exact absurd (List.isPrefixOf_iff_prefix.mpr ⟨b, by simpa using hab.symm⟩) h
        | cons d a =>
          simp only [List.cons_append, List.cons.injEq] at hab
          exact ⟨a, b, hab.2⟩

lemma about_iff (a : Text) : ("--".toList.isPrefixOf a = true ∧ mentions a = true) ↔ AboutNodes a := by
  unfold mentions AboutNodes
  rw [cut_some, List.isPrefixOf_iff_prefix]
  constructor
  · rintro ⟨⟨b, hb⟩, h⟩
    exact ⟨⟨b, hb.symm⟩, h⟩
  · rintro ⟨⟨b, hb⟩, h⟩
    exact ⟨⟨b, hb.symm⟩, h⟩

lemma cut_absent (s : Text) (h : '=' ∉ s) : Facility.cut ['='] s = none := by
  induction s with
  | nil => rfl
  | cons c s ih =>
    simp only [List.mem_cons, not_or] at h
    unfold Facility.cut
    rw [if_neg (by simp; exact h.1), ih h.2]
    rfl

lemma cut_first (k v : Text) (h : '=' ∉ k) : Facility.cut ['='] (k ++ '=' :: v) = some (k, v) := by
  induction k with
  | nil => simp [Facility.cut]
  | cons c s ih =>
    simp only [List.mem_cons, not_or] at h
    rw [List.cons_append]
    unfold Facility.cut
    rw [if_neg (by simp; exact h.1), ih h.2]
    rfl

lemma digits_int (n : Nat) : int (Nat.toDigits 10 n) = .ok n := by
  unfold int
  rw [if_neg]
  · have := Nat.ofDigitChars_ten_toDigits (n := n)
    rw [Nat.ofDigitChars_eq_foldl] at this
    rw [this]
  · rintro (h | h)
    · exact Nat.toDigits_ne_nil h
    · have : (Nat.toDigits 10 n).all Char.isDigit = true := by
        rw [List.all_eq_true]
        intro c hc
        exact Nat.isDigit_of_mem_toDigits (by decide) (by decide) hc
      rw [this] at h
      exact absurd h (by decide)

lemma digits_no (n : Nat) : '=' ∉ Nat.toDigits 10 n := by
  intro h
  have := Nat.isDigit_of_mem_toDigits (by decide) (by decide) h
  revert this
  decide

lemma skip (before after : List Text) (h : ∀ a ∈ before, ¬ AboutNodes a) : nodesOption (before ++ after) = nodesOption after := by
  induction before with
  | nil => rfl
  | cons a as ih =>
    rw [List.cons_append]
    conv_lhs => unfold nodesOption
    rw [if_neg (by rw [about_iff]; exact h a (by simp)), ih fun x hx => h x (List.mem_cons_of_mem _ hx)]

lemma ppsd_ok (python prefix' launcher : Text) (status : Text → Nat) (nodes : Nat)
    (hl : ∀ c, Launch.buildLaunchCmd launcher nodes c = .ok (prefix' ++ Nat.toDigits 10 nodes ++ ' ' :: c)) (scripts : List Text) :
    ∃ done, done <+: commands prefix' nodes python scripts ∧
      (runPpsd launcher python status nodes scripts).1 = done.map Act.post ∧
      ((runPpsd launcher python status nodes scripts).2 = .ok () → done = commands prefix' nodes python scripts ∧ ∀ c ∈ done, status c = 0) ∧
      ∀ e, (runPpsd launcher python status nodes scripts).2 = .error e → e = .runtimeError ∧ ∃ c ∈ done, status c ≠ 0 := by
  induction scripts with
  | nil => exact ⟨[], by simp [commands], rfl, fun _ => ⟨rfl, by simp⟩, fun e h => by simp [runPpsd] at h⟩
  | cons s ss ih =>
    obtain ⟨done, h1, h2, h3, h4⟩ := ih
    unfold runPpsd
    rw [hl]
    dsimp only
    by_cases hs : status (prefix' ++ Nat.toDigits 10 nodes ++ ' ' :: (python ++ ' ' :: s)) = 0
    · rw [if_neg (by simpa using hs)]
      refine ⟨_ :: done, ?_, by rw [h2]; rfl, ?_, ?_⟩
      · exact List.cons_prefix_cons.mpr ⟨rfl, h1⟩
      · intro h
        obtain ⟨h5, h6⟩ := h3 h
        refine ⟨by rw [h5]; rfl, ?_⟩
        intro c hc
        rcases List.mem_cons.mp hc with rfl | hc
        · exact hs
        · exact h6 c hc
      · intro e h
        obtain ⟨h5, c, hc, h6⟩ := h4 e h
        exact ⟨h5, c, List.mem_cons_of_mem _ hc, h6⟩
    · rw [if_pos hs]
      refine ⟨[prefix' ++ Nat.toDigits 10 nodes ++ ' ' :: (python ++ ' ' :: s)], ?_, rfl, by intro h; simp at h, ?_⟩
      · exact List.cons_prefix_cons.mpr ⟨rfl, List.nil_prefix⟩
      · intro e h
        simp only [Except.error.injEq] at h
        exact ⟨h.symm, _, by simp, hs⟩

lemma turns_ok (names : List String) (env : Env) (hf : env "facility" = some .function) (h : "facility" ∉ names) :
    ∃ env', turns env names = .ok env' ∧ env' "facility" = some .function ∧
      (∀ m, m ∈ names → m ≠ "name" → m ≠ "code" → env' m = some (.facility m)) ∧
      (∀ m, m ∉ names → m ≠ "name" → m ≠ "code" → env' m = env m) ∧
      (names ≠ [] → env' "name" ≠ none ∧ env' "code" ≠ none) ∧
      (env "name" ≠ none → env' "name" ≠ none) ∧ (env "code" ≠ none → env' "code" ≠ none) := by
  induction names generalizing env with
  | nil => exact ⟨env, rfl, hf, by simp, fun _ _ _ _ => rfl, fun h => absurd rfl h, id, id⟩
  | cons n ns ih =>
    simp only [List.mem_cons, not_or] at h
    set env1 : Env := set (set (set env "name" (.text n)) "code"
      (.text (n ++ " = facility(\"" ++ n ++ "\", default=\"mcni://optics/Dummy\" )"))) n (.facility n) with he
    have ht : turn env n = .ok env1 := by
      unfold turn
      simp only [set, hf, show ("facility" : String) ≠ "code" from by decide, show ("facility" : String) ≠ "name" from by decide, if_false]
      rfl
    have h1 : env1 "facility" = some .function := by
      rw [he]
      simp only [set]
      rw [if_neg h.1, if_neg (by decide), if_neg (by decide), hf]
    have hn : env1 "name" ≠ none := by
      rw [he]; simp only [set]; split_ifs <;> simp
    have hc : env1 "code" ≠ none := by
      rw [he]; simp only [set]; split_ifs <;> simp
    obtain ⟨env', h2, h3, h4, h5, h6, h7, h8⟩ := ih env1 h1 h.2
    refine ⟨env', by unfold turns; rw [ht]; exact h2, h3, ?_, ?_, fun _ => ⟨h7 hn, h8 hc⟩, fun _ => h7 hn, fun _ => h8 hc⟩
    · intro m hm a b
      by_cases hmn : m ∈ ns
      · exact h4 m hmn a b
      · rcases List.mem_cons.mp hm with rfl | hm
        · rw [h5 m hmn a b, he]
          simp [set]
        · exact absurd hm hmn
    · intro m hm a b
      simp only [List.mem_cons, not_or] at hm
      rw [h5 m hm.2 a b, he]
      simp [set, hm.1, a, b]

end Verif.Builder
