import Mathlib.Tactic.Linarith
import Mathlib.Tactic.Ring
import Mathlib.Data.List.Basic
import Mathlib.Data.List.Dedup
import Verif.Spec.Launch

namespace Verif.Launch

lemma shellFrom_out (word : Option Text) (c : Char) (cs : Text) : shellFrom false word (c :: cs) =
    if c = ' ' then (shellFrom false none cs).map fun l => word.elim l fun w => w :: l
    else if c = '"' then shellFrom true (some (word.getD [])) cs
    else if Plain c then shellFrom false (some (word.getD [] ++ [c])) cs
    else none := by
  cases word <;> simp only [shellFrom]

lemma shellFrom_in (word : Option Text) (c : Char) (cs : Text) : shellFrom true word (c :: cs) =
    if c = '"' then shellFrom false (some (word.getD [])) cs
    else if c = '$' ∨ c = '`' ∨ c = '\\' then none
    else shellFrom true (some (word.getD [] ++ [c])) cs := by
  cases word <;> simp only [shellFrom]

lemma shell_append (b : Text) (wb : List Text) (hb : shell b = some wb) :
    ∀ (a : Text) (q : Bool) (word : Option Text) (wa : List Text), shellFrom q word a = some wa → shellFrom q word (a ++ ' ' :: b) = some (wa ++ wb) := by
  intro a
  induction a with
  | nil =>
    intro q word wa h
    cases q
    · cases word <;> simp [shellFrom] at h <;> subst h <;> simp [shellFrom, show shellFrom false none b = some wb from hb]
    · simp [shellFrom] at h
  | cons c cs ih =>
    intro q word wa h
    cases q
    · rw [List.cons_append]
      rw [shellFrom_out] at h ⊢
      split_ifs at h ⊢ with h1 h2 h3
      · rw [Option.map_eq_some_iff] at h
        obtain ⟨l, hl, rfl⟩ := h
        rw [ih _ _ _ hl]
        cases word <;> simp
      · exact ih _ _ _ h
      · exact ih _ _ _ h
    · rw [List.cons_append]
      rw [shellFrom_in] at h ⊢
      split_ifs at h ⊢ with h1 h2
      · exact ih _ _ _ h
      · exact ih _ _ _ h

lemma shell_join (as : List Text) (ws : Text → List Text) (h : ∀ a ∈ as, shell a = some (ws a)) : shell (join as) = some (as.flatMap ws) := by
  induction as with
  | nil => rfl
  | cons a as ih =>
    cases as with
    | nil => simpa [join] using h a (by simp)
    | cons b as =>
      have := shell_append (join (b :: as)) _ (ih fun x hx => h x (List.mem_cons_of_mem _ hx)) a false none (ws a) (h a (by simp))
      simpa [join, shell] using this

lemma plain_not (c : Char) (h : Plain c) : c ≠ ' ' ∧ c ≠ '"' := by
  constructor <;> rintro rfl <;> revert h <;> decide

lemma shell_plain (cs rest : Text) (h : ∀ c ∈ cs, Plain c) : ∀ w : Text, shellFrom false (some w) (cs ++ rest) = shellFrom false (some (w ++ cs)) rest := by
  induction cs with
  | nil => intro w; simp
  | cons c cs ih =>
    intro w
    have hc := h c (by simp)
    have := plain_not c hc
    rw [List.cons_append]
    conv_lhs => unfold shellFrom
    rw [if_neg this.1, if_neg this.2, if_pos hc]
    simp only [Option.getD_some]
    rw [ih fun x hx => h x (List.mem_cons_of_mem _ hx)]
    simp

lemma shell_quoted (cs rest : Text) (h : ∀ c ∈ cs, c ≠ '"' ∧ c ≠ '$' ∧ c ≠ '`' ∧ c ≠ '\\') : ∀ w : Text,
    shellFrom true (some w) (cs ++ rest) = shellFrom true (some (w ++ cs)) rest := by
  induction cs with
  | nil => intro w; simp
  | cons c cs ih =>
    intro w
    have hc := h c (by simp)
    rw [List.cons_append]
    conv_lhs => unfold shellFrom
    rw [if_neg hc.1, if_neg (by tauto)]
    simp only [Option.getD_some]
    rw [ih fun x hx => h x (List.mem_cons_of_mem _ hx)]
    simp

lemma shell_first (c : Char) (hc : Plain c) (cs : Text) : shellFrom false none (c :: cs) = shellFrom false (some [c]) cs := by
  have := plain_not c hc
  conv_lhs => unfold shellFrom
  rw [if_neg this.1, if_neg this.2, if_pos hc]
  rfl

lemma shell_word (w : Text) (h : PlainWord w) : shell w = some [w] := by
  obtain ⟨hne, hp⟩ := h
  cases w with
  | nil => exact absurd rfl hne
  | cons c cs =>
    have := shell_plain cs [] (fun x hx => hp x (List.mem_cons_of_mem _ hx)) [c]
    rw [List.append_nil] at this
    rw [shell, shell_first c (hp c (by simp)), this]
    rfl

lemma shell_none_plain (k rest : Text) (h : ∀ c ∈ k, Plain c) (hk : k ≠ []) : shellFrom false none (k ++ rest) = shellFrom false (some k) rest := by
  cases k with
  | nil => exact absurd rfl hk
  | cons c cs =>
    rw [List.cons_append, shell_first c (h c (by simp)), shell_plain cs rest (fun x hx => h x (List.mem_cons_of_mem _ hx))]
    rfl

lemma quote_option (k v : Text) (h : '=' ∉ k) : quoteArg (k ++ '=' :: v) = (k ++ ['=']) ++ '"' :: (v ++ ['"']) := by
  have h1 : (k ++ '=' :: v).takeWhile (· ≠ '=') = k := by
    rw [List.takeWhile_append_of_pos (by intro x hx; simp; rintro rfl; exact h hx)]
    simp
  have h2 : (k ++ '=' :: v).dropWhile (· ≠ '=') = '=' :: v := by
    rw [List.dropWhile_append_of_pos (by intro x hx; simp; rintro rfl; exact h hx)]
    simp
  unfold quoteArg
  rw [if_pos (by simp), h1, h2]
  simp

lemma shell_option (w : Text) (h : PlainOption w) : shell (quoteArg w) = some [w] := by
  obtain ⟨k, v, rfl, hk, hp, hv⟩ := h
  rw [quote_option k v hk, shell, shell_none_plain (k ++ ['=']) _ (by
    intro c hc
    rcases List.mem_append.1 hc with hc | hc
    · exact hp c hc
    · rw [List.mem_singleton] at hc
      subst hc
      decide) (by simp)]
  conv_lhs => unfold shellFrom
  rw [if_neg (by decide), if_pos rfl]
  simp only [Option.getD_some]
  rw [shell_quoted v ['"'] hv]
  simp [shellFrom]

lemma shell_quote (w : Text) (h : PlainWord w ∨ PlainOption w) : shell (quoteArg w) = some [w] := by
  rcases h with h | h
  · by_cases he : '=' ∈ w
    · obtain ⟨k, v, rfl, hk⟩ := List.eq_append_cons_of_mem he
      obtain ⟨hne, hp⟩ := h
      refine shell_option _ ⟨k, v, rfl, hk, fun c hc => hp c (by simp [hc]), fun c hc => ?_⟩
      have := hp c (by simp [hc])
      refine ⟨?_, ?_, ?_, ?_⟩ <;> rintro rfl <;> revert this <;> decide
    · unfold quoteArg
      rw [if_neg he]
      exact shell_word w h
  · exact shell_option w h

lemma plain_digits (n : Nat) : PlainWord (Nat.toDigits 10 n) := by
  refine ⟨?_, fun c hc => Or.inl ?_⟩
  · exact Nat.toDigits_ne_nil
  · have := Nat.isDigit_of_mem_toDigits (by decide) (by decide) hc
    simp [Char.isAlphanum, this]

lemma mem_inSupplier (type name : String) (s : Supplier) (category : Option String) (p : String × String) :
    p ∈ inSupplier type name s category ↔ p.2 = name ∧ type ∈ s.types p.1 ∧ (category.elim (p.1 ∈ s.categories) fun c => p.1 = c) := by
  obtain ⟨a, b⟩ := p
  unfold inSupplier
  cases category with
  | none =>
    simp only [Option.elim_none, List.mem_map, List.mem_filter, Prod.mk.injEq, decide_eq_true_eq]
    constructor
    · rintro ⟨c, ⟨h1, h2⟩, rfl, rfl⟩; exact ⟨rfl, h2, h1⟩
    · rintro ⟨rfl, h2, h1⟩; exact ⟨a, ⟨h1, h2⟩, rfl, rfl⟩
  | some d =>
    simp only [Option.elim_some, List.mem_map, List.mem_filter, Prod.mk.injEq, decide_eq_true_eq, List.mem_singleton]
    constructor
    · rintro ⟨c, ⟨rfl, h2⟩, rfl, rfl⟩; exact ⟨rfl, h2, rfl⟩
    · rintro ⟨rfl, h2, rfl⟩; exact ⟨a, ⟨rfl, h2⟩, rfl, rfl⟩

lemma nodup_inSupplier (type name : String) (s : Supplier) (category : Option String) (h : s.categories.Nodup) : (inSupplier type name s category).Nodup := by
  unfold inSupplier
  refine List.Nodup.map (fun a b hab => by simpa using hab) (List.Nodup.filter _ ?_)
  cases category <;> simp [h]

lemma lookup_mem (all : List (String × Supplier)) (n : String) (s : Supplier) (hn : (all.map Prod.fst).Nodup) : all.lookup n = some s ↔ (n, s) ∈ all := by
  induction all with
  | nil => simp
  | cons p all ih =>
    obtain ⟨m, r⟩ := p
    rw [List.map_cons, List.nodup_cons] at hn
    rw [List.lookup_cons]
    by_cases h : n = m
    · subst h
      simp only [beq_self_eq_true, Option.some.injEq, List.mem_cons, Prod.mk.injEq, true_and]
      constructor
      · rintro rfl; exact Or.inl rfl
      · rintro (rfl | h)
        · rfl
        · exact absurd (List.mem_map.2 ⟨_, h, rfl⟩) hn.1
    · have hb : (n == m) = false := by simpa using h
      simp only [hb, List.mem_cons, Prod.mk.injEq, h, false_and, false_or]
      exact ih hn.2

lemma inSuppliers_ok (all : List (String × Supplier)) (type : String) (category : Option String) (hp : Proper all) (ns : List String)
    (hm : ∀ n ∈ ns, n ∈ all.map Prod.fst) (hn : ns.Nodup) : ∃ l, inSuppliers all type category ns = .ok l ∧ l.Nodup ∧
      ∀ c n, (c, n) ∈ l ↔ n ∈ ns ∧ Has all type c n ∧ (∀ d, category = some d → c = d) := by
  induction ns with
  | nil => exact ⟨[], rfl, by simp, by simp⟩
  | cons n ns ih =>
    rw [List.nodup_cons] at hn
    obtain ⟨l, hl, hd, hi⟩ := ih (fun x hx => hm x (List.mem_cons_of_mem _ hx)) hn.2
    obtain ⟨⟨n', s⟩, hs, rfl⟩ := List.mem_map.1 (hm n (by simp))
    simp only at hl hd hi hm hn ⊢
    have hlk := (lookup_mem all n' s hp.1).2 hs
    refine ⟨inSupplier type n' s category ++ l, ?_, ?_, ?_⟩
    · unfold inSuppliers
      rw [hlk]
      simp only [hl]
    · refine List.Nodup.append (nodup_inSupplier _ _ _ _ (hp.2 n' s hs).1) hd ?_
      rintro ⟨c, m⟩ h1 h2
      rw [mem_inSupplier] at h1
      simp only at h1
      rw [h1.1, hi] at h2
      exact hn.1 h2.1
    · intro c m
      rw [List.mem_append, mem_inSupplier, hi, List.mem_cons]
      simp only
      constructor
      · rintro (⟨rfl, h2, h3⟩ | ⟨h1, h2⟩)
        · refine ⟨Or.inl rfl, ⟨s, hs, (hp.2 m s hs).2 c type h2, h2⟩, ?_⟩
          rintro d rfl
          exact h3
        · exact ⟨Or.inr h1, h2⟩
      · rintro ⟨h1, h2, h3⟩
        by_cases e : m = n'
        · subst e
          obtain ⟨r, hr, h4, h5⟩ := h2
          have := (lookup_mem all m r hp.1).2 hr
          rw [hlk] at this
          cases this
          refine Or.inl ⟨rfl, h5, ?_⟩
          cases category with
          | none => exact h4
          | some d => exact h3 d rfl
        · exact Or.inr ⟨h1.resolve_left e, h2, h3⟩

end Verif.Launch
