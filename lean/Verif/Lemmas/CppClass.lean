import Verif.Spec.CppClass
import Verif.Lemmas.Facility
/-!
Lemmas about the class that is made for a component of McStas.
-/

namespace Verif.CppClass

open Verif.Facility

theorem parseVars_congr (t : Text) : ∀ {xs ys : List Text}, xs.map strip = ys.map strip → parseVars t xs = parseVars t ys
  | [], [], _ => rfl
  | [], _ :: _, h => by simp at h
  | _ :: _, [], h => by simp at h
  | x :: xs, y :: ys, h => by
    simp only [List.map_cons, List.cons.injEq] at h
    rw [parseVars, parseVars, h.1, parseVars_congr t h.2]

theorem word_last {s : Text} (h : Word s) : ∀ c ∈ s.getLast?, ¬ c.isWhitespace := fun c hc =>
  (h.2 c (List.mem_of_getLast? hc)).1

theorem word_head {s : Text} (h : Word s) : ∀ c ∈ s.head?, ¬ c.isWhitespace := fun c hc =>
  (h.2 c (List.mem_of_head? hc)).1

theorem word_strip {s : Text} (h : Word s) : strip s = s :=
  trimmed_strip ⟨[], [], by simp, by simp, by simp, word_head h, word_last h⟩

theorem last_append {x n : Text} (h : n ≠ []) : (x ++ n).getLast? = n.getLast? := by
  rw [List.getLast?_append]
  cases hn : n.getLast? with
  | none => exact absurd (List.getLast?_eq_none_iff.1 hn) h
  | some c => rfl

theorem var_strip {s : Text} {v : Declarator} (h : VarText s v) :
    ∃ b, Blank b ∧ strip s = if v.stars = 0 then v.name else List.replicate v.stars '*' ++ (b ++ v.name) := by
  obtain ⟨w, a, b, c, ha, hb, hc, rfl⟩ := h
  refine ⟨b, hb, ?_⟩
  by_cases h0 : v.stars = 0
  · rw [if_pos h0, h0]
    refine trimmed_strip ⟨a ++ b, c, by simp, ?_, hc, word_head w, word_last w⟩
    intro d hd
    rcases List.mem_append.1 hd with hd | hd
    · exact ha d hd
    · exact hb d hd
  · rw [if_neg h0]
    refine trimmed_strip ⟨a, c, by simp, ha, hc, ?_, ?_⟩
    · obtain ⟨n, e⟩ := Nat.exists_eq_succ_of_ne_zero h0
      rw [e, List.replicate_succ]
      intro d hd
      simp only [List.cons_append, List.head?_cons, Option.mem_def, Option.some.injEq] at hd
      subst hd
      decide
    · rw [last_append (by simp [w.1]), last_append w.1]
      exact word_last w

theorem upToStar_eq {n : Nat} (h : n ≠ 0) {r : Text} (hr : '*' ∉ r) :
    upToStar (List.replicate n '*' ++ r) = List.replicate n '*' := by
  unfold upToStar
  obtain ⟨m, rfl⟩ := Nat.exists_eq_succ_of_ne_zero h
  have e1 : ∀ {l : Text}, '*' ∉ l → ∀ k, List.dropWhile (fun c => decide (c ≠ '*')) (l ++ List.replicate (k + 1) '*') = List.replicate (k + 1) '*' := by
    intro l hl k
    rw [List.dropWhile_append_of_pos, List.replicate_succ]
    · simp
    · intro c hc
      have : c ≠ '*' := by
        rintro rfl
        exact hl hc
      simpa using this
  rw [List.reverse_append, List.reverse_replicate, e1 (by simpa using hr), List.reverse_replicate]

theorem blank_star {b : Text} (h : Blank b) : '*' ∉ b := fun hb => absurd (h _ hb) (by decide)

theorem word_star {b : Text} (h : Word b) : '*' ∉ b := fun hb => (h.2 _ hb).2.2.2 rfl

theorem parseVar_ok (base : Text) {s : Text} {v : Declarator} (h : VarText s v) :
    parseVar base (strip s) = .ok (meant base v) := by
  obtain ⟨b, hb, e⟩ := var_strip h
  have w := h.1
  rw [e]
  by_cases h0 : v.stars = 0
  · rw [if_pos h0, parseVar, if_neg, meant, h0]
    · simp
    · intro hh
      exact word_star w (List.mem_of_head? hh)
  · have hs : '*' ∉ b ++ v.name := by
      rw [List.mem_append, not_or]
      exact ⟨blank_star hb, word_star w⟩
    rw [if_neg h0, parseVar, if_pos, upToStar_eq h0 hs, if_pos]
    · have : strip (b ++ v.name) = v.name := trimmed_strip ⟨b, [], by simp, hb, by simp, word_head w, word_last w⟩
      rw [List.length_replicate, List.drop_left' (List.length_replicate ..), this]
      rfl
    · simp
    · obtain ⟨n, e⟩ := Nat.exists_eq_succ_of_ne_zero h0
      rw [e, List.replicate_succ]
      rfl

theorem parseVars_ok (base : Text) : ∀ {ts : List Text} {vs : List Declarator}, List.Forall₂ VarText ts vs →
    parseVars base ts = .ok (vs.map (meant base))
  | _, _, .nil => rfl
  | _, _, .cons h hs => by
    rw [parseVars, parseVar_ok base h, parseVars_ok base hs]
    rfl

theorem var_chars {s : Text} {v : Declarator} (h : VarText s v) : ',' ∉ s ∧ ';' ∉ s := by
  obtain ⟨w, a, b, c, ha, hb, hc, rfl⟩ := h
  have hbl : ∀ d : Char, d.isWhitespace = false → ∀ {x : Text}, Blank x → d ∉ x := fun d hd x hx hm => by
    have := hx d hm
    rw [hd] at this
    cases this
  have hw : ',' ∉ v.name ∧ ';' ∉ v.name := ⟨fun hm => (w.2 _ hm).2.1 rfl, fun hm => (w.2 _ hm).2.2.1 rfl⟩
  constructor
  · simp [hbl ',' (by decide) ha, hbl ',' (by decide) hb, hbl ',' (by decide) hc, hw.1, List.mem_replicate]
  · simp [hbl ';' (by decide) ha, hbl ';' (by decide) hb, hbl ';' (by decide) hc, hw.2, List.mem_replicate]

theorem vars_chars : ∀ {ts : List Text} {vs : List Declarator}, List.Forall₂ VarText ts vs → ∀ t ∈ ts, ',' ∉ t ∧ ';' ∉ t
  | _, _, .nil => by simp
  | _, _, .cons h hs => by
    intro t ht
    rcases List.mem_cons.1 ht with rfl | ht
    · exact var_chars h
    · exact vars_chars hs t ht

theorem join_mem {d : Char} (hd : d ≠ ',') : ∀ {ts : List Text}, (∀ t ∈ ts, d ∉ t) → d ∉ join ts
  | [], _ => by simp [join]
  | [a], h => h a List.mem_cons_self
  | a :: b :: as, h => by
    rw [join]
    have := join_mem hd (ts := b :: as) fun t ht => h t (List.mem_cons_of_mem _ ht)
    simp [h a List.mem_cons_self, hd, this]
    intro hh; exact absurd hh (by simp)

theorem decl_ok {s base : Text} {vs : List Declarator} (h : DeclText s base vs) :
    parseDeclaration (strip s) = .ok (vs.map (meant base)) := by
  obtain ⟨w, hv, a, ts, ha, hts, rfl⟩ := h
  rw [← join_eq]
  have hne : ts ≠ [] := by
    rintro rfl
    cases hts
    exact hv rfl
  have hc := vars_chars hts
  obtain ⟨y, ey, hy, hl⟩ := rstrip_decomp (join ts)
  have hsp : splitAll ',' (join ts) = ts := splitAll_join hne fun t ht => (hc t ht).1
  have hJ : rstrip (join ts) ≠ [] := by
    intro e
    rw [e, List.nil_append] at ey
    have h1 := splitAll_right (s := []) hy
    rw [List.nil_append, ← ey, hsp] at h1
    cases hts with
    | nil => exact hne rfl
    | cons hh hrest =>
      rename_i t v ts' vs'
      simp only [List.map_cons, splitAll, List.map_nil, List.cons.injEq] at h1
      have h2 : strip ([] : List Char) = [] := rfl
      rw [h2] at h1
      obtain ⟨b, -, e2⟩ := var_strip hh
      rw [h1.1] at e2
      split at e2
      · exact hh.1.1 e2.symm
      · have := congrArg List.length e2
        have hn := List.length_pos_iff.2 hh.1.1
        simp only [List.length_nil, List.length_append, List.length_replicate] at this
        omega
  have hst : strip (a ++ base ++ ' ' :: join ts) = base ++ ' ' :: rstrip (join ts) := by
    refine trimmed_strip ⟨a, y, ?_, ha, hy, ?_, ?_⟩
    · conv_lhs => rw [ey]
      simp
    · intro c hcc
      obtain ⟨b0, bs, eb⟩ := List.exists_cons_of_ne_nil w.1
      rw [eb] at hcc
      simp only [List.cons_append, List.head?_cons, Option.mem_def, Option.some.injEq] at hcc
      subst hcc
      exact (w.2 b0 (by rw [eb]; exact List.mem_cons_self)).1
    · have : (base ++ ' ' :: rstrip (join ts)) = (base ++ [' ']) ++ rstrip (join ts) := by simp
      rw [this, last_append hJ]
      exact hl
  have hb : ∀ c ∈ base, (decide (c ≠ ' ')) = true := by
    intro c hcc
    have : c ≠ ' ' := by
      rintro rfl
      exact (w.2 _ hcc).1 (by decide)
    simpa using this
  rw [hst, parseDeclaration, if_neg (by simp), if_neg (by simp), List.takeWhile_append_of_pos hb, List.dropWhile_append_of_pos hb]
  have e1 : (' ' :: rstrip (join ts)).takeWhile (fun c => decide (c ≠ ' ')) = [] := by simp
  have e2 : (' ' :: rstrip (join ts)).dropWhile (fun c => decide (c ≠ ' ')) = ' ' :: rstrip (join ts) := by simp
  rw [e1, e2, List.append_nil, word_strip w, List.tail_cons]
  have e3 : (splitAll ',' (rstrip (join ts))).map strip = ts.map strip := by
    have e4 := splitAll_right (s := rstrip (join ts)) hy
    rw [← ey, hsp] at e4
    exact e4.symm
  rw [parseVars_congr base e3, parseVars_ok base hts]

theorem decl_semi {s base : Text} {vs : List Declarator} (h : DeclText s base vs) : ';' ∉ s := by
  obtain ⟨w, hv, a, ts, ha, hts, rfl⟩ := h
  rw [← join_eq]
  have h1 : ';' ∉ a := fun hm => absurd (ha _ hm) (by decide)
  have h2 : ';' ∉ base := fun hm => (w.2 _ hm).2.2.1 rfl
  have h3 : ';' ∉ join ts := join_mem (by decide) fun t ht => (vars_chars hts t ht).2
  simp [h1, h2, h3]

theorem blank_strip {s : Text} (h : Blank s) : strip s = [] :=
  trimmed_strip ⟨s, [], by simp, h, by simp, by simp, by simp⟩

theorem section_split {tail : Text} (ht : Blank tail) : ∀ {ts : List Text} {ds : List (Text × List Declarator)},
    List.Forall₂ (fun t d => DeclText t d.1 d.2) ts ds →
    parseAll (splitAll ';' ((ts.map (· ++ [';'])).flatten ++ tail)) = .ok (ds.flatMap fun d => d.2.map (meant d.1))
  | _, _, .nil => by
    have h1 : ';' ∉ tail := fun hm => absurd (ht _ hm) (by decide)
    simp only [List.map_nil, List.flatten_nil, List.nil_append, List.flatMap_nil]
    rw [splitAll_single h1, parseAll, blank_strip ht]
    rfl
  | _, _, .cons (a := t) (b := d) (l₁ := ts) (l₂ := ds) h hs => by
    have e : ((t :: ts).map (· ++ [';'])).flatten ++ tail = t ++ ';' :: ((ts.map (· ++ [';'])).flatten ++ tail) := by simp
    rw [e, splitAll_append _ (decl_semi h), parseAll, decl_ok h, section_split ht hs]
    rfl

theorem section_ok {s : Text} {ds : List (Text × List Declarator)} (h : SectionText s ds) :
    parse s = .ok (ds.flatMap fun d => d.2.map (meant d.1)) := by
  obtain ⟨ts, tail, ht, hts, rfl⟩ := h
  exact section_split ht hts

theorem mem_public {outputs : List Text} {ms : List Member} {m : Member} :
    m ∈ publicMembers outputs ms ↔ m ∈ ms ∧ m.name ∈ outputs := by
  simp [publicMembers]

theorem mem_private {outputs : List Text} {ms : List Member} {m : Member} :
    m ∈ privateMembers outputs ms ↔ m ∈ ms ∧ m.name ∉ outputs := by
  simp only [privateMembers, List.mem_filter, List.mem_map, mem_public, decide_eq_true_eq]
  constructor
  · rintro ⟨h1, h2⟩
    exact ⟨h1, fun h => h2 ⟨m, ⟨h1, h⟩, rfl⟩⟩
  · rintro ⟨h1, h2⟩
    refine ⟨h1, ?_⟩
    rintro ⟨x, ⟨-, h3⟩, e⟩
    rw [e] at h3
    exact h2 h3

theorem argName_inj {p q : Text} (h : argName p = argName q) : p = q := List.append_cancel_left h

/-- the assignments with arguments that hide no parameter: the arguments stay, and a member has its value once it was assigned -/
theorem assignAll_ok {V : Type} {val : Text → V} : ∀ {ps : List Text} {s : State V}, (∀ p ∈ ps, s.args p = none) →
    (∀ p ∈ ps, s.args (argName p) = some (val p)) →
    (assignAll s (transfers ps)).args = s.args ∧ ∀ n, (assignAll s (transfers ps)).members n = if n ∈ ps then some (val n) else s.members n
  | [], s, _, _ => ⟨rfl, fun n => by simp [assignAll, transfers]⟩
  | p :: ps, s, h1, h2 => by
    have hp := h1 p List.mem_cons_self
    have hq := h2 p List.mem_cons_self
    have e : assign s (p, argName p) = { s with members := fun n => if n = p then some (val p) else s.members n } := by
      simp [assign, hp, hq]
    have key := assignAll_ok (val := val) (ps := ps) (s := assign s (p, argName p))
      (by rw [e]; exact fun q hq => h1 q (List.mem_cons_of_mem _ hq)) (by rw [e]; exact fun q hq => h2 q (List.mem_cons_of_mem _ hq))
    have e2 : assignAll s (transfers (p :: ps)) = assignAll (assign s (p, argName p)) (transfers ps) := rfl
    rw [e2]
    refine ⟨key.1.trans (by rw [e]), fun n => ?_⟩
    rw [key.2 n, e]
    by_cases hn : n ∈ ps
    · simp [hn]
    · by_cases hnp : n = p
      · simp [hnp]
      · simp [hn, hnp]

end Verif.CppClass
