import Verif.Spec.McInstr
import Verif.Lemmas.Facility
import Verif.Lemmas.Geometer
/-!
Lemmas for the conversion of instruments of McStas.
-/

namespace Verif.McInstr
open Facility Geometer Frames

/-! ### cutting texts -/

theorem cut_none' {sep : Txt} (h0 : sep ≠ []) : ∀ {s : Txt}, ¬ sep <:+: s → cut sep s = none
  | [], _ => by
    rw [cut, if_neg]
    cases sep with
    | nil => exact absurd rfl h0
    | cons c s => simp [List.isPrefixOf]
  | c :: s, h => by
    rw [cut, if_neg, cut_none' h0 (s := s) fun h' => h (h'.trans (List.suffix_cons c s).isInfix)]
    · rfl
    · rw [List.isPrefixOf_iff_prefix]
      exact fun h' => h h'.isInfix

theorem cut_eq {sep b : Txt} : ∀ {a : Txt}, (∀ x y, a = x ++ y → y ≠ [] → ¬ sep <+: y ++ sep ++ b) → cut sep (a ++ sep ++ b) = some (a, b)
  | [], _ => by
    rw [List.nil_append]
    cases hs : sep ++ b with
    | nil =>
      rw [List.append_eq_nil_iff] at hs
      obtain ⟨rfl, rfl⟩ := hs
      rfl
    | cons c s =>
      rw [cut, if_pos, ← hs]
      · simp
      · rw [List.isPrefixOf_iff_prefix, ← hs]; exact List.prefix_append _ _
  | c :: a, h => by
    rw [List.cons_append, List.cons_append, cut, if_neg, cut_eq (a := a) fun x y e hy => h (c :: x) y (by rw [e]; rfl) hy]
    · rfl
    · rw [List.isPrefixOf_iff_prefix]
      exact h [] (c :: a) rfl (by simp)

theorem no_early {sep a b : Txt} (h : ¬ sep <:+: a) (hl : ∀ c ∈ a.getLast?, c ∉ sep) (x y : Txt) (e : a = x ++ y) (hy : y ≠ []) :
    ¬ sep <+: y ++ sep ++ b := by
  intro hp
  rw [List.append_assoc] at hp
  rcases List.prefix_or_prefix_of_prefix hp (List.prefix_append y _) with h1 | h1
  · exact h (h1.isInfix.trans (by rw [e]; exact (List.suffix_append x y).isInfix))
  · have hlast : a.getLast? = some (y.getLast hy) := by
      rw [e, List.getLast?_append_of_ne_nil _ hy, List.getLast?_eq_some_getLast hy]
    apply hl _ hlast
    exact h1.subset (List.getLast_mem hy)

theorem splitWord_none {sep : Txt} (h0 : sep ≠ []) {s : Txt} (h : ¬ sep <:+: s) (fuel : Nat) : splitWord sep fuel s = [s] := by
  cases fuel with
  | zero => rfl
  | succ n => rw [splitWord, cut_none' h0 h]

theorem splitWord_pieces {sep : Txt} (h0 : sep ≠ []) : ∀ (ps : List Txt) (a : Txt) (fuel : Nat),
    (∀ p ∈ a :: ps, ¬ sep <:+: p ∧ ∀ c ∈ p.getLast?, c ∉ sep) → (a ++ ps.flatMap fun p => sep ++ p).length ≤ fuel →
    splitWord sep fuel (a ++ ps.flatMap fun p => sep ++ p) = a :: ps
  | [], a, fuel, h, _ => by
    simp only [List.flatMap_nil, List.append_nil]
    exact splitWord_none h0 (h a List.mem_cons_self).1 fuel
  | p :: ps, a, fuel, h, hf => by
    obtain ⟨h1, h2⟩ := h a List.mem_cons_self
    have e : a ++ (p :: ps).flatMap (fun p => sep ++ p) = a ++ sep ++ (p ++ ps.flatMap fun p => sep ++ p) := by
      simp [List.flatMap_cons, List.append_assoc]
    rw [e] at hf ⊢
    have hs : 0 < sep.length := List.length_pos_of_ne_nil h0
    cases fuel with
    | zero => simp only [List.length_append] at hf; omega
    | succ n =>
      rw [splitWord, cut_eq (no_early h1 h2)]
      show a :: _ = _
      rw [splitWord_pieces h0 ps p n (fun q hq => h q (List.mem_cons_of_mem _ hq)) (by
        simp only [List.length_append] at hf ⊢; omega)]

/-! ### comments -/

theorem remove_plain : ∀ (fuel : Nat) (a s : Txt), (∀ x y, a = x ++ y → y ≠ [] → ¬ ['/', '*'] <+: y ++ s) → a.length ≤ fuel →
    removeComments fuel (a ++ s) = a ++ removeComments (fuel - a.length) s
  | fuel, [], s, _, _ => by simp
  | 0, c :: a, s, _, h => by simp at h
  | fuel + 1, c :: a, s, h, hf => by
    rw [List.cons_append, removeComments, if_neg]
    · rw [remove_plain fuel a s (fun x y e hy => h (c :: x) y (by rw [e]; rfl) hy) (by simpa using hf)]
      simp
    · rw [List.isPrefixOf_iff_prefix]
      exact h [] (c :: a) rfl (by simp)

theorem remove_nil (fuel : Nat) : removeComments fuel [] = [] := by cases fuel <;> rfl

theorem two_no {p q : Char} (hpq : p ≠ q) {a r : Txt} (h : ¬ [p, q] <:+: a) (x y : Txt) (e : a = x ++ y) (hy : y ≠ []) :
    ¬ [p, q] <+: y ++ (p :: r) := by
  intro hp
  match y, hy with
  | [c], _ =>
    obtain ⟨u, hu⟩ := hp
    simp only [List.cons_append, List.nil_append, List.cons.injEq] at hu
    exact hpq hu.2.1.symm
  | c :: d :: y, _ =>
    obtain ⟨u, hu⟩ := hp
    simp only [List.cons_append, List.nil_append, List.cons.injEq] at hu
    obtain ⟨rfl, rfl, -⟩ := hu
    exact h ⟨x, y, by rw [e]; simp⟩

theorem removeComments_eq {s t : Txt} (h : Uncommented s t) : ∀ fuel, s.length ≤ fuel → removeComments fuel s = t := by
  induction h with
  | @plain t h =>
    intro fuel hf
    have := remove_plain fuel t [] (by
      rintro x y e hy hp
      rw [List.append_nil] at hp
      exact h (hp.isInfix.trans (by rw [e]; exact (List.suffix_append x y).isInfix))) hf
    rw [List.append_nil, remove_nil, List.append_nil] at this
    exact this
  | @comment a b s t ha hb hs ih =>
    intro fuel hf
    have e : a ++ ['/', '*'] ++ b ++ ['*', '/'] ++ s = a ++ ('/' :: '*' :: (b ++ ['*', '/'] ++ s)) := by simp
    rw [e] at hf ⊢
    rw [remove_plain fuel a _ (two_no (by decide) ha) (by simp only [List.length_append] at hf; omega)]
    congr 1
    obtain ⟨n, hn⟩ : ∃ n, fuel - a.length = n + 1 := ⟨fuel - a.length - 1, by simp only [List.length_append, List.length_cons] at hf; omega⟩
    rw [hn, removeComments, if_pos (by simp [List.isPrefixOf])]
    have hc : closeComment (List.drop 1 ('*' :: (b ++ ['*', '/'] ++ s))) = some s := by
      unfold closeComment
      rw [List.drop_one, List.tail_cons, cut_eq]
      · rfl
      · intro x y e hy
        have := two_no (p := '*') (q := '/') (by decide) (r := '/' :: s) hb x y e hy
        simpa using this
    rw [hc]
    exact ih n (by simp only [List.length_append, List.length_cons] at hf; simp at hf; omega)

/-! ### regular expressions -/

theorem greedy_back {α : Type} {p : Char → Bool} {k : Txt → Option α} {u : Txt} {a : α} (hk : k u = some a)
    (hno : ∀ u1 u2, u = u1 ++ u2 → u1 ≠ [] → (∀ c ∈ u1, p c = true) → k u2 = none) :
    ∀ t : Txt, (∀ c ∈ t, p c = true) → greedy p k (t ++ u) = some (t, a)
  | [], _ => by
    have none' : ∀ v w : Txt, u = w ++ v → w ≠ [] → (∀ c ∈ w, p c = true) → greedy p k v = none := by
      intro v
      induction v with
      | nil => intro w e hw h; rw [greedy, hno w [] e hw h]; rfl
      | cons c v ih =>
        intro w e hw h
        rw [greedy]
        split
        · next hc =>
          rw [ih (w ++ [c]) (by rw [e]; simp) (by simp) (by
            intro d hd; rw [List.mem_append, List.mem_singleton] at hd
            rcases hd with hd | rfl
            · exact h d hd
            · exact hc)]
          simp only
          rw [hno w _ e hw h]; rfl
        · rw [hno w _ e hw h]; rfl
    rw [List.nil_append]
    cases u with
    | nil => rw [greedy, hk]; rfl
    | cons c u =>
      rw [greedy]
      split
      · next hc =>
        rw [none' u [c] rfl (by simp) (by simpa using hc)]
        simp only
        rw [hk]; rfl
      · rw [hk]; rfl
  | c :: t, h => by
    rw [List.cons_append, greedy, if_pos (h c List.mem_cons_self), greedy_back hk hno t fun d hd => h d (List.mem_cons_of_mem _ hd)]

theorem greedy_max {α : Type} {p : Char → Bool} {k : Txt → Option α} {t u : Txt} {a : α} (hk : k u = some a) (hu : ∀ c ∈ u.head?, p c = false)
    (ht : ∀ c ∈ t, p c = true) : greedy p k (t ++ u) = some (t, a) := by
  refine greedy_back hk ?_ t ht
  rintro u1 u2 rfl h1 h2
  cases u1 with
  | nil => exact absurd rfl h1
  | cons c u1 =>
    have := hu c rfl
    rw [h2 c List.mem_cons_self] at this
    cases this

theorem star_max {p : Char → Bool} {cap : Bool} {is : List Item} {t u : Txt} {r : List Txt} (hk : matchAt is u = some r)
    (hu : ∀ c ∈ u.head?, p c = false) (ht : ∀ c ∈ t, p c = true) :
    matchAt (.star p cap :: is) (t ++ u) = some (if cap then t :: r else r) := by
  rw [matchAt, greedy_max hk hu ht]; rfl

theorem star_back {p : Char → Bool} {is : List Item} {t u : Txt} {r : List Txt} (hk : matchAt is u = some r)
    (hno : ∀ u1 u2, u = u1 ++ u2 → u1 ≠ [] → (∀ c ∈ u1, p c = true) → matchAt is u2 = none) (ht : ∀ c ∈ t, p c = true) :
    matchAt (.star p true :: is) (t ++ u) = some (t :: r) := by
  rw [matchAt, greedy_back hk hno t ht]; rfl

theorem one_cons {p : Char → Bool} {is : List Item} {c : Char} {s : Txt} (h : p c = true) : matchAt (.one p :: is) (c :: s) = matchAt is s := by
  rw [matchAt, if_pos h]

theorem greedy_none {α : Type} {p : Char → Bool} {k : Txt → Option α} : ∀ {s : Txt}, (∀ u v, s = u ++ v → k v = none) → greedy p k s = none
  | [], h => by rw [greedy, h [] [] rfl]; rfl
  | c :: s, h => by
    rw [greedy]
    split
    · rw [greedy_none (s := s) fun u v e => h (c :: u) v (by rw [e]; rfl)]
      simp only
      rw [h [] _ rfl]; rfl
    · rw [h [] _ rfl]; rfl

/-- an expression that needs a character which is not there does not match -/
theorem star_none {p : Char → Bool} {cap : Bool} {is : List Item} {s : Txt} (h : ∀ u v, s = u ++ v → matchAt is v = none) :
    matchAt (.star p cap :: is) s = none := by
  rw [matchAt, greedy_none h]; rfl

/-- the number of commas that the rest needs -/
theorem comma_none {is : List Item} {n : Nat} (h : ∀ v : Txt, v.count ',' < n → matchAt is v = none) {v : Txt} (hv : v.count ',' < n + 1) :
    matchAt (.one (· == ',') :: is) v = none := by
  cases v with
  | nil => rfl
  | cons c v =>
    rw [matchAt]
    split
    · next hc =>
      rw [beq_iff_eq] at hc
      subst hc
      apply h
      simpa using hv
    · rfl

theorem star_count {p : Char → Bool} {cap : Bool} {is : List Item} {n : Nat} (h : ∀ v : Txt, v.count ',' < n → matchAt is v = none) {v : Txt}
    (hv : v.count ',' < n) : matchAt (.star p cap :: is) v = none := by
  apply star_none
  rintro u w rfl
  apply h
  rw [List.count_append] at hv
  omega

theorem close_none {is : List Item} {v : Txt} (hv : ')' ∉ v) : matchAt (.one (· == ')') :: is) v = none := by
  cases v with
  | nil => rfl
  | cons c v =>
    rw [matchAt, if_neg]
    intro h
    rw [beq_iff_eq] at h
    apply hv; rw [h]; exact List.mem_cons_self

/-! ### a component -/

theorem white_blank {c : Char} (h : blank c = true) : c.isWhitespace = true := by
  simp only [blank, Bool.or_eq_true, beq_iff_eq] at h
  rcases h with rfl | rfl <;> decide

theorem blanks_iff {b : Txt} (h : Blanks b) : ∀ c ∈ b, blank c = true := by
  intro c hc
  rcases h c hc with rfl | rfl <;> decide

theorem head_append {a b : Txt} {P : Char → Prop} (ha : ∀ c ∈ a, P c) (hb : ∀ c ∈ b.head?, P c) : ∀ c ∈ (a ++ b).head?, P c := by
  cases a with
  | nil => exact hb
  | cons d a =>
    intro c hc
    rw [List.cons_append, List.head?_cons, Option.mem_some_iff] at hc
    exact ha c (by rw [hc]; exact List.mem_cons_self)

theorem nameChar_of {c : Char} (h : c.isWhitespace = false ∧ c ≠ '(' ∧ c ≠ ')' ∧ c ≠ '=') : nameChar c = true ∧ blank c = false := by
  obtain ⟨h1, h2, h3, h4⟩ := h
  constructor
  · have : c ≠ ' ' := by rintro rfl; exact absurd h1 (by decide)
    simp [nameChar, this, h2, h3, h4]
  · by_contra hb
    rw [Bool.not_eq_false] at hb
    rw [white_blank hb] at h1
    cases h1

theorem name_head {a b : Txt} (h : a ≠ []) (ha : ∀ c ∈ a, c.isWhitespace = false ∧ c ≠ '(' ∧ c ≠ ')' ∧ c ≠ '=') :
    ∀ c ∈ (a ++ b).head?, blank c = false := by
  cases a with
  | nil => exact absurd rfl h
  | cons d a =>
    intro c hc
    rw [List.cons_append, List.head?_cons, Option.mem_some_iff] at hc
    exact (nameChar_of (ha c (by rw [hc]; exact List.mem_cons_self))).2

theorem search_of {is : List Item} {s : Txt} {r : List Txt} (h : matchAt is s = some r) : search is s = some r := by
  cases s with
  | nil => exact h
  | cons c s => rw [search, h]

/-- the text of a component is split into name, type, parameters and the rest -/
theorem component_match {b0 name b1 b2 type b3 ps rest : Txt} (h0 : Blanks b0) (h1 : ∀ c ∈ b1, c = ' ') (h2 : Blanks b2) (h3 : ∀ c ∈ b3, c = ' ')
    (hn : ∀ c, c ∈ name ∨ c ∈ type → c.isWhitespace = false ∧ c ≠ '(' ∧ c ≠ ')' ∧ c ≠ '=') (he : name ≠ [] ∧ type ≠ [])
    (hp : ∀ c ∈ ps, c ≠ '(' ∧ c ≠ ')') :
    search componentRe (b0 ++ (name ++ (b1 ++ '=' :: (b2 ++ (type ++ (b3 ++ '(' :: (ps ++ ')' :: rest))))))) = some [name, type, ps, rest] := by
  apply search_of
  unfold componentRe
  have sp : ∀ {b : Txt}, (∀ c ∈ b, c = ' ') → ∀ c ∈ b, blank c = true := fun h c hc => by rw [h c hc]; decide
  have r1 : matchAt [.star (fun _ => true) true] rest = some [rest] := by
    have := star_max (p := fun _ => true) (cap := true) (is := []) (t := rest) (u := []) (r := []) rfl (by simp) (by simp)
    rw [List.append_nil] at this
    exact this
  have r2 : matchAt [.star noBracket true, .one (· == ')'), .star (fun _ => true) true] (ps ++ ')' :: rest) = some [ps, rest] :=
    star_max (by rw [one_cons (by decide)]; exact r1) (by simp [noBracket]) (fun c hc => by simp [noBracket, hp c hc])
  have r3 : matchAt [.star blank false, .one (· == '('), .star noBracket true, .one (· == ')'), .star (fun _ => true) true]
      (b3 ++ '(' :: (ps ++ ')' :: rest)) = some [ps, rest] :=
    star_max (by rw [one_cons (by decide)]; exact r2) (by simp [blank]) (sp h3)
  have hd3 : ∀ {b : Txt} {d : Char} {s : Txt}, (∀ c ∈ b, c = ' ') → nameChar d = false → ∀ c ∈ (b ++ d :: s).head?, nameChar c = false := by
    intro b d s hb hd
    exact head_append (fun c hc => by rw [hb c hc]; decide) (by simp [hd])
  have r4 := star_max (p := nameChar) (cap := true) r3 (hd3 h3 (by decide)) (t := type) (fun c hc => (nameChar_of (hn c (.inr hc))).1)
  have r5 := star_max (p := blank) (cap := false) r4 (name_head he.2 fun c hc => hn c (.inr hc)) (blanks_iff h2)
  have r6 := star_max (p := blank) (cap := false) (is := .one (· == '=') :: _) (u := '=' :: _) (by rw [one_cons (by decide)]; exact r5)
    (by simp [blank]) (sp h1)
  have r7 := star_max (p := nameChar) (cap := true) r6 (hd3 h1 (by decide)) (t := name) (fun c hc => (nameChar_of (hn c (.inl hc))).1)
  exact star_max (p := blank) (cap := false) r7 (name_head he.1 fun c hc => hn c (.inl hc)) (blanks_iff h0)

/-! ### words -/

theorem spelled_all {P : Char → Prop} {a w : Txt} (h : Spelled a w) (hw : ∀ c ∈ w, P c ∧ P c.toLower) : ∀ c ∈ a, P c := by
  induction h with
  | nil => simp
  | @cons c d a w hcd _ ih =>
    intro e he
    rcases List.mem_cons.1 he with rfl | he
    · rcases hcd with rfl | rfl
      · exact (hw _ List.mem_cons_self).1
      · exact (hw _ List.mem_cons_self).2
    · exact ih (fun c hc => hw c (List.mem_cons_of_mem _ hc)) e he

theorem spelled_map {g : Char → Char} {a w : Txt} (h : Spelled a w) (hw : ∀ c ∈ w, g c.toLower = g c) : a.map g = w.map g := by
  induction h with
  | nil => rfl
  | @cons c d a w hcd _ ih =>
    rw [List.map_cons, List.map_cons, ih fun c hc => hw c (List.mem_cons_of_mem _ hc)]
    rcases hcd with rfl | rfl
    · rfl
    · rw [hw _ List.mem_cons_self]

theorem spelled_ne {a w : Txt} (h : Spelled a w) (hw : w ≠ []) : a ≠ [] := by
  cases h with
  | nil => exact absurd rfl hw
  | cons _ _ => simp

theorem key_match {is : List Item} {s : Txt} {key word : Txt} (h : Spelled key word) (hw : ∀ c ∈ word, c.toLower.toLower = c.toLower) :
    matchAt (word.map (fun c => Item.one (letter c)) ++ is) (key ++ s) = matchAt is s := by
  induction h with
  | nil => rfl
  | @cons c d a w hcd _ ih =>
    rw [List.map_cons, List.cons_append, List.cons_append, one_cons, ih fun c hc => hw c (List.mem_cons_of_mem _ hc)]
    unfold letter
    rw [beq_iff_eq]
    rcases hcd with rfl | rfl
    · rfl
    · exact hw _ List.mem_cons_self

theorem alt_match {is : List Item} {s rel : Txt} {r : List Txt} (h : Spelled rel "RELATIVE".toList ∨ Spelled rel "ABSOLUTE".toList)
    (hk : matchAt is s = some r) : matchAt (.alt ["RELATIVE".toList, "ABSOLUTE".toList] :: is) (rel ++ s) = some (rel :: r) := by
  have hl : rel.length = 8 := by
    rcases h with h | h
    · exact h.length_eq
    · exact h.length_eq
  have ht : (rel ++ s).take 8 = rel := by rw [← hl, List.take_left]
  have hd : (rel ++ s).drop 8 = s := by rw [← hl, List.drop_left]
  have l1 : "RELATIVE".toList.length = 8 := rfl
  have l2 : "ABSOLUTE".toList.length = 8 := rfl
  rw [matchAt]
  unfold alternatives
  rw [l1, ht, hd, hk]
  unfold alternatives
  rw [l2, ht, hd, hk]
  unfold same
  rcases h with h | h
  · rw [spelled_map h (g := Char.toLower) (by decide), if_pos (by decide)]
    rfl
  · rw [spelled_map h (g := Char.toLower) (by decide), if_neg (by decide), if_pos (by decide)]
    rfl

/-! ### clauses -/

/-- the line without the blanks at its ends -/
def Clause.core (c : Clause) : Txt :=
  c.key ++ (' ' :: c.b1 ++ ('(' :: c.x ++ (',' :: c.y ++ (',' :: c.z ++ (')' :: c.b2 ++ (c.rel ++ (c.b3 ++ c.ref)))))))

theorem blanks_no {b : Txt} (h : Blanks b) {d : Char} (hd : d ≠ ' ' ∧ d ≠ '\t') : d ∉ b := by
  intro hm
  rcases h d hm with rfl | rfl
  · exact hd.1 rfl
  · exact hd.2 rfl

theorem rel_no {c : Clause} {word : Txt} (h : c.Ok word) {d : Char} (hd : d = ',' ∨ d = ')') :
    d ∉ c.rel ∧ d ∉ c.ref ∧ d ∉ c.b2 ∧ d ∉ c.b3 := by
  have hb : d ≠ ' ' ∧ d ≠ '\t' := by rcases hd with rfl | rfl <;> decide
  refine ⟨?_, ?_, blanks_no h.blanks.2.2.1 hb, blanks_no h.blanks.2.2.2.1 hb⟩
  · intro hm
    have key : ∀ w : Txt, w = "ABSOLUTE".toList ∨ w = "RELATIVE".toList → Spelled c.rel w → False := by
      intro w hw hs
      have := spelled_all (P := fun e => e ≠ ',' ∧ e ≠ ')') hs (by rcases hw with rfl | rfl <;> decide) d hm
      rcases hd with rfl | rfl
      · exact this.1 rfl
      · exact this.2 rfl
    rcases h.relation with ⟨hs, -⟩ | ⟨hs, -⟩
    · exact key _ (.inl rfl) hs
    · exact key _ (.inr rfl) hs
  · intro hm
    rcases h.relation with ⟨-, -, hs⟩ | ⟨-, -, -, hs⟩
    · rw [hs] at hm; cases hm
    · have := hs d hm
      rcases hd with rfl | rfl
      · exact this.2.1 rfl
      · exact this.2.2 rfl

theorem rel_head {c : Clause} {word s : Txt} (h : c.Ok word) : ∀ d ∈ (c.rel ++ s).head?, blank d = false := by
  have key : ∀ w : Txt, w = "ABSOLUTE".toList ∨ w = "RELATIVE".toList → Spelled c.rel w → ∀ d ∈ (c.rel ++ s).head?, blank d = false := by
    intro w hw hs
    have hne : c.rel ≠ [] := spelled_ne hs (by rcases hw with rfl | rfl <;> decide)
    have := spelled_all (P := fun e => blank e = false) hs (by rcases hw with rfl | rfl <;> decide)
    cases hr : c.rel with
    | nil => exact absurd hr hne
    | cons e r =>
      intro d hd
      rw [List.cons_append, List.head?_cons, Option.mem_some_iff] at hd
      rw [← hd]
      exact this e (by rw [hr]; exact List.mem_cons_self)
  rcases h.relation with ⟨hs, -⟩ | ⟨hs, -⟩
  · exact key _ (.inl rfl) hs
  · exact key _ (.inr rfl) hs

theorem vector_match {c : Clause} {word : Txt} (h : c.Ok word) :
    matchAt vectorRe (' ' :: c.b1 ++ ('(' :: c.x ++ (',' :: c.y ++ (',' :: c.z ++ (')' :: c.b2 ++ (c.rel ++ (c.b3 ++ c.ref))))))) =
      some [c.x, c.y, c.z, c.rel, c.ref] := by
  obtain ⟨hb0, hb1, hb2, hb3, hb4⟩ := h.blanks
  obtain ⟨c1, c2, c3, c4⟩ := rel_no h (d := ',') (.inl rfl)
  obtain ⟨p1, p2, p3, p4⟩ := rel_no h (d := ')') (.inr rfl)
  unfold vectorRe
  have s1 : matchAt [.star (fun c => !(c == ' ')) true] c.ref = some [c.ref] := by
    have := star_max (p := fun c => !(c == ' ')) (cap := true) (is := []) (t := c.ref) (u := []) (r := []) rfl (by simp) (by
      intro d hd
      rcases h.relation with ⟨-, -, hs⟩ | ⟨-, -, -, hs⟩
      · rw [hs] at hd; cases hd
      · have := (hs d hd).1
        have hne : d ≠ ' ' := by rintro rfl; exact absurd this (by decide)
        simp [hne])
    rw [List.append_nil] at this
    exact this
  have s2 := star_max (p := blank) (cap := false) s1 (t := c.b3) (by
    intro d hd
    rcases h.relation with ⟨-, -, hs⟩ | ⟨-, -, -, hs⟩
    · rw [hs] at hd; cases hd
    · have := (hs d (List.mem_of_mem_head? hd)).1
      by_contra hb
      rw [Bool.not_eq_false] at hb
      rw [white_blank hb] at this
      cases this) (blanks_iff hb3)
  have s3 := alt_match (rel := c.rel) (by
    rcases h.relation with ⟨hs, -⟩ | ⟨hs, -⟩
    · exact .inr hs
    · exact .inl hs) s2
  have s4 := star_max (p := blank) (cap := false) s3 (rel_head h) (blanks_iff hb2)
  simp only [Bool.false_eq_true, if_false] at s4
  have hd : ∀ {v : Txt}, '\n' ∉ v → ∀ e ∈ v, dot e = true := by
    intro v hv e he
    have : e ≠ '\n' := by rintro rfl; exact hv he
    simp [dot, this]
  obtain ⟨x1, x2, x3⟩ := h.values c.x (.inl rfl)
  obtain ⟨y1, y2, y3⟩ := h.values c.y (.inr (.inl rfl))
  obtain ⟨z1, z2, z3⟩ := h.values c.z (.inr (.inr rfl))
  have s5 := star_back (p := dot) (is := .one (· == ')') :: _) (t := c.z) (u := ')' :: (c.b2 ++ (c.rel ++ (c.b3 ++ c.ref))))
    (by rw [one_cons (by decide)]; exact s4) (by
      intro u1 u2 e hu _
      cases u1 with
      | nil => exact absurd rfl hu
      | cons d u1 =>
        rw [List.cons_append, List.cons.injEq] at e
        apply close_none
        intro hm
        have : ')' ∈ c.b2 ++ (c.rel ++ (c.b3 ++ c.ref)) := by rw [e.2]; exact List.mem_append_right _ hm
        simp only [List.mem_append] at this
        tauto) (hd z3)
  have s6 := star_back (p := dot) (is := .one (· == ',') :: _) (t := c.y) (u := ',' :: (c.z ++ (')' :: (c.b2 ++ (c.rel ++ (c.b3 ++ c.ref))))))
    (by rw [one_cons (by decide)]; exact s5) (by
      intro u1 u2 e hu _
      cases u1 with
      | nil => exact absurd rfl hu
      | cons d u1 =>
        rw [List.cons_append, List.cons.injEq] at e
        apply comma_none (n := 0) (fun v hv => absurd hv (by omega))
        have := congrArg (List.count ',') e.2
        simp only [List.count_append, List.count_cons, List.count_eq_zero_of_not_mem z1, List.count_eq_zero_of_not_mem c1,
          List.count_eq_zero_of_not_mem c2, List.count_eq_zero_of_not_mem c3, List.count_eq_zero_of_not_mem c4] at this
        simp at this
        omega) (hd y3)
  have s7 := star_back (p := dot) (is := .one (· == ',') :: _) (t := c.x)
    (u := ',' :: (c.y ++ (',' :: (c.z ++ (')' :: (c.b2 ++ (c.rel ++ (c.b3 ++ c.ref))))))))
    (by rw [one_cons (by decide)]; exact s6) (by
      intro u1 u2 e hu _
      cases u1 with
      | nil => exact absurd rfl hu
      | cons d u1 =>
        rw [List.cons_append, List.cons.injEq] at e
        refine comma_none (n := 1) (fun v hv => star_count (fun w hw => comma_none (n := 0) (fun v hv => absurd hv (by omega)) hw) hv) ?_
        have := congrArg (List.count ',') e.2
        simp only [List.count_append, List.count_cons, List.count_eq_zero_of_not_mem z1, List.count_eq_zero_of_not_mem y1,
          List.count_eq_zero_of_not_mem c1,
          List.count_eq_zero_of_not_mem c2, List.count_eq_zero_of_not_mem c3, List.count_eq_zero_of_not_mem c4] at this
        simp at this
        omega) (hd x3)
  exact star_max (p := blank) (cap := false) (is := .one (· == '(') :: _) (t := ' ' :: c.b1) (u := '(' :: _) (by rw [one_cons (by decide)]; exact s7)
    (by simp [blank]) (by
      intro d hd
      rcases List.mem_cons.1 hd with rfl | hd
      · decide
      · exact blanks_iff hb1 d hd)

theorem clause_match {c : Clause} {word : Txt} (h : c.Ok word) (hw : ∀ c ∈ word, c.toLower.toLower = c.toLower) :
    search (clauseRe word) c.core = some [c.x, c.y, c.z, c.rel, c.ref] := by
  apply search_of
  unfold clauseRe Clause.core
  rw [key_match h.key hw]
  exact vector_match h

theorem cast_eq {F : Type} (float : Txt → Option F) (s : Txt) : cast float s = valueOf float s := by
  unfold cast valueOf
  cases float s <;> rfl

theorem core_split (c : Clause) : ∃ pre, c.core = c.key ++ ' ' :: pre ∧ ∃ pre', c.core = pre' ++ c.rel ++ (c.b3 ++ c.ref) := by
  refine ⟨_, rfl, c.key ++ (' ' :: c.b1 ++ ('(' :: c.x ++ (',' :: c.y ++ (',' :: c.z ++ (')' :: c.b2))))), ?_⟩
  simp [Clause.core]

/-- the words that begin the clauses -/
def IsKey (w : Txt) : Prop := w = "AT".toList ∨ w = "ROTATED".toList

theorem key_facts {c : Clause} {word : Txt} (h : c.Ok word) (hw : IsKey word) :
    c.key ≠ [] ∧ (∀ d ∈ c.key, d.isWhitespace = false ∧ d ≠ '\n') ∧ upper c.key = word := by
  rcases hw with rfl | rfl
  · exact ⟨spelled_ne h.key (by decide), spelled_all h.key (by decide), (spelled_map h.key (by decide)).trans (by decide)⟩
  · exact ⟨spelled_ne h.key (by decide), spelled_all h.key (by decide), (spelled_map h.key (by decide)).trans (by decide)⟩

theorem rel_facts {c : Clause} {word : Txt} (h : c.Ok word) : c.rel ≠ [] ∧ ∀ d ∈ c.rel, d.isWhitespace = false ∧ d ≠ '\n' := by
  rcases h.relation with ⟨hs, -⟩ | ⟨hs, -⟩
  · exact ⟨spelled_ne hs (by decide), spelled_all hs (by decide)⟩
  · exact ⟨spelled_ne hs (by decide), spelled_all hs (by decide)⟩

theorem blanks_white {b : Txt} (h : Blanks b) : ∀ c ∈ b, c.isWhitespace = true := fun c hc => white_blank (blanks_iff h c hc)

theorem core_last {c : Clause} {word : Txt} (h : c.Ok word) : ∀ d ∈ c.core.getLast?, ¬ d.isWhitespace := by
  obtain ⟨-, -, pre, e⟩ := core_split c
  obtain ⟨r1, r2⟩ := rel_facts h
  rw [e]
  rcases h.relation with ⟨-, h3, hs⟩ | ⟨-, -, hne, hs⟩
  · rw [h3, hs, List.append_nil, List.append_nil, List.getLast?_append_of_ne_nil _ r1]
    intro d hd
    simp [(r2 d (List.mem_of_mem_getLast? hd)).1]
  · rw [← List.append_assoc, List.getLast?_append_of_ne_nil _ hne]
    intro d hd
    simp [(hs d (List.mem_of_mem_getLast? hd)).1]

theorem line_strip {c : Clause} {word : Txt} (h : c.Ok word) (hw : IsKey word) : strip c.line = c.core := by
  apply trimmed_strip
  refine ⟨c.b0, c.b4, rfl, blanks_white h.blanks.1, blanks_white h.blanks.2.2.2.2, ?_, core_last h⟩
  obtain ⟨pre, e, -⟩ := core_split c
  obtain ⟨k1, k2, -⟩ := key_facts h hw
  rw [e]
  cases hk : c.key with
  | nil => exact absurd hk k1
  | cons d k =>
    intro f hf
    rw [List.cons_append, List.head?_cons, Option.mem_some_iff] at hf
    rw [← hf]
    simp [(k2 d (by rw [hk]; exact List.mem_cons_self)).1]

theorem firstPart_append {a : Txt} (ha : ∀ c ∈ a, c.isWhitespace = false) {r : Txt} (hr : r = [] ∨ r.head? = some ' ') : firstPart (a ++ r) = a := by
  unfold firstPart
  rw [List.takeWhile_append_of_pos]
  · rcases hr with rfl | hr
    · simp
    · cases r with
      | nil => cases hr
      | cons d r =>
        rw [List.head?_cons, Option.some.injEq] at hr
        subst hr
        simp
  · intro c hc
    have : c ≠ ' ' := by rintro rfl; exact absurd (ha _ hc) (by decide)
    simp [this]

theorem line_key {c : Clause} {word : Txt} (h : c.Ok word) (hw : IsKey word) : propKeyValue c.line = some (word, c.core) := by
  obtain ⟨pre, e, -⟩ := core_split c
  obtain ⟨k1, k2, k3⟩ := key_facts h hw
  have hf : firstPart c.core = c.key := by rw [e]; exact firstPart_append (fun d hd => (k2 d hd).1) (.inr rfl)
  have hne : c.line.isEmpty = false := by
    rw [List.isEmpty_eq_false_iff]
    show c.b0 ++ c.core ++ c.b4 ≠ []
    rw [e]; simp
  unfold propKeyValue
  rw [hne]
  simp only [Bool.false_eq_true, if_false, line_strip h hw, hf, List.isEmpty_iff, k1, k3]

theorem line_nl {c : Clause} {word : Txt} (h : c.Ok word) (hw : IsKey word) : '\n' ∉ c.line := by
  obtain ⟨k1, k2, k3⟩ := key_facts h hw
  obtain ⟨r1, r2⟩ := rel_facts h
  obtain ⟨hb0, hb1, hb2, hb3, hb4⟩ := h.blanks
  have b : ∀ {b : Txt}, Blanks b → '\n' ∉ b := fun hb => blanks_no hb (by decide)
  intro hm
  simp only [Clause.line, List.mem_append, List.mem_cons, List.cons_append] at hm
  have hx := (h.values c.x (.inl rfl)).2.2
  have hy := (h.values c.y (.inr (.inl rfl))).2.2
  have hz := (h.values c.z (.inr (.inr rfl))).2.2
  have hr : '\n' ∉ c.ref := by
    intro hm
    rcases h.relation with ⟨-, -, hs⟩ | ⟨-, -, -, hs⟩
    · rw [hs] at hm; cases hm
    · exact absurd (hs _ hm).1 (by decide)
  have hk : '\n' ∉ c.key := fun hm => (k2 _ hm).2 rfl
  have hrel : '\n' ∉ c.rel := fun hm => (r2 _ hm).2 rfl
  have h0 := b hb0
  have h1 := b hb1
  have h2 := b hb2
  have h3 := b hb3
  have h4 := b hb4
  simp only [h0, h1, h2, h3, h4, hx, hy, hz, hr, hk, hrel, or_false, false_or] at hm
  revert hm
  decide

/-! ### the lines -/

theorem look_assign (d : List (Txt × Txt)) (k v k' : Txt) : look (assign d k v) k' = if k' = k then some v else look d k' := by
  unfold look assign
  rw [List.find?_cons]
  by_cases h : k' = k
  · subst h; simp
  · rw [if_neg h]
    have : (k == k') = false := by simp [Ne.symm h]
    simp only [this]
    congr 1
    induction d with
    | nil => rfl
    | cons e d ih =>
      rw [List.filter_cons]
      by_cases he : e.1 = k
      · have h1 : (e.1 != k) = false := by simp [he]
        have h2 : (e.1 == k') = false := by rw [he]; simp [Ne.symm h]
        rw [h1, List.find?_cons, h2]
        exact ih
      · have h1 : (e.1 != k) = true := by simp [he]
        rw [h1, if_pos rfl, List.find?_cons, List.find?_cons, ih]

theorem takeWhile_firstPart {s w : Txt} (h : upper (firstPart s) = w) (hw : ∀ c ∈ w, c.isWhitespace = false ∧ c ≠ ' ') :
    (s.takeWhile fun c => !c.isWhitespace).map Char.toUpper = w := by
  have hns : ∀ c ∈ firstPart s, c.isWhitespace = false := by
    intro c hc
    by_contra hb
    rw [Bool.not_eq_false] at hb
    have hu : c.toUpper ∈ w := by rw [← h]; exact List.mem_map_of_mem hc
    have : c.toUpper = c := by
      simp only [Char.isWhitespace, Bool.or_eq_true, decide_eq_true_eq] at hb
      rcases hb with ((rfl | rfl) | rfl) | rfl <;> decide
    rw [this] at hu
    rw [(hw c hu).1] at hb
    cases hb
  have : s.takeWhile (fun c => !c.isWhitespace) = firstPart s := by
    have e : s = firstPart s ++ s.dropWhile fun c => c != ' ' := (List.takeWhile_append_dropWhile).symm
    conv_lhs => rw [e]
    rw [List.takeWhile_append_of_pos (by intro c hc; rw [hns c hc]; rfl)]
    cases hd : s.dropWhile fun c => c != ' ' with
    | nil => simp
    | cons d t =>
      have := List.head_dropWhile_not (fun c => c != ' ') (l := s) (by rw [hd]; simp)
      simp only [hd, List.head_cons, bne_eq_false_iff_eq] at this
      subst this
      simp
  rw [this]; exact h

theorem firstPart_headWord {f w : Txt} (h : upper (firstPart (strip f)) = w) (hw : ∀ c ∈ w, c.isWhitespace = false ∧ c ≠ ' ') : headWord f = w := by
  rw [← takeWhile_firstPart h hw]
  unfold headWord
  congr 1
  show (lstrip f).takeWhile _ = _
  obtain ⟨y, e, hy, -⟩ := rstrip_decomp (lstrip f)
  rw [← strip_eq] at e
  conv_lhs => rw [e]
  generalize strip f = s
  induction s with
  | nil =>
    cases y with
    | nil => rfl
    | cons d y => simp [hy d List.mem_cons_self]
  | cons d s ih =>
    rw [List.cons_append, List.takeWhile_cons, List.takeWhile_cons, ih]

/-- lines that are no clauses do not matter -/
theorem plain_step {f : Txt} (h : Plain f) (d : List (Txt × Txt)) (tl : List Txt) :
    ∃ d', propertiesFrom d (f :: tl) = propertiesFrom d' tl ∧ ∀ k, IsKey k → look d' k = look d k := by
  rw [propertiesFrom]
  cases hk : propKeyValue f with
  | none => exact ⟨d, rfl, fun _ _ => rfl⟩
  | some r =>
    obtain ⟨k, v⟩ := r
    have hkey : k = upper (firstPart (strip f)) := by
      unfold propKeyValue at hk
      split at hk
      · cases hk
      · simp only at hk
        split at hk
        · cases hk
        · simp only [Option.some.injEq, Prod.mk.injEq] at hk
          exact hk.1.symm
    obtain ⟨-, h1, h2, h3, h4⟩ := h
    have hne : ∀ w : Txt, (∀ c ∈ w, c.isWhitespace = false ∧ c ≠ ' ') → headWord f ≠ w → k ≠ w := by
      rintro w hw hf rfl
      exact hf (firstPart_headWord hkey.symm hw)
    have n1 := hne _ (by decide) h1
    have n2 := hne _ (by decide) h2
    have n3 := hne _ (by decide) h3
    have n4 := hne _ (by decide) h4
    simp only [n3, n4, or_self, if_false]
    refine ⟨_, rfl, ?_⟩
    rintro k' (rfl | rfl)
    · rw [look_assign, if_neg (Ne.symm n1)]
    · rw [look_assign, if_neg (Ne.symm n2)]

theorem plain_steps : ∀ {fs : List Txt}, (∀ f ∈ fs, Plain f) → ∀ (d : List (Txt × Txt)) (tl : List Txt),
    ∃ d', propertiesFrom d (fs ++ tl) = propertiesFrom d' tl ∧ ∀ k, IsKey k → look d' k = look d k
  | [], _, d, tl => ⟨d, rfl, fun _ _ => rfl⟩
  | f :: fs, h, d, tl => by
    obtain ⟨d1, e1, l1⟩ := plain_step (h f List.mem_cons_self) d (fs ++ tl)
    obtain ⟨d2, e2, l2⟩ := plain_steps (fs := fs) (fun g hg => h g (List.mem_cons_of_mem _ hg)) d1 tl
    exact ⟨d2, e1.trans e2, fun k hk => (l2 k hk).trans (l1 k hk)⟩

theorem clause_step {c : Clause} {word : Txt} (h : c.Ok word) (hw : IsKey word) (d : List (Txt × Txt)) (tl : List Txt) :
    propertiesFrom d (c.line :: tl) = propertiesFrom (assign d word c.core) tl := by
  rw [propertiesFrom, line_key h hw]
  simp only
  rw [if_neg]
  rcases hw with rfl | rfl <;> decide

theorem stops_step {f : Txt} (h : Stops f) (d : List (Txt × Txt)) (tl : List Txt) : propertiesFrom d (f :: tl) = d := by
  obtain ⟨g, w, r, word, rfl, hg, hword, hs, hnl, hr⟩ := h
  have hw : w ≠ [] ∧ (∀ c ∈ w, c.isWhitespace = false) ∧ upper w = word := by
    rcases hword with rfl | rfl
    · exact ⟨spelled_ne hs (by decide), spelled_all hs (by decide), (spelled_map hs (by decide)).trans (by decide)⟩
    · exact ⟨spelled_ne hs (by decide), spelled_all hs (by decide), (spelled_map hs (by decide)).trans (by decide)⟩
  obtain ⟨w1, w2, w3⟩ := hw
  obtain ⟨y, ey, hy, hl⟩ := rstrip_decomp (w ++ r)
  have hst : strip (g ++ w ++ r) = rstrip (w ++ r) := by
    rw [List.append_assoc, strip_eq, lstrip_append hg, lstrip_id]
    intro c hc
    cases w with
    | nil => exact absurd rfl w1
    | cons d w =>
      rw [List.cons_append, List.head?_cons, Option.mem_some_iff] at hc
      rw [← hc]
      simp [w2 d List.mem_cons_self]
  have hpre : w <+: rstrip (w ++ r) := by
    rcases List.prefix_or_prefix_of_prefix (List.prefix_append w r) (⟨y, ey.symm⟩ : rstrip (w ++ r) <+: w ++ r) with h1 | h1
    · exact h1
    · obtain ⟨z, hz⟩ := h1
      rcases z.eq_nil_or_concat with rfl | ⟨z', c, rfl⟩
      · rw [List.append_nil] at hz; rw [hz]
      · exfalso
        rw [List.concat_eq_append] at hz
        have hy' : y ≠ [] ∧ (z' ++ [c]) <+: y := by
          have : rstrip (w ++ r) ++ y = rstrip (w ++ r) ++ ((z' ++ [c]) ++ r) := by
            rw [← List.append_assoc, hz, ← ey]
          have := List.append_cancel_left this
          exact ⟨by rw [this]; simp, by rw [this]; exact List.prefix_append _ _⟩
        have hc : c ∈ w := by rw [← hz]; simp
        have := hy c (hy'.2.subset (by simp))
        rw [w2 c hc] at this
        cases this
  obtain ⟨r', hr'⟩ := hpre
  have hr2 : r' = [] ∨ r'.head? = some ' ' := by
    have : r' ++ y = r := by
      apply List.append_cancel_left (as := w)
      rw [← List.append_assoc, hr', ← ey]
    cases r' with
    | nil => exact .inl rfl
    | cons d r' =>
      right
      rcases hr with rfl | hr
      · cases this
      · rw [← this] at hr; exact hr
  have hf : firstPart (strip (g ++ w ++ r)) = w := by
    rw [hst, ← hr']; exact firstPart_append w2 hr2
  have hne : (g ++ w ++ r).isEmpty = false := by
    rw [List.isEmpty_eq_false_iff]; simp [w1]
  have hk : ∃ v, propKeyValue (g ++ w ++ r) = some (word, v) := by
    refine ⟨strip (g ++ w ++ r), ?_⟩
    unfold propKeyValue
    rw [hne]
    simp only [Bool.false_eq_true, if_false, hf, List.isEmpty_iff, w1, w3]
  obtain ⟨v, hk⟩ := hk
  rw [propertiesFrom, hk]
  simp only
  rw [if_pos]
  rcases hword with rfl | rfl
  · exact .inr rfl
  · exact .inl rfl

theorem stop_step {st : List Txt} (h : st = [] ∨ ∃ t ts, st = t :: ts ∧ Stops t) (d : List (Txt × Txt)) : propertiesFrom d st = d := by
  rcases h with rfl | ⟨t, ts, rfl, h⟩
  · rfl
  · exact stops_step h d ts

theorem intercalate_cons₂ (c : Char) (a b : Txt) (l : List Txt) :
    List.intercalate [c] (a :: b :: l) = a ++ c :: List.intercalate [c] (b :: l) := by
  simp [List.intercalate, List.intersperse]

theorem splitAll_lines {c : Char} : ∀ {as : List Txt} {t : Txt} {ts : List Txt}, (∀ a ∈ as, c ∉ a) →
    splitAll c (List.intercalate [c] (as ++ t :: ts)) = as ++ splitAll c (List.intercalate [c] (t :: ts))
  | [], t, ts, _ => rfl
  | a :: as, t, ts, h => by
    cases as with
    | nil =>
      rw [List.cons_append, List.nil_append, intercalate_cons₂, splitAll_append _ (h a List.mem_cons_self)]
      rfl
    | cons b as =>
      rw [List.cons_append, List.cons_append, intercalate_cons₂, splitAll_append _ (h a List.mem_cons_self), ← List.cons_append,
        splitAll_lines (as := b :: as) fun x hx => h x (List.mem_cons_of_mem _ hx)]
      rfl

theorem splitAll_head {c : Char} {t : Txt} (h : c ∉ t) (ts : List Txt) : ∃ us, splitAll c (List.intercalate [c] (t :: ts)) = t :: us ∧ (ts = [] → us = []) := by
  cases ts with
  | nil =>
    refine ⟨[], ?_, fun _ => rfl⟩
    have : List.intercalate [c] [t] = t := by simp [List.intercalate]
    rw [this, splitAll_single h]
  | cons b ts =>
    refine ⟨splitAll c (List.intercalate [c] (b :: ts)), ?_, fun h => by cases h⟩
    rw [intercalate_cons₂, splitAll_append _ h]

theorem splitAll_all {c : Char} : ∀ {as : List Txt}, as ≠ [] → (∀ a ∈ as, c ∉ a) → splitAll c (List.intercalate [c] as) = as
  | [], h, _ => absurd rfl h
  | [a], _, h => by
    have : List.intercalate [c] [a] = a := by simp [List.intercalate]
    rw [this, splitAll_single (h a List.mem_cons_self)]
  | a :: b :: as, _, h => by
    rw [intercalate_cons₂, splitAll_append _ (h a List.mem_cons_self), splitAll_all (by simp) fun x hx => h x (List.mem_cons_of_mem _ hx)]

theorem lines_props {s : Src} (h : s.Ok) : ∃ d, properties (List.intercalate ['\n'] s.lines) = d ∧ look d "AT".toList = some s.at'.core ∧
    look d "ROTATED".toList = s.rot.map Clause.core := by
  have hat : IsKey "AT".toList := .inl rfl
  have hro : IsKey "ROTATED".toList := .inr rfl
  have hlines : s.lines = (s.fill0 ++ s.at'.line :: (s.fill1 ++ (s.rot.toList.map Clause.line ++ s.fill2))) ++ s.stop := by
    simp [Src.lines]
  have hnl : ∀ a ∈ s.fill0 ++ s.at'.line :: (s.fill1 ++ (s.rot.toList.map Clause.line ++ s.fill2)), '\n' ∉ a := by
    intro a ha
    simp only [List.mem_append, List.mem_cons, List.mem_map, Option.mem_toList] at ha
    rcases ha with ha | rfl | ha | ⟨c, hc, rfl⟩ | ha
    · exact (h.fill a (.inl ha)).1
    · exact line_nl h.at_ok hat
    · exact (h.fill a (.inr (.inl ha))).1
    · exact line_nl (h.rot_ok c hc) hro
    · exact (h.fill a (.inr (.inr ha))).1
  have hsplit : ∃ st, (st = [] ∨ ∃ t ts, st = t :: ts ∧ Stops t) ∧ splitAll '\n' (List.intercalate ['\n'] s.lines) =
      (s.fill0 ++ s.at'.line :: (s.fill1 ++ (s.rot.toList.map Clause.line ++ s.fill2))) ++ st := by
    rw [hlines]
    rcases h.stop with hst | ⟨t, ts, hst, hs⟩
    · refine ⟨[], .inl rfl, ?_⟩
      rw [hst, List.append_nil, splitAll_all (by simp) hnl]
    · have htn : '\n' ∉ t := by
        obtain ⟨g, w, r, word, -, -, -, -, hn, -⟩ := hs
        exact hn
      obtain ⟨us, hus, -⟩ := splitAll_head htn ts
      refine ⟨t :: us, .inr ⟨t, us, rfl, hs⟩, ?_⟩
      rw [hst, splitAll_lines hnl, hus]
  obtain ⟨st, hst, hsp⟩ := hsplit
  have hne : (List.intercalate ['\n'] s.lines).isEmpty = false := by
    rw [List.isEmpty_eq_false_iff]
    intro h0
    rw [h0] at hsp
    have h1 := congrArg List.flatten hsp
    simp only [splitAll, List.flatten_cons, List.flatten_nil, List.append_nil, List.flatten_append] at h1
    have h2 := congrArg (fun l : Txt => '(' ∈ l) h1
    simp [Clause.line] at h2
  refine ⟨_, rfl, ?_⟩
  have hp : properties (List.intercalate ['\n'] s.lines) = propertiesFrom [] (s.fill0 ++ (s.at'.line :: (s.fill1 ++ (s.rot.toList.map Clause.line ++
      (s.fill2 ++ st))))) := by
    unfold properties
    rw [hne, if_neg (by simp), hsp]
    simp
  obtain ⟨d1, e1, l1⟩ := plain_steps (fs := s.fill0) (fun f hf => h.fill f (.inl hf)) []
    (s.at'.line :: (s.fill1 ++ (s.rot.toList.map Clause.line ++ (s.fill2 ++ st))))
  obtain ⟨d2, e2, l2⟩ := plain_steps (fs := s.fill1) (fun f hf => h.fill f (.inr (.inl hf))) (assign d1 "AT".toList s.at'.core)
    (s.rot.toList.map Clause.line ++ (s.fill2 ++ st))
  rw [hp, e1, clause_step h.at_ok hat, e2]
  cases hr : s.rot with
  | none =>
    simp only [Option.toList_none, List.map_nil, List.nil_append]
    obtain ⟨d3, e3, l3⟩ := plain_steps (fs := s.fill2) (fun f hf => h.fill f (.inr (.inr hf))) d2 st
    rw [e3, stop_step hst, l3 _ hat, l3 _ hro, l2 _ hat, l2 _ hro, look_assign, look_assign, if_pos rfl, if_neg (by decide), l1 _ hro]
    exact ⟨rfl, rfl⟩
  | some c =>
    simp only [Option.toList_some, List.map_cons, List.map_nil, List.cons_append, List.nil_append]
    rw [clause_step (h.rot_ok c hr) hro]
    obtain ⟨d3, e3, l3⟩ := plain_steps (fs := s.fill2) (fun f hf => h.fill f (.inr (.inr hf))) (assign d2 "ROTATED".toList c.core) st
    rw [e3, stop_step hst, l3 _ hat, l3 _ hro, look_assign, look_assign, if_neg (by decide), if_pos rfl, l2 _ hat, look_assign, if_pos rfl]
    exact ⟨rfl, rfl⟩

/-! ### the parameters -/

theorem eqs_strip (s : Txt) : (splitAll '=' (strip s)).map strip = (splitAll '=' s).map strip := by
  have left : ∀ x : Txt, ∀ s : Txt, (∀ c ∈ x, c.isWhitespace) → (splitAll '=' (x ++ s)).map strip = (splitAll '=' s).map strip := by
    intro x s
    induction x with
    | nil => intro _; rfl
    | cons d x ih =>
      intro h
      have hd := h d List.mem_cons_self
      rw [← ih fun c hc => h c (List.mem_cons_of_mem _ hc), List.cons_append, splitAll, if_neg (by rintro rfl; revert hd; decide)]
      cases hs : splitAll '=' (x ++ s) with
      | nil => exact absurd hs (splitAll_ne _ _)
      | cons p ps =>
        simp only [List.map_cons]
        congr 1
        have := strip_ws (s := p) (x := [d]) (y := []) (by simpa using hd) (by simp)
        simpa using this
  have right : ∀ s y : Txt, (∀ c ∈ y, c.isWhitespace) → (splitAll '=' (s ++ y)).map strip = (splitAll '=' s).map strip := by
    intro s y
    induction y using List.reverseRecOn with
    | nil => intro _; rw [List.append_nil]
    | append_singleton y d ih =>
      intro h
      have hd : d.isWhitespace := h d (by simp)
      rw [← ih fun c hc => h c (by simp [hc]), ← List.append_assoc]
      obtain ⟨qs, q, e1, e2⟩ := splitAll_snoc (c := '=') (d := d) (by rintro rfl; revert hd; decide) (s ++ y)
      rw [e1, e2, List.map_append, List.map_append]
      congr 1
      have := strip_ws (s := q) (x := []) (y := [d]) (by simp) (by simpa using hd)
      simpa using this
  obtain ⟨x, y, e, hx, hy, -⟩ := strip_trimmed s
  conv_rhs => rw [e]
  rw [right _ _ hy, left _ _ hx]

/-- a parameter by its trimmed parts -/
theorem param_map (d : List (Txt × Txt)) (pp : Txt) :
    param d pp = match (splitAll '=' pp).map strip with | [k, v] => assign d k v | _ => d := by
  unfold param
  rcases h : splitAll '=' pp with _ | ⟨a, _ | ⟨b, _ | ⟨c, l⟩⟩⟩ <;> rfl

theorem param_strip (d : List (Txt × Txt)) (pp : Txt) : param d (strip pp) = param d pp := by
  rw [param_map, param_map, eqs_strip]

theorem foldl_param (d : List (Txt × Txt)) (l : List Txt) : l.foldl param d = (l.map strip).foldl param d := by
  induction l generalizing d with
  | nil => rfl
  | cons a l ih => rw [List.foldl_cons, List.map_cons, List.foldl_cons, param_strip, ih]

theorem token_no {s : Txt} (h : Token s) {c : Char} (hc : c = ',' ∨ c = '=' ∨ c = '(' ∨ c = ')') : c ∉ s := by
  intro hm
  have := h.2.2 c hm
  rcases hc with rfl | rfl | rfl | rfl <;> tauto

theorem white_no {s : Txt} (h : White s) {c : Char} (hc : c = ',' ∨ c = '=' ∨ c = '(' ∨ c = ')') : c ∉ s := by
  intro hm
  have := h c hm
  rcases hc with rfl | rfl | rfl | rfl <;> exact absurd this (by decide)

theorem token_strip {s x y : Txt} (h : Token s) (hx : White x) (hy : White y) : strip (x ++ s ++ y) = s := by
  apply trimmed_strip
  exact ⟨x, y, rfl, hx, hy, fun c hc => by simp [h.1 c hc], fun c hc => by simp [h.2.1 c hc]⟩

theorem par_no {p : Par} (h : p.Ok) {c : Char} (hc : c = ',' ∨ c = '(' ∨ c = ')') : c ∉ p.text := by
  have hc' : c = ',' ∨ c = '=' ∨ c = '(' ∨ c = ')' := by tauto
  have n1 := white_no h.white.1 hc'
  have n2 := white_no h.white.2.1 hc'
  have n3 := white_no h.white.2.2.1 hc'
  have n4 := white_no h.white.2.2.2 hc'
  have n5 := token_no h.tokens.1 hc'
  have n6 := token_no h.tokens.2 hc'
  intro hm
  simp only [Par.text, List.mem_append, List.mem_cons, n1, n2, n3, n4, n5, n6, false_or, or_false] at hm
  subst hm
  revert hc
  decide

theorem param_par {p : Par} (h : p.Ok) (d : List (Txt × Txt)) : param d p.text = assign d p.k p.v := by
  have e : splitAll '=' p.text = [p.a ++ p.k ++ p.b, p.c ++ p.v ++ p.d] := by
    unfold Par.text
    rw [splitAll_append, splitAll_single]
    · simp [white_no h.white.2.2.1, white_no h.white.2.2.2, token_no h.tokens.2]
    · simp [white_no h.white.1, white_no h.white.2.1, token_no h.tokens.1]
  rw [param_map, e]
  simp only [List.map_cons, List.map_nil, token_strip h.tokens.1 h.white.1 h.white.2.1, token_strip h.tokens.2 h.white.2.2.1 h.white.2.2.2]

theorem params_pars {ps : List Par} (h0 : ps ≠ []) (h : ∀ p ∈ ps, p.Ok) :
    params (List.intercalate [','] (ps.map Par.text)) = ps.foldl (fun d p => assign d p.k p.v) [] := by
  have hne : (List.intercalate [','] (ps.map Par.text)).isEmpty = false := by
    rw [List.isEmpty_eq_false_iff]
    intro hn
    cases ps with
    | nil => exact h0 rfl
    | cons p ps =>
      have hm : '=' ∈ List.intercalate [','] ((p :: ps).map Par.text) := by
        cases ps with
        | nil => simp [List.intercalate, Par.text]
        | cons q ps =>
          rw [List.map_cons, List.map_cons, intercalate_cons₂]
          simp [Par.text]
      rw [hn] at hm
      cases hm
  unfold params
  rw [hne, if_neg (by simp), foldl_param, splitAll_strip, ← foldl_param, splitAll_all (by simpa using h0)]
  · have : ∀ (l : List Par) (d : List (Txt × Txt)), (∀ p ∈ l, p.Ok) → (l.map Par.text).foldl param d = l.foldl (fun d p => assign d p.k p.v) d := by
      intro l
      induction l with
      | nil => intro _ _; rfl
      | cons p l ih =>
        intro d hl
        rw [List.map_cons, List.foldl_cons, List.foldl_cons, param_par (hl p List.mem_cons_self), ih _ fun q hq => hl q (List.mem_cons_of_mem _ hq)]
    exact this ps [] h
  · intro a ha
    obtain ⟨p, hp, rfl⟩ := List.mem_map.1 ha
    exact par_no (h p hp) (.inl rfl)

theorem params_pad {pad : Txt} (h : White pad) : params pad = [] := by
  unfold params
  split
  · rfl
  · have : strip pad = [] := trimmed_strip ⟨pad, [], by simp, h, by simp, by simp, by simp⟩
    rw [this]; rfl

theorem mem_assigned (ps : List Par) (k v : Txt) : (k, v) ∈ ps.foldl (fun d p => assign d p.k p.v) [] ↔
    ∃ l1 p l2, ps = l1 ++ p :: l2 ∧ p.k = k ∧ p.v = v ∧ ∀ q ∈ l2, q.k ≠ k := by
  induction ps using List.reverseRecOn with
  | nil => simp
  | append_singleton ps q ih =>
    rw [List.foldl_append, List.foldl_cons, List.foldl_nil]
    conv_lhs => rw [assign]
    rw [List.mem_cons, List.mem_filter, ih]
    constructor
    · rintro (h | ⟨⟨l1, p, l2, rfl, h1, h2, h3⟩, hk⟩)
      · rw [Prod.mk.injEq] at h
        exact ⟨ps, q, [], rfl, h.1.symm, h.2.symm, by simp⟩
      · refine ⟨l1, p, l2 ++ [q], by simp, h1, h2, ?_⟩
        intro r hr
        rcases List.mem_append.1 hr with hr | hr
        · exact h3 r hr
        · rw [List.mem_singleton] at hr
          subst hr
          simp only [bne_iff_ne, ne_eq] at hk
          exact Ne.symm hk
    · rintro ⟨l1, p, l2, e, h1, h2, h3⟩
      rcases l2.eq_nil_or_concat with rfl | ⟨l3, r, rfl⟩
      · left
        have := List.append_inj_right' e rfl
        simp only [List.cons.injEq, and_true] at this
        rw [this, h1, h2]
      · right
        rw [List.concat_eq_append] at e h3
        rw [← List.cons_append, ← List.append_assoc] at e
        have e1 := List.append_inj_left' e rfl
        have e2 := List.append_inj_right' e rfl
        simp only [List.cons.injEq, and_true] at e2
        refine ⟨⟨l1, p, l3, e1, h1, h2, fun q hq => h3 q (by simp [hq])⟩, ?_⟩
        have := h3 r (by simp)
        rw [← e2] at this
        simp only [bne_iff_ne, ne_eq]
        exact Ne.symm this

/-! ### the components -/

variable {F : Type} (float : Txt → Option F)

theorem property_at {s : Src} (h : s.Ok) : property "AT".toList (List.intercalate ['\n'] s.lines) = s.at'.core := by
  obtain ⟨d, e, h1, -⟩ := lines_props h
  unfold property
  rw [e, h1]
  split
  · next hne =>
    rw [List.isEmpty_iff] at hne
    rw [hne] at e
    rw [← e] at h1
    cases h1
  · rfl

theorem property_rot {s : Src} (h : s.Ok) : property "ROTATED".toList (List.intercalate ['\n'] s.lines) = (s.rot.map Clause.core).getD [] := by
  obtain ⟨d, e, h1, h2⟩ := lines_props h
  unfold property
  rw [e, h2]
  split
  · next hne =>
    rw [List.isEmpty_iff] at hne
    rw [hne] at e
    rw [← e] at h1
    cases h1
  · rfl

theorem relation_eq {c : Clause} {word text : Txt} (h : c.Ok word) (hw : IsKey word) (hp : property word text = c.core) :
    vectorRelation float word text = some (c.place float) := by
  unfold vectorRelation
  rw [hp, clause_match h (by rcases hw with rfl | rfl <;> decide)]
  simp only [cast_eq]
  unfold Clause.place Clause.vec
  rcases h.relation with ⟨hs, -, hr⟩ | ⟨hs, -, hr, -⟩
  · have : upper c.rel = "ABSOLUTE".toList := (spelled_map hs (by decide)).trans (by decide)
    rw [if_pos this, if_pos hr]
  · have : upper c.rel = "RELATIVE".toList := (spelled_map hs (by decide)).trans (by decide)
    rw [this, if_neg (by decide), if_neg hr]

theorem component_eq [Zero F] {s : Src} (h : s.Ok) : ∃ c, component float s.text = some c ∧ Means float s c := by
  have hp : ∀ c ∈ (if s.ps = [] then s.pad else List.intercalate [','] (s.ps.map Par.text)), c ≠ '(' ∧ c ≠ ')' := by
    intro c hc
    split at hc
    · constructor
      · rintro rfl; exact white_no h.blanks.2.2.2.2 (by simp) hc
      · rintro rfl; exact white_no h.blanks.2.2.2.2 (by simp) hc
    · rw [← join_eq] at hc
      rcases join_mem hc with rfl | ⟨a, ha, hca⟩
      · decide
      · obtain ⟨p, hp, rfl⟩ := List.mem_map.1 ha
        constructor
        · rintro rfl; exact par_no (h.params p hp) (by simp) hca
        · rintro rfl; exact par_no (h.params p hp) (by simp) hca
  have hm := component_match (rest := List.intercalate ['\n'] s.lines) h.blanks.1 h.blanks.2.1 h.blanks.2.2.1 h.blanks.2.2.2.1 h.names h.filled hp
  unfold component Src.text
  rw [hm]
  refine ⟨_, rfl, rfl, rfl, ?_, ?_, ?_⟩
  · intro k v
    unfold Src.Given
    rw [← mem_assigned]
    simp only
    split
    · next h0 => rw [h0, params_pad h.blanks.2.2.2.2]; rfl
    · next h0 => rw [params_pars h0 h.params]
  · show positionOf float _ = _
    unfold positionOf
    rw [relation_eq float h.at_ok (.inl rfl) (property_at h)]
    rfl
  · show rotationOf float _ (positionOf float _) = _
    unfold rotationOf positionOf Src.turn
    rw [relation_eq float h.at_ok (.inl rfl) (property_at h)]
    cases hr : s.rot with
    | some r =>
      rw [relation_eq float (h.rot_ok r hr) (.inr rfl) (by rw [property_rot h, hr]; rfl)]
    | none =>
      have : vectorRelation float "ROTATED".toList (List.intercalate ['\n'] s.lines) = none := by
        unfold vectorRelation
        rw [property_rot h, hr]
        rfl
      rw [this]
      simp only [Option.getD_some]
      have hcase : ∃ v, s.at'.place float = .absolute v ∨ ∃ ref, s.at'.place float = .relative v ref := by
        unfold Clause.place
        split
        · exact ⟨_, .inl rfl⟩
        · exact ⟨_, .inr ⟨_, rfl⟩⟩
      obtain ⟨v, e | ⟨ref, e⟩⟩ := hcase <;> rw [e]

theorem parse_eq [Zero F] {text header : Txt} {srcs : List Src} (hu : Uncommented text (file header srcs)) (hh : ¬ "COMPONENT".toList <:+: header)
    (hl : ∀ c ∈ header.getLast?, c.isWhitespace = true) (h : ∀ s ∈ srcs, s.Ok) : List.Forall₂ (Means float) srcs (parse float text) := by
  have hws : ∀ c : Char, c.isWhitespace = true → c ∉ "COMPONENT".toList := by
    intro c hc hm
    have : ∀ d ∈ "COMPONENT".toList, d.isWhitespace = false := by decide
    rw [this c hm] at hc
    cases hc
  have hsp : ∀ fuel, (file header srcs).length ≤ fuel → splitWord "COMPONENT".toList fuel (file header srcs) = header :: srcs.map Src.text := by
    intro fuel hf
    have e : file header srcs = header ++ (srcs.map Src.text).flatMap fun p => "COMPONENT".toList ++ p := by
      unfold file
      rw [List.flatMap_map]
    rw [e] at hf ⊢
    refine splitWord_pieces (by decide) _ _ _ ?_ hf
    intro p hp
    rcases List.mem_cons.1 hp with rfl | hp
    · exact ⟨hh, fun c hc => hws c (hl c hc)⟩
    · obtain ⟨s, hs, rfl⟩ := List.mem_map.1 hp
      refine ⟨(h s hs).word, fun c hc => hws c ?_⟩
      obtain ⟨u, d, e, hd⟩ := (h s hs).ends
      rw [e] at hc
      simp only [List.getLast?_append, List.getLast?_singleton, Option.some_or, Option.mem_some_iff] at hc
      rw [← hc]; exact hd
  unfold parse
  simp only [removeComments_eq hu text.length le_rfl, hsp _ le_rfl, List.drop_one, List.tail_cons]
  clear hsp hu
  induction srcs with
  | nil => exact .nil
  | cons s srcs ih =>
    obtain ⟨c, hc, hm⟩ := component_eq float (h s List.mem_cons_self)
    rw [List.map_cons, List.filterMap_cons, hc]
    exact .cons hm (ih fun t ht => h t (List.mem_cons_of_mem _ ht))

/-! ### placement -/

section place
variable {F : Type} [CommRing F]

/-- the coordinates that `_register` hands to the geometer -/
def asked (r : Option Txt) (pos : V3 F) (ori : Ori F) : Coord (V3 F) Txt × Coord (Ori F) Txt :=
  r.elim (.absolute pos, .absolute ori) fun r => (.relative pos (.elem r), .relative ori (.elem r))

theorem register_sound {toM : V3 F → M3 F} {fuel : Nat} {g g' : Geo Txt F} {e : Txt} {pos p : V3 F} {ori o : Ori F} {r : Option Txt}
    (hc : Consistent toM g) (hn : g.reg e = none) (h : instrumentRegister toM fuel g e pos ori r = (.ok (p, o), g')) :
    Consistent toM g' ∧ g'.seq = g.seq ∧
    g'.reg = upd g.reg e (asked r pos ori) ∧
    HasPos toM g'.reg g'.seq e p ∧ HasOri toM g'.reg g'.seq e (o.matrix toM) := by
  have key : ∀ (cp : Coord (V3 F) Txt) (co : Coord (Ori F) Txt) (g2 : Geo Txt F), position toM fuel (register g e cp co) e = (.ok p, g2) →
      orientation toM fuel g2 e = (.ok o, g') →
      Consistent toM g' ∧ g'.seq = g.seq ∧ g'.reg = upd g.reg e (cp, co) ∧ HasPos toM g'.reg g'.seq e p ∧ HasOri toM g'.reg g'.seq e (o.matrix toM) := by
    intro cp co g2 h1 h2
    have hc1 := consistent_register cp co hn hc
    obtain ⟨s1, p1⟩ := position_sound toM fuel _ e hc1
    rw [h1] at s1 p1
    have hp := p1 p rfl
    obtain ⟨s2, p2⟩ := orientation_sound toM fuel g2 e s1.cons
    rw [h2] at s2 p2
    have ho := p2 o rfl
    simp only at s1 s2
    rw [← s1.reg, ← s1.seq] at hp
    refine ⟨s2.cons, by rw [s2.seq, s1.seq]; rfl, by rw [s2.reg, s1.reg]; rfl, ?_, ?_⟩
    · rw [s2.reg, s2.seq]; exact hp
    · rw [s2.reg, s2.seq]; exact ho
  cases r with
  | none =>
    unfold instrumentRegister at h
    simp only at h
    rcases hx : position toM fuel (register g e (.absolute pos) (.absolute ori)) e with ⟨er | p', g2⟩
    · rw [hx] at h; simp at h
    · rw [hx] at h
      simp only at h
      rcases hy : orientation toM fuel g2 e with ⟨er | o', g3⟩
      · rw [hy] at h; simp at h
      · rw [hy] at h
        simp only [Prod.mk.injEq, Except.ok.injEq] at h
        obtain ⟨⟨rfl, rfl⟩, rfl⟩ := h
        exact key _ _ g2 hx hy
  | some r =>
    unfold instrumentRegister at h
    simp only at h
    rcases hx : position toM fuel (register g e (.relative pos (.elem r)) (.relative ori (.elem r))) e with ⟨er | p', g2⟩
    · rw [hx] at h; simp at h
    · rw [hx] at h
      simp only at h
      rcases hy : orientation toM fuel g2 e with ⟨er | o', g3⟩
      · rw [hy] at h; simp at h
      · rw [hy] at h
        simp only [Prod.mk.injEq, Except.ok.injEq] at h
        obtain ⟨⟨rfl, rfl⟩, rfl⟩ := h
        exact key _ _ g2 hx hy

theorem register_ok {toM : V3 F → M3 F} {fuel : Nat} {g : Geo Txt F} {e : Txt} (pos : V3 F) (ori : Ori F) {r : Option Txt}
    (hp : g.abspos e = none) (ho : g.absori e = none) (hr : ∀ n ∈ r, g.abspos n ≠ none ∧ g.absori n ≠ none) :
    ∃ p o g', instrumentRegister toM (fuel + 1) g e pos ori r = (.ok (p, o), g') ∧
      ∀ x, (x = e ∨ (g.abspos x ≠ none ∧ g.absori x ≠ none)) → g'.abspos x ≠ none ∧ g'.absori x ≠ none := by
  cases r with
  | none =>
    refine ⟨pos, ori, { register g e (.absolute pos) (.absolute ori) with abspos := upd g.abspos e pos, absori := upd g.absori e ori }, ?_, ?_⟩
    · unfold instrumentRegister
      simp [position, orientation, register, hp, ho, upd]
    · intro x hx
      simp only [upd]
      by_cases h : x = e
      · simp [h]
      · simp only [h, if_false, false_or] at hx ⊢
        exact hx
  | some n =>
    obtain ⟨h1, h2⟩ := hr n rfl
    obtain ⟨np, hnp⟩ := Option.ne_none_iff_exists'.1 h1
    obtain ⟨no, hno⟩ := Option.ne_none_iff_exists'.1 h2
    have hne : n ≠ e := by rintro rfl; exact h1 hp
    refine ⟨np + (no.matrix toM).transpose.mulVec pos, .mat ((ori.matrix toM).mul (no.matrix toM)),
      { register g e (.relative pos (.elem n)) (.relative ori (.elem n)) with
        abspos := upd g.abspos e (np + (no.matrix toM).transpose.mulVec pos),
        absori := upd g.absori e (.mat ((ori.matrix toM).mul (no.matrix toM))) }, ?_, ?_⟩
    · have c1 : ∀ (fuel : Nat) (g : Geo Txt F) (p : V3 F), g.abspos n = some p → position toM fuel g n = (.ok p, g) := by
        intro fuel g p h; unfold position; rw [h]
      have c2 : ∀ (fuel : Nat) (g : Geo Txt F) (o : Ori F), g.absori n = some o → orientation toM fuel g n = (.ok o, g) := by
        intro fuel g p h; unfold orientation; rw [h]
      unfold instrumentRegister
      simp only
      have e1 : position toM (fuel + 1) (register g e (.relative pos (.elem n)) (.relative ori (.elem n))) e =
          (.ok (np + (no.matrix toM).transpose.mulVec pos),
            { register g e (.relative pos (.elem n)) (.relative ori (.elem n)) with abspos := upd g.abspos e (np + (no.matrix toM).transpose.mulVec pos) }) := by
        rw [position]
        have : (register g e (.relative pos (.elem n)) (.relative ori (.elem n))).abspos e = none := hp
        rw [this]
        simp only
        have : (register g e (.relative pos (.elem n)) (.relative ori (.elem n))).reg e = some (.relative pos (.elem n), .relative ori (.elem n)) := by
          simp [register, upd]
        rw [this]
        simp only [findReference]
        rw [c1 _ _ np (by exact hnp)]
        simp only
        rw [c2 _ _ no (by exact hno)]
        rfl
      rw [e1]
      simp only
      have e2 : ∀ g' : Geo Txt F, g'.absori = g.absori → g'.reg e = some (.relative pos (.elem n), .relative ori (.elem n)) →
          orientation toM (fuel + 1) g' e = (.ok (.mat ((ori.matrix toM).mul (no.matrix toM))),
            { g' with absori := upd g'.absori e (.mat ((ori.matrix toM).mul (no.matrix toM))) }) := by
        intro g' ha hg
        rw [orientation, ha, ho]
        simp only
        rw [hg]
        simp only [findReference]
        rw [c2 _ _ no (by rw [ha]; exact hno)]
        simp only [ha]
      rw [e2 { register g e (.relative pos (.elem n)) (.relative ori (.elem n)) with abspos := upd g.abspos e (np + (no.matrix toM).transpose.mulVec pos) }
        rfl (by simp [register, upd])]
      rfl
    · intro x hx
      simp only [upd]
      by_cases h : x = e
      · simp [h]
      · simp only [h, if_false, false_or] at hx ⊢
        exact hx

/-- the state of the script after some components -/
structure Inv (toM : V3 F → M3 F) (l : List (Comp F)) (s : Script F) : Prop where
  vars : ∀ c ∈ l, c.name ∈ s.vars
  cons : Consistent toM s.geo
  seq : s.geo.seq = none
  fresh : ∀ n, s.geo.reg n ≠ none → ∃ c ∈ l, c.name = n
  known : ∀ c ∈ l, s.geo.abspos c.name ≠ none ∧ s.geo.absori c.name ≠ none
  reg : ∀ c ∈ l, ∃ p o, Coords c.position p ∧ Coords c.orientation o ∧ s.geo.reg c.name = some (p, anglesOf o)
  names : s.placed.map (·.1) = (l.map Comp.name).reverse
  placed : ∀ e ∈ s.placed, HasPos toM s.geo.reg none e.1 e.2.1 ∧ HasOri toM s.geo.reg none e.1 (e.2.2.matrix toM)

omit [CommRing F] in
theorem coords_vec {P : Place F} {c : Coord (V3 F) Txt} (h : Coords P c) : ∃ x y z, P.vec = some (.num x, .num y, .num z) ∧
    ((c = .absolute ⟨x, y, z⟩ ∧ P.ref = none) ∨ (∃ r, c = .relative ⟨x, y, z⟩ (.elem r) ∧ P.ref = some r) ∨
      (c = .relative ⟨x, y, z⟩ .previous ∧ P.ref = some "previous".toList)) := by
  cases h with
  | absolute x y z => exact ⟨x, y, z, rfl, .inl ⟨rfl, rfl⟩⟩
  | relative x y z r h => exact ⟨x, y, z, rfl, .inr (.inl ⟨r, rfl, rfl⟩)⟩
  | previous x y z => exact ⟨x, y, z, rfl, .inr (.inr ⟨rfl, rfl⟩)⟩

theorem exec_step [DecidableEq F] {toM : V3 F → M3 F} {fuel : Nat} {l : List (Comp F)} {s : Script F} {c : Comp F} {cat : Option Txt}
    (hi : Inv toM l s) (hcat : cat ≠ none) (hnew : ∀ b ∈ l, b.name ≠ c.name)
    (hs : (∃ p o : V3 F, Coords c.position (.absolute p) ∧ Coords c.orientation (.absolute o)) ∨
      ∃ (p o : V3 F) (b : Comp F), Coords c.position (.relative p (.elem b.name)) ∧ Coords c.orientation (.relative o (.elem b.name)) ∧ b ∈ l) :
    ∃ s', exec toM (fuel + 1) s [.new c.name cat c.type c.params, .append c.name c.position.vec c.orientation.vec c.position.ref] = .ok s' ∧
      Inv toM (l ++ [c]) s' := by
  obtain ⟨cat, rfl⟩ := Option.ne_none_iff_exists'.1 hcat
  have hreg : s.geo.reg c.name = none := by
    by_contra h
    obtain ⟨b, hb, e⟩ := hi.fresh _ h
    exact hnew b hb e
  have hpos : s.geo.abspos c.name = none := by
    by_contra h
    obtain ⟨p, hp⟩ := Option.ne_none_iff_exists'.1 h
    cases hi.cons.2 _ _ hp with
    | absolute h => rw [hreg] at h; cases h
    | relative h _ _ _ => rw [hreg] at h; cases h
  have hori : s.geo.absori c.name = none := by
    by_contra h
    obtain ⟨p, hp⟩ := Option.ne_none_iff_exists'.1 h
    have hm := hi.cons.1 _ _ hp
    generalize p.matrix toM = m at hm
    cases hm with
    | absolute h => rw [hreg] at h; cases h
    | relative h _ _ _ => rw [hreg] at h; cases h
  -- the two cases
  obtain ⟨pv, ov, r, cp, co, hcp, hco, hvp, hvo, hr, hrl, hcpo⟩ : ∃ (pv ov : V3 F) (r : Option Txt) (cp co : Coord (V3 F) Txt),
      Coords c.position cp ∧ Coords c.orientation co ∧ c.position.vec = some (.num pv.x, .num pv.y, .num pv.z) ∧
      c.orientation.vec = some (.num ov.x, .num ov.y, .num ov.z) ∧ c.position.ref = r ∧ (∀ n ∈ r, ∃ b ∈ l, b.name = n) ∧
      asked r pv (.angles ov) = (cp, anglesOf co) := by
    rcases hs with ⟨p, o, hp, ho⟩ | ⟨p, o, b, hp, ho, hb⟩
    · obtain ⟨x, y, z, e1, h1⟩ := coords_vec hp
      obtain ⟨x', y', z', e2, h2⟩ := coords_vec ho
      rcases h1 with ⟨h1, h1'⟩ | ⟨r, h1, -⟩ | ⟨h1, -⟩
      · rcases h2 with ⟨h2, -⟩ | ⟨r, h2, -⟩ | ⟨h2, -⟩
        · cases h1; cases h2
          exact ⟨_, _, none, _, _, hp, ho, e1, e2, h1', by simp, rfl⟩
        · cases h2
        · cases h2
      · cases h1
      · cases h1
    · obtain ⟨x, y, z, e1, h1⟩ := coords_vec hp
      obtain ⟨x', y', z', e2, h2⟩ := coords_vec ho
      rcases h1 with ⟨h1, h1'⟩ | ⟨r, h1, h1'⟩ | ⟨h1, -⟩
      · cases h1
      · rcases h2 with ⟨h2, -⟩ | ⟨r, h2, -⟩ | ⟨h2, -⟩
        · cases h2
        · cases h1; cases h2
          exact ⟨_, _, some b.name, _, _, hp, ho, e1, e2, h1', by rintro n ⟨⟩; exact ⟨b, hb, rfl⟩, rfl⟩
        · cases h2
      · cases h1
  obtain ⟨p, o, g', hgo, hgk⟩ := register_ok (toM := toM) (fuel := fuel) (g := s.geo) (e := c.name) pv (.angles ov) (r := r) hpos hori (by
    intro n hn
    obtain ⟨b, hb, rfl⟩ := hrl n hn
    exact hi.known b hb)
  obtain ⟨g1, g2, g3, g4, g5⟩ := register_sound hi.cons hreg hgo
  rw [hcpo] at g3
  rw [g2, hi.seq] at g4 g5
  have hsub : ∀ e r, s.geo.reg e = some r → g'.reg e = some r := by
    intro e r he
    rw [g3]
    simp only [upd]
    split
    · next h => rw [h, hreg] at he; cases he
    · exact he
  have hself : g'.reg c.name = some (cp, anglesOf co) := by rw [g3]; simp [upd]
  refine ⟨{ vars := c.name :: s.vars, geo := g', placed := (c.name, p, o) :: s.placed }, ?_, ?_⟩
  · have ha : Stmt.exec toM (fuel + 1) { s with vars := c.name :: s.vars } (.append c.name c.position.vec c.orientation.vec c.position.ref) =
        .ok { vars := c.name :: s.vars, geo := g', placed := (c.name, p, o) :: s.placed } := by
      rw [hvp, hvo, hr]
      unfold Stmt.exec
      simp only [List.mem_cons, true_or, not_true_eq_false, if_false, numbers, bind, Except.bind]
      rw [hgo]
      cases r with
      | none => simp
      | some r =>
        obtain ⟨b, hb, rfl⟩ := hrl r rfl
        simp [hi.vars b hb]
    have hn : Stmt.exec toM (fuel + 1) s (.new c.name (some cat) c.type c.params) = .ok { s with vars := c.name :: s.vars } := rfl
    simp only [exec, bind, Except.bind, hn, ha]
  · refine ⟨?_, g1, g2.trans hi.seq, ?_, ?_, ?_, ?_, ?_⟩
    · intro b hb
      rcases List.mem_append.1 hb with hb | hb
      · exact List.mem_cons_of_mem _ (hi.vars b hb)
      · rw [List.mem_singleton] at hb; subst hb; exact List.mem_cons_self
    · intro n hn
      rw [g3] at hn
      simp only [upd] at hn
      split at hn
      · next h => exact ⟨c, by simp, h.symm⟩
      · obtain ⟨b, hb, e⟩ := hi.fresh n hn
        exact ⟨b, by simp [hb], e⟩
    · intro b hb
      rcases List.mem_append.1 hb with hb | hb
      · exact hgk _ (.inr (hi.known b hb))
      · rw [List.mem_singleton] at hb; subst hb; exact hgk _ (.inl rfl)
    · intro b hb
      rcases List.mem_append.1 hb with hb | hb
      · obtain ⟨p, o, h1, h2, h3⟩ := hi.reg b hb
        exact ⟨p, o, h1, h2, hsub _ _ h3⟩
      · rw [List.mem_singleton] at hb; subst hb; exact ⟨cp, co, hcp, hco, hself⟩
    · simp [hi.names]
    · intro e he
      rcases List.mem_cons.1 he with rfl | he
      · exact ⟨g4, g5⟩
      · obtain ⟨h1, h2⟩ := hi.placed e he
        exact ⟨h1.mono hsub, h2.mono hsub⟩

theorem exec_append [DecidableEq F] {toM : V3 F → M3 F} {fuel : Nat} (a b : List (Stmt F)) (s : Script F) :
    exec toM fuel s (a ++ b) = (exec toM fuel s a).bind fun s' => exec toM fuel s' b := by
  induction a generalizing s with
  | nil => rfl
  | cons x a ih =>
    simp only [List.cons_append, exec, bind, Except.bind]
    cases x.exec toM fuel s with
    | error e => rfl
    | ok s' => simp only; rw [ih]; rfl

theorem exec_all [DecidableEq F] {toM : V3 F → M3 F} {fuel : Nat} {cat : Txt → Option Txt} : ∀ (l2 l1 : List (Comp F)) (s : Script F),
    Inv toM l1 s → (∀ c ∈ l2, cat c.type ≠ none) → ((l1 ++ l2).map Comp.name).Nodup → SameReference (l1 ++ l2) →
    ∃ s', exec toM (fuel + 1) s (render cat l2) = .ok s' ∧ Inv toM (l1 ++ l2) s'
  | [], l1, s, hi, _, _, _ => ⟨s, rfl, by rw [List.append_nil]; exact hi⟩
  | c :: l2, l1, s, hi, hcat, hnd, hs => by
    have hnew : ∀ b ∈ l1, b.name ≠ c.name := by
      intro b hb e
      rw [List.map_append, List.map_cons] at hnd
      exact (List.disjoint_of_nodup_append hnd) (List.mem_map_of_mem hb) (by rw [e]; exact List.mem_cons_self)
    obtain ⟨s1, h1, i1⟩ := exec_step (fuel := fuel) hi (hcat c List.mem_cons_self) hnew (hs l1 c l2 rfl)
    obtain ⟨s2, h2, i2⟩ := exec_all (fuel := fuel) (cat := cat) l2 (l1 ++ [c]) s1 i1 (fun d hd => hcat d (List.mem_cons_of_mem _ hd)) (by simpa using hnd) (by simpa using hs)
    refine ⟨s2, ?_, by simpa using i2⟩
    unfold render at h2 ⊢
    rw [List.flatMap_cons, exec_append, h1]
    exact h2

theorem inv_empty (toM : V3 F → M3 F) : Inv toM [] (⟨[], empty none, []⟩ : Script F) :=
  ⟨by simp, consistent_empty _ _, rfl, fun n h => by simp [empty] at h, by simp, by simp, rfl, by simp⟩

omit [CommRing F] in
theorem coords_unique {P : Place F} {c d : Coord (V3 F) Txt} (h : Coords P c) (h' : Coords P d) : c = d := by
  cases h with
  | absolute x y z => cases h'; rfl
  | relative x y z r h =>
    cases h' with
    | relative => rfl
    | previous => exact absurd rfl h
  | previous x y z =>
    cases h' with
    | relative _ _ _ _ h => exact absurd rfl h
    | previous => rfl

end place

theorem propagate_replaced {V : Type} (eval : Txt → Option (PyVal V)) (x : PyVal V) : Replaced eval x (propagate eval x) := by
  induction x using propagate.induct with
  | case1 l ih =>
    rw [propagate]
    apply Replaced.tuple
    rw [List.forall₂_map_right_iff]
    have : ∀ l' : List { y // y ∈ l }, List.Forall₂ (fun a (c : { y // y ∈ l }) => Replaced eval a (propagate eval c.1)) (l'.map (·.1)) l' := by
      intro l'
      induction l' with
      | nil => exact .nil
      | cons a l' ih' => exact .cons (ih a) ih'
    have h := this l.attach
    rwa [List.attach_map_subtype_val] at h
  | case2 l ih =>
    rw [propagate]
    have e : (l.attach.map fun e => (e.1.1, if e.1.1.head? = some '_' then e.1.2 else propagate eval e.1.2)) =
        l.map fun e => (e.1, if e.1.head? = some '_' then e.2 else propagate eval e.2) := by
      conv_rhs => rw [← List.attach_map_subtype_val l, List.map_map]
      rfl
    rw [e]
    apply Replaced.dict
    · rw [List.map_map]; rfl
    · intro i k v v' h h' hk
      rw [List.getElem?_map, h] at h'
      simp only [Option.map_some, hk, if_true, Option.some.injEq, Prod.mk.injEq, true_and] at h'
      exact h'.symm
    · intro i k v v' h h' hk
      rw [List.getElem?_map, h] at h'
      simp only [Option.map_some, hk, if_false, Option.some.injEq, Prod.mk.injEq, true_and] at h'
      rw [← h']
      exact ih ⟨(k, v), List.mem_of_getElem? h⟩ hk
  | case3 s =>
    rw [propagate]
    cases h : eval s with
    | none => exact .text h
    | some v => exact .value h
  | case4 v => rw [propagate]; exact .other

end Verif.McInstr
