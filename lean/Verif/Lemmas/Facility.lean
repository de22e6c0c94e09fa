import Verif.Spec.Facility
import Mathlib.Data.List.Induction
/-!
Helper lemmas for names of component facilities.
-/

namespace Verif.Facility

/-! ### Cutting -/

theorem cut_char {c : Char} : ∀ {a : List Char} (b : List Char), c ∉ a → cut [c] (a ++ c :: b) = some (a, b)
  | [], b, _ => by simp [cut]
  | d :: a, b, h => by
    rw [List.mem_cons, not_or] at h
    rw [List.cons_append, cut, if_neg (by simp [List.isPrefixOf, h.1]), cut_char b h.2]
    rfl

theorem cut_none {c : Char} : ∀ {a : List Char}, c ∉ a → cut [c] a = none
  | [], _ => by simp [cut]
  | d :: a, h => by
    rw [List.mem_cons, not_or] at h
    rw [cut, if_neg (by simp [List.isPrefixOf, h.1]), cut_none h.2]
    rfl

theorem split_char {c : Char} {a b : List Char} (ha : c ∉ a) (hb : c ∉ b) : split2 [c] (a ++ c :: b) = .ok (a, b) := by
  unfold split2
  simp [cut_char b ha, cut_none hb]

theorem prefix_head {d : Char} {s : List Char} (h : ([':', '/', '/'] : List Char).isPrefixOf (d :: s) = true) :
    ∃ s', s = '/' :: '/' :: s' := by
  obtain ⟨t, ht⟩ := List.isPrefixOf_iff_prefix.1 h
  simp only [List.cons_append, List.nil_append, List.cons.injEq] at ht
  exact ⟨t, ht.2.symm⟩

theorem cut_url : ∀ {a : List Char} (b : List Char), '/' ∉ a →
    cut [':', '/', '/'] (a ++ ':' :: '/' :: '/' :: b) = some (a, b)
  | [], b, _ => by simp [cut, List.isPrefixOf]
  | d :: a, b, h => by
    rw [List.mem_cons, not_or] at h
    rw [List.cons_append, cut, if_neg, cut_url b h.2]
    · rfl
    · intro hp
      obtain ⟨s', hs⟩ := prefix_head hp
      cases a with
      | nil => simp at hs
      | cons e a =>
        simp only [List.cons_append, List.cons.injEq] at hs
        exact h.2 (by rw [hs.1]; exact List.mem_cons_self)

/-- no two slashes in a row -/
theorem cut_url_none : ∀ {s : List Char}, (∀ x y, s ≠ x ++ '/' :: '/' :: y) → cut [':', '/', '/'] s = none
  | [], _ => by simp [cut]
  | d :: s, h => by
    rw [cut, if_neg, cut_url_none (s := s) fun x y e => h (d :: x) y (by rw [e]; rfl)]
    · rfl
    · intro hp
      obtain ⟨s', hs⟩ := prefix_head hp
      exact h [d] s' (by rw [hs]; rfl)

theorem one_slash {a b : List Char} (ha : '/' ∉ a) (hb : '/' ∉ b) (x y : List Char) :
    a ++ '/' :: b ≠ x ++ '/' :: '/' :: y := by
  intro h
  have := congrArg (List.count '/') h
  simp only [List.count_append, List.count_cons_self, List.count_eq_zero_of_not_mem ha,
    List.count_eq_zero_of_not_mem hb] at this
  omega

theorem no_slash {a : List Char} (ha : '/' ∉ a) (x y : List Char) : a ≠ x ++ '/' :: '/' :: y := by
  rintro rfl
  simp at ha

/-! ### White space -/

theorem lstrip_cons {c : Char} {s : List Char} (h : ¬ c.isWhitespace) : lstrip (c :: s) = c :: s := by
  simp [lstrip, h]

theorem lstrip_ws {c : Char} {s : List Char} (h : c.isWhitespace) : lstrip (c :: s) = lstrip s := by
  simp [lstrip, h]

theorem lstrip_append {x s : List Char} (h : ∀ c ∈ x, c.isWhitespace) : lstrip (x ++ s) = lstrip s := by
  induction x with
  | nil => rfl
  | cons c x ih =>
    rw [List.cons_append, lstrip_ws (h c List.mem_cons_self)]
    exact ih fun d hd => h d (List.mem_cons_of_mem _ hd)

theorem lstrip_id {b : List Char} (h : ∀ c ∈ b.head?, ¬ c.isWhitespace) : lstrip b = b := by
  cases b with
  | nil => rfl
  | cons c b => exact lstrip_cons (h c rfl)

/-- `rstrip` -/
def rstrip (s : List Char) : List Char := (lstrip s.reverse).reverse

theorem strip_eq (s : List Char) : strip s = rstrip (lstrip s) := rfl

theorem lstrip_decomp : ∀ s : List Char, ∃ x, s = x ++ lstrip s ∧ (∀ c ∈ x, c.isWhitespace) ∧
    ∀ c ∈ (lstrip s).head?, ¬ c.isWhitespace
  | [] => ⟨[], rfl, by simp, by simp [lstrip]⟩
  | c :: s => by
    by_cases h : c.isWhitespace
    · obtain ⟨x, e1, e2, e3⟩ := lstrip_decomp s
      rw [lstrip_ws h]
      refine ⟨c :: x, by rw [List.cons_append, ← e1], ?_, e3⟩
      intro d hd
      rcases List.mem_cons.1 hd with rfl | hd
      · exact h
      · exact e2 d hd
    · rw [lstrip_cons h]
      exact ⟨[], rfl, by simp, by simp [h]⟩

theorem rstrip_decomp (s : List Char) : ∃ y, s = rstrip s ++ y ∧ (∀ c ∈ y, c.isWhitespace) ∧
    ∀ c ∈ (rstrip s).getLast?, ¬ c.isWhitespace := by
  obtain ⟨x, e1, e2, e3⟩ := lstrip_decomp s.reverse
  refine ⟨x.reverse, ?_, fun c hc => e2 c (List.mem_reverse.1 hc), ?_⟩
  · have := congrArg List.reverse e1
    rw [List.reverse_reverse, List.reverse_append] at this
    exact this
  · unfold rstrip
    rw [List.getLast?_reverse]
    exact e3

/-- the result of `strip` -/
theorem strip_trimmed (s : List Char) : Trimmed s (strip s) := by
  obtain ⟨x, e1, e2, e3⟩ := lstrip_decomp s
  obtain ⟨y, f1, f2, f3⟩ := rstrip_decomp (lstrip s)
  refine ⟨x, y, ?_, e2, f2, ?_, f3⟩
  · rw [strip_eq, List.append_assoc, ← f1, ← e1]
  · rw [strip_eq]
    intro c hc
    apply e3 c
    rw [f1]
    cases h : rstrip (lstrip s) with
    | nil => rw [h] at hc; simp at hc
    | cons d t => rw [h] at hc; simpa using hc

theorem trimmed_strip {a b : List Char} (h : Trimmed a b) : strip a = b := by
  obtain ⟨x, y, rfl, hx, hy, h1, h2⟩ := h
  rw [strip_eq, List.append_assoc, lstrip_append hx]
  cases b with
  | nil =>
    have : lstrip ([] ++ y) = [] := by
      have := lstrip_append (s := []) hy
      rw [List.append_nil] at this
      rw [List.nil_append, this]; rfl
    rw [this]; rfl
  | cons c b =>
    rw [lstrip_id (by simpa using h1 c rfl)]
    unfold rstrip
    rw [List.reverse_append, lstrip_append (fun d hd => hy d (List.mem_reverse.1 hd)), lstrip_id, List.reverse_reverse]
    rw [List.head?_reverse]
    exact h2

theorem strip_mem {s : List Char} {c : Char} (h : c ∈ strip s) : c ∈ s := by
  obtain ⟨x, y, e, -⟩ := strip_trimmed s
  rw [e]
  simp [h]

theorem strip_nil {s : List Char} (h : strip s = []) : ∀ c ∈ s, c.isWhitespace := by
  obtain ⟨x, y, e, hx, hy, -⟩ := strip_trimmed s
  rw [h] at e
  intro c hc
  rw [e] at hc
  simp only [List.append_nil, List.mem_append] at hc
  exact hc.elim (hx c) (hy c)

theorem strip_ws {s x y : List Char} (hx : ∀ c ∈ x, c.isWhitespace) (hy : ∀ c ∈ y, c.isWhitespace) :
    strip (x ++ s ++ y) = strip s := by
  obtain ⟨x', y', e, hx', hy', h1, h2⟩ := strip_trimmed s
  apply trimmed_strip
  refine ⟨x ++ x', y' ++ y, ?_, ?_, ?_, h1, h2⟩
  · conv_lhs => rw [e]
    simp [List.append_assoc]
  · intro c hc
    exact (List.mem_append.1 hc).elim (hx c) (hx' c)
  · intro c hc
    exact (List.mem_append.1 hc).elim (hy' c) (hy c)

/-! ### Lists of arguments -/

theorem join_eq : ∀ as : List (List Char), join as = List.intercalate [','] as
  | [] => rfl
  | [a] => by simp [join, List.intercalate]
  | a :: b :: as => by
    rw [join, join_eq (b :: as)]
    · simp [List.intercalate, List.intersperse]
    · simp

theorem splitAll_ne (c : Char) (s : List Char) : splitAll c s ≠ [] := by
  cases s with
  | nil => simp [splitAll]
  | cons d s =>
    rw [splitAll]
    split
    · simp
    · split <;> simp

theorem splitAll_single {c : Char} : ∀ {a : List Char}, c ∉ a → splitAll c a = [a]
  | [], _ => rfl
  | d :: a, h => by
    rw [List.mem_cons, not_or] at h
    rw [splitAll, if_neg (Ne.symm h.1), splitAll_single h.2]

theorem splitAll_append {c : Char} : ∀ {a : List Char} (s : List Char), c ∉ a →
    splitAll c (a ++ c :: s) = a :: splitAll c s
  | [], s, _ => by rw [List.nil_append, splitAll, if_pos rfl]
  | d :: a, s, h => by
    rw [List.mem_cons, not_or] at h
    rw [List.cons_append, splitAll, if_neg (Ne.symm h.1), splitAll_append s h.2]

theorem splitAll_join : ∀ {as : List (List Char)}, as ≠ [] → (∀ a ∈ as, ',' ∉ a) → splitAll ',' (join as) = as
  | [], h, _ => absurd rfl h
  | [a], _, h => splitAll_single (h a List.mem_cons_self)
  | a :: b :: as, _, h => by
    rw [join, splitAll_append _ (h a List.mem_cons_self),
      splitAll_join (by simp) fun x hx => h x (List.mem_cons_of_mem _ hx)]
    simp

/-- blanks at the ends of a list of arguments do not matter -/
theorem splitAll_left : ∀ {x s : List Char}, (∀ c ∈ x, c.isWhitespace) →
    (splitAll ',' (x ++ s)).map strip = (splitAll ',' s).map strip
  | [], s, _ => rfl
  | d :: x, s, h => by
    have hd := h d List.mem_cons_self
    have ih := splitAll_left (x := x) (s := s) fun c hc => h c (List.mem_cons_of_mem _ hc)
    rw [← ih, List.cons_append, splitAll, if_neg (by rintro rfl; revert hd; decide)]
    cases hs : splitAll ',' (x ++ s) with
    | nil => exact absurd hs (splitAll_ne _ _)
    | cons p ps =>
      simp only [List.map_cons]
      congr 1
      have := strip_ws (s := p) (x := [d]) (y := []) (by simpa using hd) (by simp)
      simpa using this

theorem splitAll_snoc {c d : Char} (hd : d ≠ c) : ∀ s : List Char, ∃ qs q, splitAll c s = qs ++ [q] ∧
    splitAll c (s ++ [d]) = qs ++ [q ++ [d]]
  | [] => ⟨[], [], rfl, by simp [splitAll, hd]⟩
  | e :: s => by
    obtain ⟨qs, q, h1, h2⟩ := splitAll_snoc hd s
    rw [List.cons_append, splitAll, splitAll, h1, h2]
    by_cases he : e = c
    · rw [if_pos he, if_pos he]
      exact ⟨[] :: qs, q, rfl, rfl⟩
    · rw [if_neg he, if_neg he]
      cases qs with
      | nil => exact ⟨[], e :: q, rfl, rfl⟩
      | cons p qs => exact ⟨(e :: p) :: qs, q, rfl, rfl⟩

theorem splitAll_right {s : List Char} : ∀ {y : List Char}, (∀ c ∈ y, c.isWhitespace) →
    (splitAll ',' (s ++ y)).map strip = (splitAll ',' s).map strip := by
  intro y
  induction y using List.reverseRecOn with
  | nil => intro _; rw [List.append_nil]
  | append_singleton y d ih =>
    intro h
    have hd : d.isWhitespace := h d (by simp)
    rw [← ih fun c hc => h c (by simp [hc]), ← List.append_assoc]
    obtain ⟨qs, q, e1, e2⟩ := splitAll_snoc (c := ',') (d := d) (by rintro rfl; revert hd; decide) (s ++ y)
    rw [e1, e2, List.map_append, List.map_append]
    congr 1
    have := strip_ws (s := q) (x := []) (y := [d]) (by simp) (by simpa using hd)
    simpa using this

theorem splitAll_strip (s : List Char) : (splitAll ',' (strip s)).map strip = (splitAll ',' s).map strip := by
  obtain ⟨x, y, e, hx, hy, -⟩ := strip_trimmed s
  conv_rhs => rw [e]
  rw [splitAll_right hy, splitAll_left hx]

theorem join_mem {c : Char} : ∀ {as : List (List Char)}, c ∈ join as → c = ',' ∨ ∃ a ∈ as, c ∈ a
  | [], h => by simp [join] at h
  | [a], h => Or.inr ⟨a, List.mem_cons_self, h⟩
  | a :: b :: as, h => by
    rw [join] at h
    · rcases List.mem_append.1 h with h | h
      · exact Or.inr ⟨a, List.mem_cons_self, h⟩
      · rcases List.mem_cons.1 h with h | h
        · exact Or.inl h
        · rcases join_mem h with h | ⟨x, hx, h⟩
          · exact Or.inl h
          · exact Or.inr ⟨x, List.mem_cons_of_mem _ hx, h⟩
    · simp

theorem mem_join {c : Char} : ∀ {as : List (List Char)} {a : List Char}, a ∈ as → c ∈ a → c ∈ join as
  | [], _, h, _ => by simp at h
  | [b], a, h, hc => by rw [List.mem_singleton] at h; subst h; exact hc
  | b :: d :: as, a, h, hc => by
    rw [join]
    · rcases List.mem_cons.1 h with rfl | h
      · exact List.mem_append_left _ hc
      · exact List.mem_append_right _ (List.mem_cons_of_mem _ (mem_join h hc))
    · simp

/-! ### Parsing -/

theorem typeOf_plain {t : List Char} (h : '(' ∉ t) : typeOf t = .ok (t, none) := by
  unfold typeOf
  rw [cut_none h]
  rfl

theorem typeOf_args {t : List Char} {as : List (List Char)} (ht : '(' ∉ t) (hw : ∀ c ∈ t, ¬ c.isWhitespace)
    (has : ∀ a ∈ as, '(' ∉ a ∧ ',' ∉ a) (hne : as.length ≥ 2 ∨ ∃ a ∈ as, ∃ c ∈ a, ¬ c.isWhitespace) :
    typeOf (t ++ '(' :: (join as ++ [')'])) = .ok (t, some (as.map strip)) := by
  have hs : strip (t ++ '(' :: (join as ++ [')'])) = t ++ '(' :: (join as ++ [')']) := by
    apply trimmed_strip
    refine ⟨[], [], by simp, by simp, by simp, ?_, ?_⟩
    · intro c hc
      cases t with
      | nil => simp at hc; subst hc; decide
      | cons d t => simp at hc; subst hc; exact hw _ List.mem_cons_self
    · intro c hc
      rw [show t ++ '(' :: (join as ++ [')']) = (t ++ '(' :: join as) ++ [')'] by simp,
        List.getLast?_append_of_ne_nil _ (by simp)] at hc
      simp at hc
      subst hc
      decide
  have hj : '(' ∉ join as := by
    intro h
    rcases join_mem h with h | ⟨a, ha, h⟩
    · revert h; decide
    · exact (has a ha).1 h
  have hnb : strip (join as) ≠ [] := by
    intro h
    have hall := strip_nil h
    rcases hne with h2 | ⟨a, ha, c, hc, hcw⟩
    · match as, h2 with
      | a :: b :: as, _ =>
        have : ',' ∈ join (a :: b :: as) := by rw [join]; · simp
                                               · simp
        exact absurd (hall _ this) (by decide)
    · exact hcw (hall c (mem_join ha hc))
  have has0 : as ≠ [] := by
    rintro rfl
    simp at hne
  unfold typeOf
  rw [cut_char _ ht]
  have hd : (t ++ '(' :: (join as ++ [')'])).dropLast = t ++ '(' :: join as := by
    rw [show t ++ '(' :: (join as ++ [')']) = (t ++ '(' :: join as) ++ [')'] by simp, List.dropLast_concat]
  rw [hs, hd, split_char ht hj]
  show (if strip (join as) = [] then _ else _) = _
  rw [if_neg hnb, splitAll_strip, splitAll_join has0 fun a ha => (has a ha).2]

theorem categoryOf_some {a b : List Char} (ha : '/' ∉ a) (hb : '/' ∉ b) : categoryOf (a ++ '/' :: b) = .ok (some a, b) := by
  unfold categoryOf
  rw [cut_char _ ha, split_char ha hb]
  rfl

theorem categoryOf_none {a : List Char} (ha : '/' ∉ a) : categoryOf a = .ok (none, a) := by
  unfold categoryOf
  rw [cut_none ha]

theorem supplierOf_none {s : List Char} (h : ∀ x y, s ≠ x ++ '/' :: '/' :: y) : supplierOf s = .ok (none, s) := by
  unfold supplierOf
  rw [cut_url_none h]

theorem supplierOf_some {a s : List Char} (ha : '/' ∉ a) (h : ∀ x y, s ≠ x ++ '/' :: '/' :: y) :
    supplierOf (a ++ ':' :: '/' :: '/' :: s) = .ok (some a, s) := by
  unfold supplierOf split2
  simp only [cut_url s ha, cut_url_none h]
  rfl

theorem decode_written {s : Spec} (h : Clean s) : decode (written s) =
    .ok { s with args := s.args.map fun as => as.map strip } := by
  obtain ⟨supplier, category, type, args⟩ := s
  obtain ⟨hs, hc, ⟨ht1, ht2, ht3⟩, ha⟩ := h
  simp only at hs hc ht1 ht2 ht3 ha
  -- the last part
  obtain ⟨T, hT⟩ : ∃ T, T = type ++ (match args with
      | none => []
      | some as => ['('] ++ List.intercalate [','] as ++ [')']) := ⟨_, rfl⟩
  have hTt : typeOf T = .ok (type, args.map fun as => as.map strip) := by
    cases args with
    | none => rw [hT]; simp only [List.append_nil]; exact typeOf_plain ht2
    | some as =>
      obtain ⟨h1, h2⟩ := ha as rfl
      rw [hT]
      simp only [List.cons_append, List.nil_append, ← join_eq]
      exact typeOf_args ht2 (ht3 (by simp)) (fun a h => ⟨(h1 a h).2.1, (h1 a h).2.2⟩) h2
  have hTs : '/' ∉ T := by
    rw [hT]
    intro h
    rcases List.mem_append.1 h with h | h
    · exact ht1 h
    · cases args with
      | none => simp at h
      | some as =>
        simp only [← join_eq] at h
        rcases List.mem_append.1 h with h | h
        · rcases List.mem_append.1 h with h | h
          · revert h; decide
          · rcases join_mem h with h | ⟨a, ha', h⟩
            · revert h; decide
            · exact ((ha as rfl).1 a ha').1 h
        · revert h; decide
  -- the part with the category
  obtain ⟨C, hC⟩ : ∃ C, C = (match category with | none => [] | some a => a ++ ['/']) ++ T := ⟨_, rfl⟩
  have hCc : categoryOf C = .ok (category, T) := by
    cases category with
    | none => rw [hC]; exact categoryOf_none hTs
    | some a => rw [hC]; simp only [List.append_assoc, List.cons_append, List.nil_append]; exact categoryOf_some (hc a rfl) hTs
  have hCs : ∀ x y, C ≠ x ++ '/' :: '/' :: y := by
    cases category with
    | none => rw [hC]; exact no_slash hTs
    | some a => rw [hC]; simp only [List.append_assoc, List.cons_append, List.nil_append]; exact one_slash (hc a rfl) hTs
  have hw : written ⟨supplier, category, type, args⟩ =
      (match supplier with | none => [] | some a => a ++ [':', '/', '/']) ++ C := by
    rw [hC, hT]
    unfold written
    cases supplier <;> cases category <;> cases args <;> simp
  rw [hw]
  unfold decode
  cases supplier with
  | none =>
    simp only [List.nil_append, supplierOf_none hCs]
    show (do let (category, t2) ← categoryOf C; let (type, args) ← typeOf t2; Except.ok (Spec.mk none category type args)) = _
    rw [hCc]
    show (do let (type, args) ← typeOf T; Except.ok (Spec.mk none category type args)) = _
    rw [hTt]
    rfl
  | some a =>
    simp only [List.append_assoc, List.cons_append, List.nil_append, supplierOf_some (hs a rfl) hCs]
    show (do let (category, t2) ← categoryOf C; let (type, args) ← typeOf t2; Except.ok (Spec.mk (some a) category type args)) = _
    rw [hCc]
    show (do let (type, args) ← typeOf T; Except.ok (Spec.mk (some a) category type args)) = _
    rw [hTt]
    rfl

end Verif.Facility
