import Verif.Spec.McComp
import Verif.Lemmas.McInstr
import Verif.Lemmas.DataFiles
/-!
Lemmas for the parsing of components of McStas.
-/

namespace Verif.McComp
open Facility McInstr

/-! ### texts -/

theorem split_strip {k : Char} (hk : k.isWhitespace = false) (s : Txt) : (splitAll k (strip s)).map strip = (splitAll k s).map strip := by
  have ne : ∀ d : Char, d.isWhitespace → d ≠ k := by rintro d hd rfl; rw [hk] at hd; exact absurd hd (by decide)
  have left : ∀ x : Txt, ∀ s : Txt, (∀ c ∈ x, c.isWhitespace) → (splitAll k (x ++ s)).map strip = (splitAll k s).map strip := by
    intro x s
    induction x with
    | nil => intro _; rfl
    | cons d x ih =>
      intro h
      have hd := h d List.mem_cons_self
      rw [← ih fun c hc => h c (List.mem_cons_of_mem _ hc), List.cons_append, splitAll, if_neg (ne d hd)]
      cases hs : splitAll k (x ++ s) with
      | nil => exact absurd hs (splitAll_ne _ _)
      | cons p ps =>
        simp only [List.map_cons]
        congr 1
        have := strip_ws (s := p) (x := [d]) (y := []) (by simpa using hd) (by simp)
        simpa using this
  have right : ∀ s y : Txt, (∀ c ∈ y, c.isWhitespace) → (splitAll k (s ++ y)).map strip = (splitAll k s).map strip := by
    intro s y
    induction y using List.reverseRecOn with
    | nil => intro _; rw [List.append_nil]
    | append_singleton y d ih =>
      intro h
      have hd : d.isWhitespace := h d (by simp)
      rw [← ih fun c hc => h c (by simp [hc]), ← List.append_assoc]
      obtain ⟨qs, q, e1, e2⟩ := splitAll_snoc (c := k) (d := d) (ne d hd) (s ++ y)
      rw [e1, e2, List.map_append, List.map_append]
      congr 1
      have := strip_ws (s := q) (x := []) (y := [d]) (by simp) (by simpa using hd)
      simpa using this
  obtain ⟨x, y, e, hx, hy, -⟩ := strip_trimmed s
  conv_rhs => rw [e]
  rw [right _ _ hy, left _ _ hx]

theorem strip_strip (s : Txt) : strip (strip s) = strip s := by
  obtain ⟨x, y, e, hx, hy, h1, h2⟩ := strip_trimmed s
  exact trimmed_strip ⟨[], [], by simp, by simp, by simp, h1, h2⟩

theorem stripSet_id {p : Char → Bool} {s : Txt} (h1 : ∀ c ∈ s.head?, p c = false) (h2 : ∀ c ∈ s.getLast?, p c = false) : stripSet p s = s := by
  have key : ∀ t : Txt, (∀ c ∈ t.head?, p c = false) → t.dropWhile p = t := by
    intro t h
    cases t with
    | nil => rfl
    | cons c t => rw [List.dropWhile_cons, if_neg]; simp [h c rfl]
  unfold stripSet
  rw [key s h1, key s.reverse (by rw [List.head?_reverse]; exact h2), List.reverse_reverse]

theorem stripSet_around {p : Char → Bool} {q : Char} {s : Txt} (hq : p q = true) (hs : ∀ c ∈ s, p c = false) : stripSet p (q :: (s ++ [q])) = s := by
  have key : ∀ t : Txt, (∀ c ∈ t, p c = false) → (t ++ [q]).dropWhile p = if t = [] then [] else t ++ [q] := by
    intro t h
    cases t with
    | nil => simp [hq]
    | cons c t => rw [List.cons_append, List.dropWhile_cons, if_neg (by simp [h c])]; simp
  unfold stripSet
  rw [List.dropWhile_cons, if_pos hq, key s hs]
  by_cases h0 : s = []
  · subst h0; simp
  · rw [if_neg h0, List.reverse_append, List.reverse_singleton, List.singleton_append, List.dropWhile_cons, if_pos hq]
    have : s.reverse.dropWhile p = s.reverse := by
      cases hr : s.reverse with
      | nil => rfl
      | cons c t =>
        rw [List.dropWhile_cons, if_neg]
        have : c ∈ s := by rw [← List.mem_reverse, hr]; exact List.mem_cons_self
        simp [hs c this]
    rw [this, List.reverse_reverse]

/-! ### a declaration -/

/-- the value by the trimmed parts -/
theorem valuePart_map {l l' : List Txt} (h : l.map strip = l'.map strip) : valuePart l = valuePart l' := by
  rcases l with _ | ⟨a, _ | ⟨b, _ | ⟨c, l⟩⟩⟩ <;> rcases l' with _ | ⟨a', _ | ⟨b', _ | ⟨c', l'⟩⟩⟩ <;>
    simp only [List.map_cons, List.map_nil, List.cons.injEq, and_true, reduceCtorEq, and_false] at h <;> try rfl
  show stripSet quote (strip b) = stripSet quote (strip b')
  rw [h.2]

theorem typeName_strip (s : Txt) : typeName (strip s) = typeName s := by
  have h := split_strip (k := '*') (by decide) s
  unfold typeName
  rw [DataFiles.words_strip]
  rcases h1 : splitAll '*' s with _ | ⟨a, _ | ⟨b, _ | ⟨c, l⟩⟩⟩ <;> rcases h2 : splitAll '*' (strip s) with _ | ⟨a', _ | ⟨b', _ | ⟨c', l'⟩⟩⟩ <;>
    rw [h1, h2] at h <;> simp only [List.map_cons, List.map_nil, List.cons.injEq, and_true, reduceCtorEq, and_false, false_and] at h <;> simp only
  rw [h.1, h.2]

theorem paramMatch_strip (s : Txt) : paramMatch (strip s) = paramMatch s := by
  have he := split_strip (k := '=') (by decide) s
  have hh : strip ((splitAll '=' (strip s)).headD []) = strip ((splitAll '=' s).headD []) := by
    have := congrArg (fun l : List Txt => l.headD []) he
    rcases h1 : splitAll '=' s with _ | ⟨a, l⟩
    · exact absurd h1 (splitAll_ne _ _)
    · rcases h2 : splitAll '=' (strip s) with _ | ⟨a', l'⟩
      · exact absurd h2 (splitAll_ne _ _)
      · rw [h1, h2] at this; exact this
  have key : (⟨(typeName ((splitAll '=' (strip s)).headD [])).1, (typeName ((splitAll '=' (strip s)).headD [])).2, valuePart (splitAll '=' (strip s))⟩ : Param) =
      ⟨(typeName ((splitAll '=' s).headD [])).1, (typeName ((splitAll '=' s).headD [])).2, valuePart (splitAll '=' s)⟩ := by
    rw [valuePart_map he, ← typeName_strip ((splitAll '=' (strip s)).headD []), hh, typeName_strip]
  have nil : paramMatch [] = ⟨(typeName ((splitAll '=' []).headD [])).1, (typeName ((splitAll '=' []).headD [])).2, valuePart (splitAll '=' [])⟩ := by
    decide
  have gen : ∀ t : Txt, paramMatch t = ⟨(typeName ((splitAll '=' t).headD [])).1, (typeName ((splitAll '=' t).headD [])).2, valuePart (splitAll '=' t)⟩ := by
    intro t
    cases t with
    | nil => exact nil
    | cons c t => rfl
  rw [gen, gen, key]

theorem name_no {s : Txt} (h : Name s) {c : Char} (hc : c = ',' ∨ c = '=' ∨ c = '*' ∨ c = '(' ∨ c = ')') : c ∉ s := by
  intro hm
  have := (h.2 c hm).2
  rcases hc with rfl | rfl | rfl | rfl | rfl <;> tauto

theorem white_no' {s : Txt} (h : White s) {c : Char} (hc : c.isWhitespace = false) : c ∉ s := by
  intro hm
  have := h c hm
  rw [hc] at this
  exact absurd this (by decide)

theorem name_trim {s x y : Txt} (h : Name s) (hx : White x) (hy : White y) : strip (x ++ (s ++ y)) = s := by
  apply trimmed_strip
  refine ⟨x, y, by simp, hx, hy, fun c hc => ?_, fun c hc => ?_⟩
  · simp [(h.2 c (List.mem_of_mem_head? hc)).1]
  · simp [(h.2 c (List.mem_of_mem_getLast? hc)).1]

theorem typeName_eq {k : Kind} {a n b : Txt} (hk : k.Ok) (hn : Name n) (ha : White a) (hb : White b) :
    typeName (a ++ (k.text ++ (n ++ b))) = (k.type, n) := by
  have star : ∀ s : Txt, '*' ∉ s → splitAll '*' s = [s] := fun s h => splitAll_single h
  have na : '*' ∉ a := white_no' ha (by decide)
  have nb : '*' ∉ b := white_no' hb (by decide)
  have nn : '*' ∉ n := name_no hn (by simp)
  have hns : ∀ c ∈ n, ¬ c.isWhitespace := fun c hc => by simp [(hn.2 c hc).1]
  have hnn : strip n = n := by have := name_trim hn (x := []) (y := []) (by simp [White]) (by simp [White]); simpa using this
  have wn : ∀ g : Txt, White g → DataFiles.words (g ++ (n ++ b)) = [n] := by
    intro g hg
    rw [DataFiles.words_blank hg, DataFiles.words_word hn.1 hns (fun c hc => hb c (List.mem_of_mem_head? hc))]
    have := DataFiles.words_blank (s := []) hb
    rw [List.append_nil] at this
    rw [this]; rfl
  cases k with
  | none =>
    show typeName (a ++ ([] ++ (n ++ b))) = _
    rw [List.nil_append]
    unfold typeName
    rw [star _ (by simp [na, nn, nb])]
    simp only
    rw [wn a ha]
    simp only [hnn]
    rfl
  | plain t g =>
    obtain ⟨ht, hg, hg0⟩ := hk
    have nt : '*' ∉ t := name_no ht (by simp)
    have ng : '*' ∉ g := white_no' hg (by decide)
    have htt : strip t = t := by have := name_trim ht (x := []) (y := []) (by simp [White]) (by simp [White]); simpa using this
    show typeName (a ++ (t ++ g ++ (n ++ b))) = _
    unfold typeName
    rw [star _ (by simp [na, nn, nb, nt, ng])]
    simp only
    rw [DataFiles.words_blank ha, List.append_assoc, DataFiles.words_word ht.1 (fun c hc => by simp [(ht.2 c hc).1]) ?_, wn g hg]
    · simp only [hnn, htt]; rfl
    · intro c hc
      cases g with
      | nil => exact absurd rfl hg0
      | cons d g => simp only [List.cons_append, List.head?_cons, Option.mem_some_iff] at hc; subst hc; exact hg _ List.mem_cons_self
  | pointer t g h =>
    obtain ⟨ht, hg, hh⟩ := hk
    have nt : '*' ∉ t := name_no ht (by simp)
    have ng : '*' ∉ g := white_no' hg (by decide)
    have nh : '*' ∉ h := white_no' hh (by decide)
    have e : a ++ ((Kind.pointer t g h).text ++ (n ++ b)) = (a ++ (t ++ g)) ++ '*' :: (h ++ (n ++ b)) := by simp [Kind.text]
    rw [e]
    unfold typeName
    rw [splitAll_append _ (by simp [na, nt, ng]), star _ (by simp [nh, nn, nb])]
    simp only
    rw [name_trim ht ha hg, name_trim hn hh hb]
    rfl

theorem kind_no {k : Kind} (h : k.Ok) {c : Char} (hc : c = ',' ∨ c = '=' ∨ c = '(' ∨ c = ')') : c ∉ k.text := by
  have hw : c.isWhitespace = false := by rcases hc with rfl | rfl | rfl | rfl <;> decide
  have hn : c = ',' ∨ c = '=' ∨ c = '*' ∨ c = '(' ∨ c = ')' := by tauto
  have hs : c ≠ '*' := by rcases hc with rfl | rfl | rfl | rfl <;> decide
  cases k with
  | none => simp [Kind.text]
  | plain t g =>
    obtain ⟨ht, hg, -⟩ := h
    simp only [Kind.text, List.mem_append, not_or]
    exact ⟨name_no ht hn, white_no' hg hw⟩
  | pointer t g h' =>
    obtain ⟨ht, hg, hh⟩ := h
    simp only [Kind.text, List.mem_append, List.mem_cons, not_or]
    exact ⟨⟨name_no ht hn, white_no' hg hw⟩, hs, white_no' hh hw⟩

theorem param_eq {d : Decl} (h : d.Ok) (hs : d.dflt.Safe) : paramMatch d.text = d.param := by
  obtain ⟨ha, hb, hd⟩ := h.white
  have n1 : '=' ∉ d.a ++ (d.kind.text ++ (d.name ++ d.b)) := by
    simp only [List.mem_append, not_or]
    exact ⟨white_no' ha (by decide), kind_no h.kind (by simp), name_no h.name (by simp), white_no' hb (by decide)⟩
  have n2 : '=' ∉ d.d := white_no' hd (by decide)
  have gen : ∀ t : Txt, t ≠ [] → paramMatch t = ⟨(typeName ((splitAll '=' t).headD [])).1, (typeName ((splitAll '=' t).headD [])).2, valuePart (splitAll '=' t)⟩ := by
    intro t ht
    cases t with
    | nil => exact absurd rfl ht
    | cons c t => rfl
  have hne : d.text ≠ [] := by
    unfold Decl.text
    intro he
    simp only [List.append_eq_nil_iff] at he
    exact h.name.1 he.2.2.1
  rw [gen _ hne]
  unfold Decl.param
  rcases hdf : d.dflt with _ | ⟨b, v⟩ | ⟨b, q, v⟩
  · have e : d.text = d.a ++ (d.kind.text ++ (d.name ++ (d.b ++ d.d))) := by unfold Decl.text; rw [hdf]; rfl
    have hw : White (d.b ++ d.d) := by
      intro c hc; rw [List.mem_append] at hc
      rcases hc with hc | hc
      · exact hb c hc
      · exact hd c hc
    rw [e, splitAll_single]
    · simp only [List.headD_cons]
      rw [typeName_eq h.kind h.name ha hw]
      rfl
    · simp only [List.mem_append, not_or] at n1 ⊢
      tauto
  · have ho := h.dflt
    rw [hdf] at ho
    obtain ⟨h1, h2, h3, h4, h5⟩ := ho
    have e : d.text = (d.a ++ (d.kind.text ++ (d.name ++ d.b))) ++ '=' :: (b ++ v ++ d.d) := by unfold Decl.text; rw [hdf]; simp [Dflt.text]
    rw [e, splitAll_append _ n1, splitAll_single]
    · simp only [List.headD_cons]
      rw [typeName_eq h.kind h.name ha hb]
      have hv : strip (b ++ v ++ d.d) = v := trimmed_strip ⟨b, d.d, rfl, h1, hd, fun c hc => by simp [(h3 c hc).1], fun c hc => by simp [(h4 c hc).1]⟩
      unfold valuePart
      simp only
      rw [hv, stripSet_id]
      · rfl
      · intro c hc; have := h3 c hc; simp [quote, this.2.1, this.2.2]
      · intro c hc; have := h4 c hc; simp [quote, this.2.1, this.2.2]
    · simp only [List.mem_append, not_or]
      exact ⟨⟨white_no' h1 (by decide), fun hm => (h5 _ hm).2.1 rfl⟩, n2⟩
  · have ho := h.dflt
    rw [hdf] at ho hs
    obtain ⟨h1, hq, h5⟩ := ho
    have e : d.text = (d.a ++ (d.kind.text ++ (d.name ++ d.b))) ++ '=' :: (b ++ (q :: (v ++ [q])) ++ d.d) := by unfold Decl.text; rw [hdf]; simp [Dflt.text]
    have hqw : q.isWhitespace = false ∧ quote q = true ∧ '=' ≠ q := by rcases hq with rfl | rfl <;> decide
    rw [e, splitAll_append _ n1, splitAll_single]
    · simp only [List.headD_cons]
      rw [typeName_eq h.kind h.name ha hb]
      have hv : strip (b ++ (q :: (v ++ [q])) ++ d.d) = q :: (v ++ [q]) := trimmed_strip ⟨b, d.d, rfl, h1, hd, fun c hc => by
          simp only [List.head?_cons, Option.mem_some_iff] at hc; subst hc; simp [hqw.1], fun c hc => by
          rw [← List.cons_append, List.getLast?_concat] at hc
          simp only [Option.mem_some_iff] at hc; subst hc; simp [hqw.1]⟩
      unfold valuePart
      simp only
      rw [hv, stripSet_around hqw.2.1]
      · rfl
      · intro c hc; have := h5 c hc; simp [quote, this.1, this.2.1]
    · simp only [List.mem_append, List.mem_cons, List.not_mem_nil, or_false, not_or]
      exact ⟨⟨white_no' h1 (by decide), hqw.2.2, fun hm => (hs _ hm).2.1 rfl, hqw.2.2⟩, n2⟩

theorem dflt_no {d : Dflt} (h : d.Ok) (hs : d.Safe) {c : Char} (hc : c = ',' ∨ c = '(' ∨ c = ')') : c ∉ d.text := by
  have hw : c.isWhitespace = false := by rcases hc with rfl | rfl | rfl <;> decide
  have he : c ≠ '=' ∧ c ≠ '"' ∧ c ≠ '\'' := by rcases hc with rfl | rfl | rfl <;> decide
  cases d with
  | none => simp [Dflt.text]
  | bare b v =>
    obtain ⟨h1, h2, h3, h4, h5⟩ := h
    simp only [Dflt.text, List.mem_append, List.mem_cons, not_or]
    refine ⟨he.1, white_no' h1 hw, fun hm => ?_⟩
    have := h5 c hm
    tauto
  | quoted b q v =>
    obtain ⟨h1, hq, h5⟩ := h
    have hcq : c ≠ q := by rcases hq with rfl | rfl <;> tauto
    simp only [Dflt.text, List.mem_append, List.mem_cons, List.not_mem_nil, or_false, not_or]
    refine ⟨he.1, white_no' h1 hw, hcq, fun hm => ?_, hcq⟩
    have := hs c hm
    tauto

theorem decl_no {d : Decl} (h : d.Ok) (hs : d.dflt.Safe) {c : Char} (hc : c = ',' ∨ c = '(' ∨ c = ')') : c ∉ d.text := by
  have hw : c.isWhitespace = false := by rcases hc with rfl | rfl | rfl <;> decide
  obtain ⟨ha, hb, hd⟩ := h.white
  simp only [Decl.text, List.mem_append, not_or]
  exact ⟨white_no' ha hw, kind_no h.kind (by tauto), name_no h.name (by tauto), white_no' hb hw, dflt_no h.dflt hs hc, white_no' hd hw⟩

theorem collect_strip : ∀ l l' : List Txt, l.map strip = l'.map strip → collect l = collect l'
  | [], [], _ => rfl
  | a :: l, a' :: l', h => by
    simp only [List.map_cons, List.cons.injEq] at h
    rw [collect, collect, h.1, collect_strip l l' h.2]

theorem collect_eq : ∀ ds : List Decl, (∀ d ∈ ds, d.Ok ∧ d.dflt.Safe) → collect (ds.map Decl.text) = some (ds.map Decl.param)
  | [], _ => rfl
  | d :: ds, h => by
    obtain ⟨h1, h2⟩ := h d List.mem_cons_self
    rw [List.map_cons, collect, paramMatch_strip, param_eq h1 h2, if_neg, collect_eq ds fun e he => h e (List.mem_cons_of_mem _ he)]
    · rfl
    · simp [Decl.param, h1.name.1]

theorem strip_ends {s : Txt} (h : '(' ∉ s ∧ ')' ∉ s) :
    stripSet (fun c => c == ' ' || c == '(' || c == ')' || c == '\n') (strip s) = strip s := by
  obtain ⟨x, y, e, hx, hy, h1, h2⟩ := strip_trimmed s
  have key : ∀ c, c ∈ strip s → ¬ c.isWhitespace = true → (c == ' ' || c == '(' || c == ')' || c == '\n') = false := by
    intro c hc hw
    have hm : c ∈ s := strip_mem hc
    have e1 : c ≠ ' ' := by rintro rfl; exact hw (by decide)
    have e2 : c ≠ '\n' := by rintro rfl; exact hw (by decide)
    have e3 : c ≠ '(' := by rintro rfl; exact h.1 hm
    have e4 : c ≠ ')' := by rintro rfl; exact h.2 hm
    simp [e1, e2, e3, e4]
  exact stripSet_id (fun c hc => key c (List.mem_of_mem_head? hc) (h1 c hc)) (fun c hc => key c (List.mem_of_mem_getLast? hc) (h2 c hc))

theorem inter_no {c : Char} (hc : c ≠ ',') : ∀ {as : List Txt}, (∀ a ∈ as, c ∉ a) → c ∉ List.intercalate [','] as
  | [], _ => by simp [List.intercalate]
  | [a], h => by simpa [List.intercalate] using h a
  | a :: b :: l, h => by
    rw [intercalate_cons₂]
    simp only [List.mem_append, List.mem_cons, not_or]
    exact ⟨h a List.mem_cons_self, hc, inter_no hc fun x hx => h x (List.mem_cons_of_mem _ hx)⟩

theorem defParams_eq {ds : List Decl} (h0 : ds ≠ []) (h : ∀ d ∈ ds, d.Ok ∧ d.dflt.Safe) :
    defParams (strip (List.intercalate [','] (ds.map Decl.text))) = ds.map Decl.param := by
  have no : ∀ c, c = ',' ∨ c = '(' ∨ c = ')' → ∀ a ∈ ds.map Decl.text, c ∉ a := by
    intro c hc a ha
    obtain ⟨d, hd, rfl⟩ := List.mem_map.1 ha
    exact decl_no (h d hd).1 (h d hd).2 hc
  unfold defParams
  rw [strip_ends ⟨inter_no (by decide) (no _ (by simp)), inter_no (by decide) (no _ (by simp))⟩,
    collect_strip _ (splitAll ',' (List.intercalate [','] (ds.map Decl.text))) (split_strip (by decide) _),
    splitAll_all (by simpa using h0) (no _ (by simp)), collect_eq ds h]
  rfl

/-! ### the search -/

theorem searchLines_skip {is : List Item} (s : Txt) : ∀ (pre : Txt) (b : Bool),
    (∀ x y, pre = x ++ y → y ≠ [] → ((b = true ∧ x = []) ∨ x.getLast? = some '\n') → matchAt is (y ++ s) = none) →
    searchLines is b (pre ++ s) = searchLines is (pre.getLast?.elim b (· == '\n')) s
  | [], b, _ => rfl
  | c :: pre, b, h => by
    rw [List.cons_append, searchLines]
    have h1 : (if b then matchAt is (c :: (pre ++ s)) else none) = none := by
      split
      · next hb => exact h [] (c :: pre) rfl (by simp) (.inl ⟨hb, rfl⟩)
      · rfl
    rw [h1, Option.none_or, searchLines_skip s pre (c == '\n') ?_]
    · congr 1
      cases pre with
      | nil => rfl
      | cons d pre => rw [List.getLast?_cons_cons]; cases hl : (d :: pre).getLast? <;> simp_all
    · intro x y e hy hx
      apply h (c :: x) y (by rw [e]; rfl) hy
      right
      rcases hx with ⟨hx, rfl⟩ | hx
      · simp only [beq_iff_eq] at hx; rw [hx]; rfl
      · cases x with
        | nil => simp at hx
        | cons d x => rw [List.getLast?_cons_cons]; exact hx

theorem searchLines_now {is : List Item} {s : Txt} {r : List Txt} (h : matchAt is s = some r) : searchLines is true s = some r := by
  cases s with
  | nil => exact h
  | cons c s => rw [searchLines, if_pos rfl, h]; rfl

theorem greedy_none' {α : Type} {p : Char → Bool} {k : Txt → Option α} : ∀ {s : Txt}, (∀ u v, s = u ++ v → (∀ c ∈ u, p c = true) → k v = none) →
    greedy p k s = none
  | [], h => by rw [greedy, h [] [] rfl (by simp)]; rfl
  | c :: s, h => by
    rw [greedy]
    split
    · next hc =>
      rw [greedy_none' (s := s) fun u v e hu => h (c :: u) v (by rw [e]; rfl) (by
        intro d hd; rw [List.mem_cons] at hd; rcases hd with rfl | hd
        · exact hc
        · exact hu d hd)]
      simp only
      rw [h [] (c :: s) rfl (by simp)]; rfl
    · rw [h [] (c :: s) rfl (by simp)]; rfl

theorem star_none' {p : Char → Bool} {cap : Bool} {is : List Item} {s : Txt} (h : ∀ u v, s = u ++ v → (∀ c ∈ u, p c = true) → matchAt is v = none) :
    matchAt (.star p cap :: is) s = none := by
  rw [matchAt, greedy_none' h]; rfl

theorem word_some {is : List Item} : ∀ {w v : Txt} {r : List Txt}, matchAt (word w ++ is) v = some r →
    ∃ k v', v = k ++ v' ∧ k.map Char.toLower = w.map Char.toLower ∧ matchAt is v' = some r
  | [], v, r, h => ⟨[], v, rfl, rfl, h⟩
  | c :: w, v, r, h => by
    cases v with
    | nil => exact absurd h (by simp [word, matchAt])
    | cons d v =>
      have h' : (if letter c d then matchAt (word w ++ is) v else none) = some r := h
      by_cases hl : letter c d = true
      · rw [if_pos hl] at h'
        obtain ⟨k, v', e1, e2, e3⟩ := word_some h'
        refine ⟨d :: k, v', by rw [e1]; rfl, ?_, e3⟩
        rw [List.map_cons, List.map_cons, e2]
        simp only [letter, beq_iff_eq] at hl
        rw [hl]
      · rw [if_neg hl] at h'; exact absurd h' (by simp)

theorem lower_nl {c : Char} (h : c.toLower = '\n') : c = '\n' := by
  unfold Char.toLower at h
  split at h
  · next hc =>
    exfalso
    have h2 := congrArg Char.toNat h
    have hlt := c.val.toNat_lt
    obtain ⟨h3, h4⟩ := hc
    have h3' : 65 ≤ c.val.toNat := h3
    have h4' : c.val.toNat ≤ 90 := h4
    have : (c.val + ('a'.val - 'A'.val)).toNat = 10 := h2
    rw [UInt32.toNat_add] at this
    have e : ('a'.val - 'A'.val).toNat = 32 := by decide
    rw [e] at this
    omega
  · exact h

theorem split_at {a b c d : Txt} (h : a ++ b = c ++ d) : (∃ t, c = a ++ t ∧ b = t ++ d) ∨ (∃ t, t ≠ [] ∧ a = c ++ t ∧ d = t ++ b) := by
  rcases List.append_eq_append_iff.1 h with ⟨t, h1, h2⟩ | ⟨t, h1, h2⟩
  · exact .inl ⟨t, h1, h2⟩
  · cases t with
    | nil => left; exact ⟨[], by simpa using h1.symm, by simpa using h2.symm⟩
    | cons x t => exact .inr ⟨x :: t, by simp, h1, h2⟩

theorem first_line : ∀ {y : Txt}, '\n' ∈ y → ∃ l z, y = l ++ '\n' :: z ∧ '\n' ∉ l
  | c :: y, h => by
    by_cases hc : c = '\n'
    · exact ⟨[], y, by rw [hc]; rfl, by simp⟩
    · rw [List.mem_cons] at h
      obtain ⟨l, z, e, hl⟩ := first_line (h.resolve_left (Ne.symm hc))
      refine ⟨c :: l, z, by rw [e]; rfl, ?_⟩
      simp only [List.mem_cons, not_or]
      exact ⟨Ne.symm hc, hl⟩

/-- no match in a line that does not begin with the word -/
theorem line_none {is : List Item} {w l s : Txt} (hw : ∀ c ∈ w, c.toLower ≠ '\n') (hl : '\n' ∉ l) (hb : ¬ Begins w l) :
    matchAt (.star blank false :: (word w ++ is)) (l ++ '\n' :: s) = none := by
  apply star_none'
  intro u v e hu
  by_contra hne
  obtain ⟨r, hr⟩ := Option.ne_none_iff_exists'.1 hne
  obtain ⟨k, v', rfl, hk, -⟩ := word_some hr
  have hbl : Blanks u := by
    intro c hc
    have := hu c hc
    simp only [blank, Bool.or_eq_true, beq_iff_eq] at this
    exact this
  have hkn : '\n' ∉ u ++ k := by
    rw [List.mem_append, not_or]
    refine ⟨blanks_no hbl (by decide), fun hm => ?_⟩
    have : Char.toLower '\n' ∈ k.map Char.toLower := List.mem_map_of_mem hm
    rw [hk] at this
    obtain ⟨c, hc, e⟩ := List.mem_map.1 this
    exact hw c hc (by rw [e]; decide)
  rw [← List.append_assoc] at e
  rcases split_at e with ⟨t, h1, h2⟩ | ⟨t, ht, h1, h2⟩
  · cases t with
    | nil =>
      rw [List.append_nil] at h1
      exact hb ⟨u, k, [], by rw [List.append_nil]; exact h1.symm, hbl, hk⟩
    | cons c t =>
      have : c = '\n' := by simp at h2; exact h2.1.symm
      apply hkn
      rw [h1, this]
      simp
  · exact hb ⟨u, k, t, by rw [h1]; simp, hbl, hk⟩

theorem head_spelled {a w s : Txt} {P : Char → Prop} (h : Spelled a w) (h0 : w ≠ []) (hw : ∀ c ∈ w, P c ∧ P c.toLower) : ∀ c ∈ (a ++ s).head?, P c := by
  have := spelled_all h hw
  cases a with
  | nil => exact absurd rfl (spelled_ne h h0)
  | cons d a => intro c hc; simp only [List.cons_append, List.head?_cons, Option.mem_some_iff] at hc; subst hc; exact this _ List.mem_cons_self

theorem list_match {w b key g key' mid body post : Txt} (hw : ListWord w) (hb : Blanks b) (hk : Spelled key w) (hg : ∀ c ∈ g, c = ' ')
    (hk' : Spelled key' "PARAMETERS".toList) (hm : '(' ∉ mid) (hbody : ')' ∉ body) :
    matchAt (listRe w) (b ++ (key ++ (' ' :: g ++ (key' ++ (mid ++ '(' :: (body ++ ')' :: post)))))) = some [body] := by
  have hw' : w ≠ [] ∧ (∀ c ∈ w, c.toLower.toLower = c.toLower) ∧ ∀ c ∈ w, blank c = false ∧ blank c.toLower = false := by
    unfold ListWord at hw
    simp only [List.mem_cons, List.not_mem_nil, or_false] at hw
    rcases hw with rfl | rfl | rfl | rfl <;> decide
  have tail : matchAt [.star (fun c => !(c == '(')) false, .one (· == '('), .star (fun c => !(c == ')')) true, .one (· == ')')]
      (mid ++ '(' :: (body ++ ')' :: post)) = some [body] := by
    refine (star_max (t := mid) (u := '(' :: (body ++ ')' :: post)) (r := [body]) ?_ ?_ ?_).trans rfl
    · rw [one_cons (by decide)]
      refine (star_max (t := body) (u := ')' :: post) (r := []) ?_ ?_ ?_).trans rfl
      · rw [one_cons (by decide)]; rfl
      · intro c hc; simp only [List.head?_cons, Option.mem_some_iff] at hc; subst hc; decide
      · intro c hc
        have : c ≠ ')' := by rintro rfl; exact hbody hc
        simp [this]
    · intro c hc; simp only [List.head?_cons, Option.mem_some_iff] at hc; subst hc; decide
    · intro c hc
      have : c ≠ '(' := by rintro rfl; exact hm hc
      simp [this]
  unfold listRe
  refine (star_max (t := b) (r := [body]) ?_ ?_ (blanks_iff hb)).trans rfl
  · show matchAt (w.map (fun c => Item.one (letter c)) ++ _) _ = _
    rw [key_match hk hw'.2.1]
    show matchAt (.one (· == ' ') :: .star (· == ' ') false :: _) (' ' :: (g ++ _)) = _
    rw [one_cons (by decide)]
    refine (star_max (t := g) (r := [body]) ?_ ?_ ?_).trans rfl
    · show matchAt ("PARAMETERS".toList.map (fun c => Item.one (letter c)) ++ _) _ = _
      rw [key_match hk' (by decide)]
      exact tail
    · exact head_spelled (P := fun c => (c == ' ') = false) hk' (by decide) (by decide)
    · intro c hc; rw [hg c hc]; decide
  · exact head_spelled (P := fun c => blank c = false) hk hw'.1 hw'.2.2

theorem listed_search {w text body : Txt} (hw : ListWord w) (h : Listed w text body) : searchLines (listRe w) true text = some [body] := by
  obtain ⟨pre, b, key, g, key', mid, post, rfl, hpre, hno, hb, hk, hg, hk', hm, hbody⟩ := h.layout
  have hw' : ∀ c ∈ w, c.toLower ≠ '\n' := by
    unfold ListWord at hw
    simp only [List.mem_cons, List.not_mem_nil, or_false] at hw
    rcases hw with rfl | rfl | rfl | rfl <;> decide
  rw [searchLines_skip _ pre true]
  · have : pre.getLast?.elim true (· == '\n') = true := by
      rcases hpre with rfl | h
      · rfl
      · rw [h]; rfl
    rw [this]
    exact searchLines_now (list_match hw hb hk hg hk' hm hbody)
  · rintro x y rfl hy hx
    have hlast : y.getLast? = some '\n' := by
      rcases hpre with h | h
      · simp [hy] at h
      · rwa [List.getLast?_append_of_ne_nil _ hy] at h
    obtain ⟨l, z, rfl, hl⟩ := first_line (List.mem_of_getLast? hlast)
    rw [List.append_assoc, List.cons_append]
    refine line_none hw' hl (hno x l ('\n' :: z) rfl ?_ hl (.inr rfl))
    rcases hx with ⟨-, h⟩ | h
    · exact .inl h
    · exact .inr h

theorem defValues_eq {w text body : Txt} (hw : ListWord w) (h : Listed w text body) : defValues (listRe w) text = some (strip body) := by
  unfold defValues
  rw [listed_search hw h]

theorem strip_ne {s : Txt} {c : Char} (h : c ∈ s) (hc : c.isWhitespace = false) : strip s ≠ [] := by
  obtain ⟨x, y, e, hx, hy, -⟩ := strip_trimmed s
  intro h0
  rw [e, h0, List.append_nil, List.mem_append] at h
  rcases h with h | h
  · have := hx c h; rw [hc] at this; exact absurd this (by decide)
  · have := hy c h; rw [hc] at this; exact absurd this (by decide)

theorem params_eq {w text : Txt} {ds : List Decl} (hw : ListWord w) (h0 : ds ≠ []) (h : ∀ d ∈ ds, d.Ok ∧ d.dflt.Safe)
    (hl : Listed w text (List.intercalate [','] (ds.map Decl.text))) : params w text = ds.map Decl.param := by
  unfold params
  rw [defValues_eq hw hl]
  simp only
  rw [if_neg, defParams_eq h0 h]
  rw [List.isEmpty_iff]
  match ds, h0 with
  | d :: ds, _ =>
    have hn := (h d List.mem_cons_self).1.name
    obtain ⟨c, hc⟩ := List.exists_mem_of_ne_nil _ hn.1
    apply strip_ne (c := c) _ (hn.2 c hc).1
    cases ds with
    | nil => simp [List.intercalate, Decl.text, hc]
    | cons e ds => rw [List.map_cons, List.map_cons, intercalate_cons₂]; simp [Decl.text, hc]

theorem strip_white {s : Txt} (h : White s) : strip s = [] := trimmed_strip ⟨s, [], by simp, h, by simp, by simp, by simp⟩

theorem params_nil {w text body : Txt} (hw : ListWord w) (hb : White body) (h : Listed w text body) : params w text = [] := by
  unfold params
  rw [defValues_eq hw h, strip_white hb]
  rfl

theorem searchLines_none {is : List Item} : ∀ (s : Txt) (b : Bool),
    (∀ x y, s = x ++ y → ((b = true ∧ x = []) ∨ x.getLast? = some '\n') → matchAt is y = none) → searchLines is b s = none
  | [], b, h => by
    rw [searchLines]
    split
    · next hb => exact h [] [] rfl (.inl ⟨hb, rfl⟩)
    · rfl
  | c :: s, b, h => by
    rw [searchLines, searchLines_none s (c == '\n') ?_]
    · split
      · next hb => rw [h [] (c :: s) rfl (.inl ⟨hb, rfl⟩)]; rfl
      · rfl
    · intro x y e hx
      apply h (c :: x) y (by rw [e]; rfl)
      right
      rcases hx with ⟨hx, rfl⟩ | hx
      · simp only [beq_iff_eq] at hx; rw [hx]; rfl
      · cases x with
        | nil => simp at hx
        | cons d x => rw [List.getLast?_cons_cons]; exact hx

theorem line_none_end {is : List Item} {w l : Txt} (hb : ¬ Begins w l) : matchAt (.star blank false :: (word w ++ is)) l = none := by
  apply star_none'
  intro u v e hu
  by_contra hne
  obtain ⟨r, hr⟩ := Option.ne_none_iff_exists'.1 hne
  obtain ⟨k, v', rfl, hk, -⟩ := word_some hr
  refine hb ⟨u, k, v', e, ?_, hk⟩
  intro c hc
  have := hu c hc
  simp only [blank, Bool.or_eq_true, beq_iff_eq] at this
  exact this

/-- no list without the word -/
theorem params_absent {w text : Txt} (hw : ListWord w) (h : NoLine w text) : params w text = [] := by
  have hw' : ∀ c ∈ w, c.toLower ≠ '\n' := by
    unfold ListWord at hw
    simp only [List.mem_cons, List.not_mem_nil, or_false] at hw
    rcases hw with rfl | rfl | rfl | rfl <;> decide
  unfold params defValues
  rw [searchLines_none text true]
  rintro x y rfl hx
  have hx' : x = [] ∨ x.getLast? = some '\n' := by
    rcases hx with ⟨-, h⟩ | h
    · exact .inl h
    · exact .inr h
  by_cases hn : '\n' ∈ y
  · obtain ⟨l, z, rfl, hl⟩ := first_line hn
    exact line_none hw' hl (h x l ('\n' :: z) rfl hx' hl (.inr rfl))
  · exact line_none_end (h x y [] (by simp) hx' hn (.inl rfl))

theorem declares_eq {w text : Txt} {ds : List Decl} (hw : ListWord w) (h : Declares w text ds) (hs : ∀ d ∈ ds, d.dflt.Safe) :
    params w text = ds.map Decl.param := by
  cases h with
  | absent h => exact params_absent hw h
  | empty hb h => exact params_nil hw hb h
  | some h0 h1 h2 => exact params_eq hw h0 (fun d hd => ⟨h1 d hd, hs d hd⟩) h2

theorem names_eq {w text : Txt} {ns : List (Txt × Txt × Txt)} (hw : ListWord w) (h0 : ns ≠ [])
    (h : ∀ n ∈ ns, White n.1 ∧ Name n.2.1 ∧ White n.2.2)
    (hl : Listed w text (List.intercalate [','] (ns.map fun n => n.1 ++ (n.2.1 ++ n.2.2)))) : names w text = ns.map fun n => n.2.1 := by
  have no : ∀ c, c = ',' ∨ c = '(' ∨ c = ')' → ∀ a ∈ ns.map fun n => n.1 ++ (n.2.1 ++ n.2.2), c ∉ a := by
    intro c hc a ha
    obtain ⟨n, hn, rfl⟩ := List.mem_map.1 ha
    have hw : c.isWhitespace = false := by rcases hc with rfl | rfl | rfl <;> decide
    obtain ⟨h1, h2, h3⟩ := h n hn
    simp only [List.mem_append, not_or]
    exact ⟨white_no' h1 hw, name_no h2 (by tauto), white_no' h3 hw⟩
  unfold names
  rw [defValues_eq hw hl]
  simp only
  generalize hB : List.intercalate [','] (ns.map fun n => n.1 ++ (n.2.1 ++ n.2.2)) = B
  have hB1 : '(' ∉ B ∧ ')' ∉ B := by
    rw [← hB]; exact ⟨inter_no (by decide) (no _ (by simp)), inter_no (by decide) (no _ (by simp))⟩
  have hB2 : splitAll ',' B = ns.map fun n => n.1 ++ (n.2.1 ++ n.2.2) := by
    rw [← hB]; exact splitAll_all (by simpa using h0) (no _ (by simp))
  have hS : stripSet (fun c => c == ' ' || c == '(' || c == ')') (strip B) = strip B := by
    obtain ⟨x, y, e, hx, hy, h1, h2⟩ := strip_trimmed B
    have key : ∀ c, c ∈ strip B → ¬ c.isWhitespace = true → (c == ' ' || c == '(' || c == ')') = false := by
      intro c hc hw
      have hm : c ∈ B := strip_mem hc
      have e1 : c ≠ ' ' := by rintro rfl; exact hw (by decide)
      have e3 : c ≠ '(' := by rintro rfl; exact hB1.1 hm
      have e4 : c ≠ ')' := by rintro rfl; exact hB1.2 hm
      simp [e1, e3, e4]
    exact stripSet_id (fun c hc => key c (List.mem_of_mem_head? hc) (h1 c hc)) (fun c hc => key c (List.mem_of_mem_getLast? hc) (h2 c hc))
  rw [if_neg, hS, split_strip (by decide), hB2, List.map_map]
  · apply List.map_congr_left
    intro n hn
    obtain ⟨h1, h2, h3⟩ := h n hn
    exact name_trim h2 h1 h3
  · rw [List.isEmpty_iff]
    rcases ns with _ | ⟨n, ns⟩
    · exact absurd rfl h0
    · have hn := (h n List.mem_cons_self).2.1
      obtain ⟨c, hc⟩ := List.exists_mem_of_ne_nil _ hn.1
      apply strip_ne (c := c) _ (hn.2 c hc).1
      rw [← hB]
      cases ns with
      | nil => simp [List.intercalate, hc]
      | cons e ns => rw [List.map_cons, List.map_cons, intercalate_cons₂]; simp [hc]

/-! ### the name -/

theorem comp_match {b key g key' rest post : Txt} (hb : Blanks b) (hk : Spelled key "DEFINE".toList) (hg : ∀ c ∈ g, c = ' ')
    (hk' : Spelled key' "COMPONENT".toList) (hr : '\n' ∉ rest) :
    matchAt compRe (b ++ (key ++ (' ' :: g ++ (key' ++ (rest ++ '\n' :: post))))) = some [rest] := by
  unfold compRe
  refine (star_max (t := b) (r := [rest]) ?_ ?_ (blanks_iff hb)).trans rfl
  · show matchAt ("DEFINE".toList.map (fun c => Item.one (letter c)) ++ _) _ = _
    rw [key_match hk (by decide)]
    show matchAt (.one (· == ' ') :: .star (· == ' ') false :: _) (' ' :: (g ++ _)) = _
    rw [one_cons (by decide)]
    refine (star_max (t := g) (r := [rest]) ?_ ?_ ?_).trans rfl
    · show matchAt ("COMPONENT".toList.map (fun c => Item.one (letter c)) ++ _) _ = _
      rw [key_match hk' (by decide)]
      refine (star_max (t := rest) (u := '\n' :: post) (r := []) ?_ ?_ ?_).trans rfl
      · rw [one_cons (by decide)]; rfl
      · intro c hc; simp only [List.head?_cons, Option.mem_some_iff] at hc; subst hc; decide
      · intro c hc
        have : c ≠ '\n' := by rintro rfl; exact hr hc
        simp [this]
    · exact head_spelled (P := fun c => (c == ' ') = false) hk' (by decide) (by decide)
    · intro c hc; rw [hg c hc]; decide
  · exact head_spelled (P := fun c => blank c = false) hk (by decide) (by decide)

theorem compName_eq {text name : Txt} (h : Defined text name) : compName text = name := by
  obtain ⟨pre, b, key, g, key', x, y, post, rfl, hpre, hno, hb, hk, hg, hk', hx, hy, hn⟩ := h.layout
  have e : x ++ (name ++ (y ++ '\n' :: post)) = (x ++ (name ++ y)) ++ '\n' :: post := by simp
  have hr : '\n' ∉ x ++ (name ++ y) := by
    simp only [List.mem_append, not_or]
    exact ⟨blanks_no hx (by decide), fun hm => absurd (hn.2 _ hm).1 (by decide), blanks_no hy (by decide)⟩
  unfold compName defValues
  rw [e, searchLines_skip _ pre true]
  · have : pre.getLast?.elim true (· == '\n') = true := by
      rcases hpre with rfl | h
      · rfl
      · rw [h]; rfl
    rw [this, searchLines_now (comp_match hb hk hg hk' hr)]
    exact name_trim hn (blanks_white hx) (blanks_white hy)
  · rintro x y rfl hy hx
    have hlast : y.getLast? = some '\n' := by
      rcases hpre with h | h
      · simp [hy] at h
      · rwa [List.getLast?_append_of_ne_nil _ hy] at h
    obtain ⟨l, z, rfl, hl⟩ := first_line (List.mem_of_getLast? hlast)
    rw [List.append_assoc, List.cons_append]
    refine line_none (by decide) hl (hno x l ('\n' :: z) rfl ?_ hl (.inr rfl))
    rcases hx with ⟨-, h⟩ | h
    · exact .inl h
    · exact .inr h

/-! ### parameters of components -/

section
variable {F : Type} [Zero F] (float : Txt → Option F) (int : Txt → Option ℤ)

theorem new_num {n t v d : Txt} (ht : t = [] ∨ t = "double".toList ∨ t = "float".toList) : ∃ u,
    Parameter.new float int n t v d = .ok ⟨n, u, (float v).elim (.int 0) .num, d⟩ ∧ (u = "double".toList ∨ u = "float".toList) := by
  rcases ht with rfl | rfl | rfl
  · exact ⟨"double".toList, rfl, .inl rfl⟩
  · exact ⟨"double".toList, rfl, .inl rfl⟩
  · exact ⟨"float".toList, rfl, .inr rfl⟩

theorem new_int {n v d : Txt} : Parameter.new float int n "int".toList v d = .ok ⟨n, "int".toList, .int ((int v).getD 0), d⟩ := rfl

theorem new_str {n t v d : Txt} (ht : t = "string".toList ∨ t = "char *".toList) :
    Parameter.new float int n t v d = .ok ⟨n, "char *".toList, .str (if v = ['0'] then [] else v), d⟩ := by
  rcases ht with rfl | rfl <;> rfl

theorem new_ok {n t v d : Txt} : (∃ p, Parameter.new float int n t v d = .ok p ∧ p.name = n ∧ p.description = d) ↔ Known t := by
  constructor
  · rintro ⟨p, hp, -⟩
    by_contra hk
    simp only [Known, List.mem_cons, List.not_mem_nil, or_false, not_or] at hk
    obtain ⟨k1, k2, k3, k4, k5, k6⟩ := hk
    have ht : typeOf t = t := by
      unfold typeOf
      simp only
      rw [if_neg k5, if_neg]
      intro h; exact k1 (by rw [h]; rfl)
    unfold Parameter.new at hp
    simp only [ht] at hp
    rw [if_neg (by tauto), if_neg k4, if_neg k6] at hp
    exact absurd hp (by simp)
  · intro hk
    simp only [Known, List.mem_cons, List.not_mem_nil, or_false] at hk
    rcases hk with rfl | rfl | rfl | rfl | rfl | rfl
    all_goals exact ⟨_, rfl, rfl, rfl⟩

theorem new_known {n t v d : Txt} (h : Known t) : ∃ p, Parameter.new float int n t v d = .ok p ∧ p.name = n ∧ p.description = d :=
  (new_ok float int).2 h

theorem new_unknown {n t v d : Txt} (h : ¬ Known t) : Parameter.new float int n t v d = .error .keyError := by
  simp only [Known, List.mem_cons, List.not_mem_nil, or_false, not_or] at h
  obtain ⟨k1, k2, k3, k4, k5, k6⟩ := h
  have ht : typeOf t = t := by
    unfold typeOf
    simp only
    rw [if_neg k5, if_neg]
    intro h; exact k1 (by rw [h]; rfl)
  unfold Parameter.new
  simp only [ht]
  rw [if_neg (by tauto), if_neg k4, if_neg k6]

theorem new_gives (descr : Txt → Option Txt) {d : Decl} (h : Known d.kind.type) : ∃ q : Parameter F,
    Parameter.new float int d.param.name d.param.type d.param.value ((descr d.param.name).getD []) = .ok q ∧ Gives float int descr d q := by
  have h' := h
  simp only [Known, List.mem_cons, List.not_mem_nil, or_false] at h'
  have hd : ∀ s, descr d.name = some s → (descr d.name).getD [] = s := by intro s hs; rw [hs]; rfl
  have num : d.kind.type = [] ∨ d.kind.type = "double".toList ∨ d.kind.type = "float".toList → ∃ q : Parameter F,
      Parameter.new float int d.param.name d.param.type d.param.value ((descr d.param.name).getD []) = .ok q ∧ Gives float int descr d q := by
    intro ht
    obtain ⟨u, e, -⟩ := new_num float int (n := d.param.name) (v := d.param.value) (d := (descr d.param.name).getD []) (t := d.param.type) ht
    refine ⟨_, e, rfl, hd, ?_, ?_, ?_⟩
    · intro _ x hx
      show (float d.dflt.value).elim (Default.int 0) Default.num = _
      rw [hx]; rfl
    · intro hi; rw [hi] at ht; exact absurd ht (by decide)
    · intro hi
      exfalso
      rcases ht with ht | ht | ht <;> rw [ht] at hi <;> revert hi <;> decide
  rcases h' with h' | h' | h' | h' | h' | h'
  · exact num (.inl h')
  · exact num (.inr (.inl h'))
  · exact num (.inr (.inr h'))
  · have e := new_int float int (n := d.param.name) (v := d.param.value) (d := (descr d.param.name).getD [])
    rw [← h'] at e
    refine ⟨_, e, rfl, hd, ?_, ?_, ?_⟩
    · intro hi; rw [h'] at hi; exact absurd hi (by decide)
    · intro _ x hx
      show Default.int ((int d.dflt.value).getD 0) = _
      rw [hx]; rfl
    · intro hi; rw [h'] at hi; exact absurd hi (by decide)
  all_goals
    have e := new_str float int (n := d.param.name) (v := d.param.value) (d := (descr d.param.name).getD []) (t := d.param.type) (by
      show d.kind.type = _ ∨ d.kind.type = _; rw [h']; decide)
    refine ⟨_, e, rfl, hd, ?_, ?_, ?_⟩
    · intro hi; rw [h'] at hi; exact absurd hi (by decide)
    · intro hi; rw [h'] at hi; exact absurd hi (by decide)
    · intro _ h0
      show Default.str (if d.dflt.value = ['0'] then [] else d.dflt.value) = _
      exact congrArg Default.str (if_neg h0)

theorem add_eq (descr : Txt → Option Txt) : ∀ ds : List Decl, (∀ d ∈ ds, Known d.kind.type) → ∃ qs,
    addDescription float int descr (ds.map Decl.param) = .ok qs ∧ List.Forall₂ (Gives float int descr) ds qs
  | [], _ => ⟨[], rfl, .nil⟩
  | d :: ds, h => by
    obtain ⟨q, hq, hg⟩ := new_gives float int descr (h d List.mem_cons_self)
    obtain ⟨qs, hqs, h2⟩ := add_eq descr ds fun p hp => h p (List.mem_cons_of_mem _ hp)
    refine ⟨q :: qs, ?_, .cons hg h2⟩
    rw [List.map_cons, addDescription, hq, hqs]
    rfl

theorem inputs_eq (descr : Txt → Option Txt) {text name : Txt} {ds ss : List Decl} (hn : Defined text name)
    (hd : Declares "DEFINITION".toList text ds) (hs : Declares "SETTING".toList text ss) (h : ∀ d ∈ ds ++ ss, d.dflt.Safe ∧ Known d.kind.type) :
    ∃ n qs, inputs float int descr name text = .ok (n :: qs) ∧ n.name = "name".toList ∧
      (name ≠ "0".toList → n.default = .str (name.map Char.toLower)) ∧ List.Forall₂ (Gives float int descr) (ds ++ ss) qs := by
  have h1 : params "DEFINITION".toList text = ds.map Decl.param :=
    declares_eq (by simp [ListWord]) hd fun d hd => (h d (List.mem_append_left _ hd)).1
  have h2 : params "SETTING".toList text = ss.map Decl.param :=
    declares_eq (by simp [ListWord]) hs fun d hd => (h d (List.mem_append_right _ hd)).1
  obtain ⟨qs, e1, f1⟩ := add_eq float int descr ds fun d hd => (h d (List.mem_append_left _ hd)).2
  obtain ⟨qs', e2, f2⟩ := add_eq float int descr ss fun d hd => (h d (List.mem_append_right _ hd)).2
  have e3 := new_str float int (n := "name".toList) (v := name.map Char.toLower) (d := "component name".toList) (t := "char *".toList) (.inr rfl)
  refine ⟨⟨"name".toList, "char *".toList, .str (if name.map Char.toLower = ['0'] then [] else name.map Char.toLower), "component name".toList⟩,
    qs ++ qs', ?_, rfl, ?_, List.rel_append f1 f2⟩
  · unfold inputs
    simp only [compName_eq hn]
    rw [if_neg (by simp), h1, h2, e1, e2, e3]
    rfl
  · intro h0
    show Default.str (if name.map Char.toLower = ['0'] then [] else name.map Char.toLower) = _
    rw [if_neg]
    intro he
    apply h0
    have hl : name.length = 1 := by have := congrArg List.length he; simpa using this
    obtain ⟨c, rfl⟩ := List.length_eq_one_iff.1 hl
    · have : c.toLower = '0' := by simpa using he
      unfold Char.toLower at this
      split at this
      · next hc =>
        exfalso
        have h2 := congrArg Char.toNat this
        obtain ⟨h3, h4⟩ := hc
        have h3' : 65 ≤ c.val.toNat := h3
        have h4' : c.val.toNat ≤ 90 := h4
        have : (c.val + ('a'.val - 'A'.val)).toNat = 48 := h2
        rw [UInt32.toNat_add] at this
        have e : ('a'.val - 'A'.val).toNat = 32 := by decide
        rw [e] at this
        omega
      · rw [this]; rfl

end

/-! ### the sections -/

theorem sectionAt_some {w s r : Txt} (h : sectionAt w s = some r) :
    ∃ k g y, s = k ++ (g ++ '%' :: '{' :: y) ∧ k.map Char.toLower = w.map Char.toLower ∧ ∀ c ∈ g, c = ' ' ∨ c = '\n' ∨ c = '\t' := by
  unfold sectionAt at h
  rcases hm : matchAt (word w ++ [.star space false, .one (· == '%'), .one (· == '{'), .star (fun _ => true) true]) s with _ | l
  · rw [hm] at h; exact absurd h (by simp)
  · obtain ⟨k, v, rfl, hk, hv⟩ := word_some hm
    by_contra hno
    rw [star_none'] at hv
    · exact absurd hv (by simp)
    · intro u v' e hu
      by_contra hne
      obtain ⟨r', hr⟩ := Option.ne_none_iff_exists'.1 hne
      match v', hr with
      | [], hr => exact absurd hr (by simp [matchAt])
      | [a], hr =>
        by_cases ha : (a == '%') = true
        · rw [matchAt, if_pos ha] at hr; exact absurd hr (by simp [matchAt])
        · rw [matchAt, if_neg ha] at hr; exact absurd hr (by simp)
      | a :: b :: v', hr =>
        by_cases ha : (a == '%') = true
        · rw [matchAt, if_pos ha] at hr
          by_cases hb : (b == '{') = true
          · rw [beq_iff_eq] at ha hb
            subst ha; subst hb
            refine hno ⟨k, u, v', by rw [e], hk, fun c hc => ?_⟩
            have := hu c hc
            simp only [space, Bool.or_eq_true, beq_iff_eq] at this
            tauto
          · rw [matchAt, if_neg hb] at hr; exact absurd hr (by simp)
        · rw [matchAt, if_neg ha] at hr; exact absurd hr (by simp)

theorem sectionAt_eq {w key g body post : Txt} (hw : SectionWord w) (hk : Spelled key w) (hg : ∀ c ∈ g, c = ' ' ∨ c = '\n' ∨ c = '\t')
    (hb : ¬ ['%', '}'] <:+: body) : sectionAt w (key ++ (g ++ '%' :: '{' :: (body ++ '%' :: '}' :: post))) = some body := by
  have hw' : ∀ c ∈ w, c.toLower.toLower = c.toLower := by
    unfold SectionWord at hw
    simp only [List.mem_cons, List.not_mem_nil, or_false] at hw
    rcases hw with rfl | rfl | rfl | rfl | rfl | rfl | rfl <;> decide
  have hm : matchAt (word w ++ [.star space false, .one (· == '%'), .one (· == '{'), .star (fun _ => true) true])
      (key ++ (g ++ '%' :: '{' :: (body ++ '%' :: '}' :: post))) = some [body ++ '%' :: '}' :: post] := by
    show matchAt (w.map (fun c => Item.one (letter c)) ++ _) _ = _
    rw [key_match hk hw']
    refine (star_max (t := g) (r := [body ++ '%' :: '}' :: post]) ?_ ?_ ?_).trans rfl
    · rw [one_cons (by decide), one_cons (by decide)]
      have := star_max (p := fun _ => true) (cap := true) (is := []) (t := body ++ '%' :: '}' :: post) (u := []) (r := []) rfl (by simp) (by simp)
      rw [List.append_nil] at this
      exact this
    · intro c hc; simp only [List.head?_cons, Option.mem_some_iff] at hc; subst hc; decide
    · intro c hc
      rcases hg c hc with rfl | rfl | rfl <;> decide
  unfold sectionAt
  rw [hm]
  simp only
  have : body ++ '%' :: '}' :: post = body ++ ['%', '}'] ++ post := by simp
  rw [this, cut_eq]
  · rfl
  · intro x y e hy
    have := two_no (p := '%') (q := '}') (by decide) (r := '}' :: post) hb x y e hy
    simpa using this

theorem section_skip {w : Txt} (s : Txt) : ∀ pre : Txt, (∀ x y, pre = x ++ y → y ≠ [] → sectionAt w (y ++ s) = none) →
    section' w (pre ++ s) = section' w s
  | [], _ => rfl
  | c :: pre, h => by
    have h1 : sectionAt w (c :: (pre ++ s)) = none := h [] (c :: pre) rfl (by simp)
    rw [List.cons_append, section', h1]
    exact section_skip s pre fun x y e hy => h (c :: x) y (by rw [e]; rfl) hy

theorem section_eq {w text body : Txt} (hw : SectionWord w) (h : Sectioned w text body) : section' w text = body := by
  obtain ⟨pre, key, g, post, rfl, hpre, hno, hk, hg, hb⟩ := h.layout
  have hw' : w ≠ [] ∧ (∀ c ∈ w, (space c = false ∧ c ≠ '%' ∧ c ≠ '{') ∧ (space c.toLower = false ∧ c.toLower ≠ '%' ∧ c.toLower ≠ '{')) ∧
      ∀ c ∈ w, c.toLower ≠ '\n' := by
    unfold SectionWord at hw
    simp only [List.mem_cons, List.not_mem_nil, or_false] at hw
    rcases hw with rfl | rfl | rfl | rfl | rfl | rfl | rfl <;> decide
  rw [section_skip]
  · have h1 := sectionAt_eq (post := post) hw hk hg hb
    cases hs : key ++ (g ++ '%' :: '{' :: (body ++ '%' :: '}' :: post)) with
    | nil => simp at hs
    | cons c s => rw [← hs, hs, section', ← hs, h1]; rfl
  · rintro x y rfl hy
    by_contra hne
    obtain ⟨r, hr⟩ := Option.ne_none_iff_exists'.1 hne
    obtain ⟨k, g', z, e, hk', hg'⟩ := sectionAt_some hr
    have hlast : y.getLast? = some '\n' := by
      rcases hpre with h | h
      · simp [hy] at h
      · rwa [List.getLast?_append_of_ne_nil _ hy] at h
    have hkn : '\n' ∉ k := by
      intro hm
      have : Char.toLower '\n' ∈ k.map Char.toLower := List.mem_map_of_mem hm
      rw [hk'] at this
      obtain ⟨c, hc, e⟩ := List.mem_map.1 this
      exact hw'.2.2 c hc (by rw [e]; decide)
    obtain ⟨y', rfl⟩ : ∃ y', y = y' ++ ['\n'] := by
      refine ⟨y.dropLast, ?_⟩
      rw [List.getLast?_eq_some_getLast hy, Option.some.injEq] at hlast
      rw [← hlast, List.dropLast_append_getLast]
    have hd := head_spelled (P := fun c => space c = false ∧ c ≠ '%' ∧ c ≠ '{') (s := g ++ '%' :: '{' :: (body ++ '%' :: '}' :: post)) hk hw'.1 hw'.2.1
    generalize hq : key ++ (g ++ '%' :: '{' :: (body ++ '%' :: '}' :: post)) = q at e hd
    have hq0 : q ≠ [] := by rw [← hq]; simp
    have e' : (k ++ (g' ++ ['%', '{'])) ++ z = (y' ++ ['\n']) ++ q := by rw [e]; simp
    rcases split_at e' with ⟨t, h1, h2⟩ | ⟨t, ht, h1, h2⟩
    · exact hno ⟨x, k, g', t, by rw [h1]; simp, hk', hg'⟩
    · -- the head of the section reaches behind `pre`
      obtain ⟨a, t', rfl⟩ := List.exists_cons_of_ne_nil ht
      have ha : space a = false ∧ a ≠ '%' ∧ a ≠ '{' := hd a (by rw [h2]; rfl)
      have e2 : k ++ (g' ++ ['%', '{']) = y' ++ ('\n' :: a :: t') := by rw [h1]; simp
      rcases split_at e2 with ⟨u, h3, h4⟩ | ⟨u, hu, h3, h4⟩
      · -- the newline is after `k`
        rcases split_at h4 with ⟨u', h5, h6⟩ | ⟨u', hu', h5, h6⟩
        · have : '\n' ∈ (['%', '{'] : Txt) := by rw [h6]; simp
          exact absurd this (by decide)
        · obtain ⟨n, u'', rfl⟩ := List.exists_cons_of_ne_nil hu'
          rw [List.cons_append, List.cons.injEq] at h6
          cases u'' with
          | nil =>
            have : a = '%' := by have := h6.2; simp at this; exact this.1
            exact ha.2.1 this
          | cons m u'' =>
            have h7 := h6.2
            rw [List.cons_append, List.cons.injEq] at h7
            have : a ∈ g' := by rw [h5, h7.1]; simp
            rcases hg' a this with rfl | rfl | rfl <;> exact absurd ha.1 (by decide)
      · obtain ⟨n, u', rfl⟩ := List.exists_cons_of_ne_nil hu
        rw [List.cons_append, List.cons.injEq] at h4
        apply hkn
        rw [h3, ← h4.1]
        simp

/-! ### the section `SHARE` -/

theorem sig_head : ∀ t : Txt, (signature ++ t).head? = some '/' := fun _ => rfl

theorem sig_last : signature.getLast? = some '-' := by decide +kernel

theorem sig_iff (l : Txt) : Separator l ↔ strip l = signature := by
  constructor
  · rintro ⟨a, b, ha, hb, e⟩
    have e' : l = a ++ signature ++ b := by rw [e, List.append_assoc]; rfl
    refine trimmed_strip ⟨a, b, e', ha, hb, fun c hc => ?_, fun c hc => ?_⟩
    · have := sig_head []
      rw [List.append_nil] at this
      rw [this, Option.mem_some_iff] at hc; subst hc; decide
    · rw [sig_last, Option.mem_some_iff] at hc; subst hc; decide
  · intro hs
    obtain ⟨x, y, e, hx, hy, -⟩ := strip_trimmed l
    refine ⟨x, y, hx, hy, ?_⟩
    rw [hs, List.append_assoc] at e
    exact e

theorem shareLine_eq {l k : Txt} (h : Shared l k) : shareLine l = .ok (k, strip k) ∧ (Separator l ↔ strip k = signature) := by
  cases h with
  | @incl x y z h hx hy hz hh hn =>
    have ht : strip (x ++ ("%include".toList ++ (y ++ '"' :: (h ++ '"' :: z)))) = "%include".toList ++ (y ++ '"' :: (h ++ ['"'])) := by
      apply trimmed_strip
      refine ⟨x, z, by simp, hx, hz, fun c hc => ?_, fun c hc => ?_⟩
      · have : c = '%' := by simpa using hc.symm
        subst this; decide
      · have : "%include".toList ++ (y ++ '"' :: (h ++ ['"'])) = ("%include".toList ++ (y ++ '"' :: h)) ++ ['"'] := by simp
        rw [this, List.getLast?_concat, Option.mem_some_iff] at hc
        subst hc; decide
    have hi : included ("%include".toList ++ (y ++ '"' :: (h ++ ['"']))) = .ok h := by
      unfold included
      rw [List.drop_left, lstrip_append hy, lstrip_cons (by decide)]
      simp only
      rw [if_pos (by decide), cut_char [] hh]
      rfl
    have hs : strip ("#include \"mcstas2/share/".toList ++ h ++ ".h\"".toList) = "#include \"mcstas2/share/".toList ++ h ++ ".h\"".toList := by
      apply trimmed_strip
      refine ⟨[], [], by simp, by simp, by simp, fun c hc => ?_, fun c hc => ?_⟩
      · have : c = '#' := by simpa using hc.symm
        subst this; decide
      · rw [List.getLast?_append_of_ne_nil _ (by decide)] at hc
        have : c = '"' := by simpa using hc.symm
        subst this; decide
    constructor
    · unfold shareLine
      rw [ht, if_pos (by rw [List.isPrefixOf_iff_prefix]; exact List.prefix_append _ _), hi]
      simp only [bind, Except.bind]
      rw [hs]
    · rw [hs, sig_iff, ht]
      have sh := sig_head []
      rw [List.append_nil] at sh
      constructor
      · intro e
        have := congrArg List.head? e
        rw [sh] at this
        exact absurd this (by simp)
      · intro e
        have := congrArg List.head? e
        rw [sh] at this
        exact absurd this (by simp)
  | @other l h =>
    have hp : ¬ "%include".toList.isPrefixOf (strip l) = true := by
      rw [List.isPrefixOf_iff_prefix]
      rintro ⟨t, ht⟩
      obtain ⟨x, y, e, hx, hy, -⟩ := strip_trimmed l
      exact h x (t ++ y) hx (by rw [e, ← ht]; simp)
    constructor
    · unfold shareLine
      rw [if_neg hp]
    · exact sig_iff l

theorem shareLoop_none : ∀ (i : Nat) {ls ks : List Txt}, List.Forall₂ Shared ls ks → (∀ l ∈ ls, ¬ Separator l) → shareLoop i ls = .ok (ks, none)
  | i, _, _, .nil, _ => rfl
  | i, _, _, .cons (a := l) (b := k) (l₁ := ls) (l₂ := ks) h hs, hn => by
    obtain ⟨h1, h2⟩ := shareLine_eq h
    have h3 : strip k ≠ signature := fun e => hn l List.mem_cons_self (h2.2 e)
    rw [shareLoop, h1, shareLoop_none (i + 1) hs fun l hl => hn l (List.mem_cons_of_mem _ hl)]
    simp only [bind, Except.bind, if_neg h3]
    rfl

theorem shareLoop_some {l k : Txt} {ls ks : List Txt} (hl : Shared l k) (hsep : Separator l) (hs : List.Forall₂ Shared ls ks) (hn : ∀ l ∈ ls, ¬ Separator l) :
    ∀ (i : Nat) {as bs : List Txt}, List.Forall₂ Shared as bs → shareLoop i (as ++ l :: ls) = .ok (bs ++ k :: ks, some (i + as.length))
  | i, _, _, .nil => by
    obtain ⟨h1, h2⟩ := shareLine_eq hl
    rw [List.nil_append, shareLoop, h1, shareLoop_none (i + 1) hs hn]
    simp only [bind, Except.bind, if_pos (h2.1 hsep)]
    rfl
  | i, _, _, .cons (a := a) (b := b) (l₁ := as) (l₂ := bs) h has => by
    obtain ⟨h1, -⟩ := shareLine_eq h
    rw [List.cons_append, shareLoop, h1, shareLoop_some hl hsep hs hn (i + 1) has]
    simp only [bind, Except.bind, Option.some_or, List.length_cons, List.cons_append]
    congr 3
    omega

theorem share_eq {l k : Txt} {ls ks as bs : List Txt} (hl : Shared l k) (hsep : Separator l) (hs : List.Forall₂ Shared ls ks) (hn : ∀ l ∈ ls, ¬ Separator l)
    (has : List.Forall₂ Shared as bs) (hnl : ∀ x ∈ as ++ l :: ls, '\n' ∉ x) (h2 : as ≠ [] ∨ ls ≠ []) :
    formatShare (List.intercalate ['\n'] (as ++ l :: ls)) = .ok (List.intercalate ['\n'] bs, List.intercalate ['\n'] (k :: ks)) := by
  unfold formatShare
  rw [splitAll_all (by simp) hnl]
  simp only
  rw [if_neg, shareLoop_some hl hsep hs hn 0 has]
  · simp only [bind, Except.bind, Nat.zero_add]
    rw [has.length_eq, List.take_left, List.drop_left]
  · simp only [List.length_append, List.length_cons]
    rcases h2 with h | h
    · have := List.length_pos_of_ne_nil h; omega
    · have := List.length_pos_of_ne_nil h; omega

theorem share_error {ls ks : List Txt} (hs : List.Forall₂ Shared ls ks) (hn : ∀ l ∈ ls, ¬ Separator l) (hnl : ∀ x ∈ ls, '\n' ∉ x) (h2 : 2 ≤ ls.length) :
    formatShare (List.intercalate ['\n'] ls) = .error .runtimeError := by
  unfold formatShare
  rw [splitAll_all (by intro h; rw [h] at h2; simp at h2) hnl]
  simp only
  rw [if_neg (by omega), shareLoop_none 0 hs hn]
  rfl

/-! ### files that are written as expected -/

theorem noLine_nil (w : Txt) (h : w ≠ []) : NoLine w [] := by
  rintro x y z e - - - ⟨b, k, r, e', -, hk⟩
  have hy : y = [] := by
    have := congrArg List.length e
    simp only [List.length_nil, List.length_append] at this
    exact List.length_eq_zero_iff.1 (by omega)
  rw [hy] at e'
  have hk0 : k = [] := by
    have := congrArg List.length e'
    simp only [List.length_nil, List.length_append] at this
    exact List.length_eq_zero_iff.1 (by omega)
  rw [hk0] at hk
  have := congrArg List.length hk
  simp only [List.map_nil, List.length_nil, List.length_map] at this
  exact h (List.length_eq_zero_iff.1 this.symm)

theorem spelled_self (w : Txt) : Spelled w w := by
  unfold Spelled
  rw [List.forall₂_same]
  exact fun _ _ => .inl rfl

/-- a list at the beginning of a text -/
theorem listed_first {w body post : Txt} (h : w ≠ []) (hb : ')' ∉ body) :
    Listed w (w ++ (' ' :: [] ++ ("PARAMETERS".toList ++ (" ".toList ++ '(' :: (body ++ ')' :: post))))) body :=
  ⟨⟨[], [], w, [], "PARAMETERS".toList, " ".toList, post, by simp, .inl rfl, noLine_nil w h, by simp [Blanks], spelled_self w, by simp,
    spelled_self _, by decide, hb⟩⟩

theorem begins_head {w : Txt} {l : Txt} {c d : Char} (hc : blank c = false) (h : Begins (d :: w) (c :: l)) : c.toLower = d.toLower := by
  obtain ⟨b, k, r, e, hb, hk⟩ := h
  cases b with
  | nil =>
    cases k with
    | nil => simp at hk
    | cons a k =>
      simp only [List.nil_append, List.cons_append, List.cons.injEq] at e
      simp only [List.map_cons, List.cons.injEq] at hk
      rw [e.1, hk.1]
  | cons a b =>
    simp only [List.cons_append, List.cons.injEq] at e
    have := blanks_iff hb a List.mem_cons_self
    rw [← e.1, hc] at this
    exact absurd this (by decide)

theorem not_begins_nil {w : Txt} (h : w ≠ []) : ¬ Begins w [] := by
  rintro ⟨b, k, r, e, -, hk⟩
  have hk0 : k = [] := by
    have := congrArg List.length e
    simp only [List.length_nil, List.length_append] at this
    exact List.length_eq_zero_iff.1 (by omega)
  rw [hk0] at hk
  have := congrArg List.length hk
  simp only [List.map_nil, List.length_nil, List.length_map] at this
  exact h (List.length_eq_zero_iff.1 this.symm)

theorem noLine_one {w l : Txt} (h : w ≠ []) (hl : '\n' ∉ l) (hb : ¬ Begins w l) : NoLine w (l ++ ['\n']) := by
  intro x y z e hx hy hz
  rcases hx with rfl | hx
  · rw [List.nil_append] at e
    rcases split_at e with ⟨t, h1, h2⟩ | ⟨t, ht, h1, h2⟩
    · cases t with
      | nil => rw [List.append_nil] at h1; rw [h1]; exact hb
      | cons c t =>
        exfalso
        have : c = '\n' := by simp at h2; exact h2.1.symm
        apply hy; rw [h1, this]; simp
    · exfalso
      obtain ⟨c, t', rfl⟩ := List.exists_cons_of_ne_nil ht
      rcases hz with hz | hz
      · rw [hz] at h2; simp at h2
      · rw [h2] at hz
        have : c = '\n' := by simpa using hz
        apply hl; rw [h1, this]; simp
  · have hxl : x = l ++ ['\n'] ∧ y ++ z = [] := by
      have hm : '\n' ∈ x := List.mem_of_getLast? hx
      rcases split_at e with ⟨t, h1, h2⟩ | ⟨t, ht, h1, h2⟩
      · cases t with
        | nil => rw [List.append_nil] at h1; rw [h1] at hm; exact absurd hm hl
        | cons c t =>
          have h3 := congrArg List.length h2
          simp only [List.length_cons, List.length_nil, List.length_append] at h3
          have ht : t = [] := List.length_eq_zero_iff.1 (by omega)
          have hyz : y ++ z = [] := List.length_eq_zero_iff.1 (by rw [List.length_append]; omega)
          refine ⟨?_, hyz⟩
          have : c = '\n' := by simp at h2; exact h2.1.symm
          rw [h1, ht, this]
      · exact absurd (by rw [h1]; exact List.mem_append_left _ hm) hl
    rw [List.append_eq_nil_iff] at hxl
    rw [hxl.2.1]
    exact not_begins_nil h

theorem noLine_append {w a b : Txt} (ha : NoLine w (a ++ ['\n'])) (hb : NoLine w b) : NoLine w (a ++ '\n' :: b) := by
  intro x y z e hx hy hz
  have e' : (a ++ ['\n']) ++ b = x ++ (y ++ z) := by rw [← e]; simp
  rcases split_at e' with ⟨t, h1, h2⟩ | ⟨t, ht, h1, h2⟩
  · -- the line is in `b`
    refine hb t y z h2 ?_ hy hz
    rcases t with _ | ⟨c, t⟩
    · exact .inl rfl
    · right
      rcases hx with rfl | hx
      · simp at h1
      · rwa [h1, List.getLast?_append_of_ne_nil _ (by simp)] at hx
  · -- the line begins in `a`
    rcases split_at h2 with ⟨u, h3, h4⟩ | ⟨u, hu, h3, h4⟩
    · exact ha x y u (by rw [h1, h3]) hx hy (by
        rcases u with _ | ⟨c, u⟩
        · exact .inl rfl
        · right
          rcases hz with hz | hz
          · rw [hz] at h4; simp at h4
          · rw [h4] at hz; simpa using hz)
    · exfalso
      apply hy
      have : t.getLast? = some '\n' := by
        have := congrArg List.getLast? h1
        rw [List.getLast?_concat, List.getLast?_append_of_ne_nil _ ht] at this
        exact this.symm
      rw [h3]
      exact List.mem_append_left _ (List.mem_of_getLast? this)

/-- a line of code stays -/
theorem shared_code {l : Txt} (h : "%include".toList.isPrefixOf (strip l) = false) : Shared l l := by
  refine .other ?_
  rintro x r hx e
  have e1 : strip l = "%include".toList ++ rstrip r := by
    obtain ⟨y, e2, hy, hl⟩ := rstrip_decomp r
    apply trimmed_strip
    refine ⟨x, y, by rw [e, List.append_assoc, List.append_assoc, ← e2], hx, hy, fun c hc => ?_, fun c hc => ?_⟩
    · have : c = '%' := by simpa using hc.symm
      subst this; decide
    · by_cases h0 : rstrip r = []
      · rw [h0, List.append_nil] at hc
        have : c = 'e' := by simpa using hc.symm
        subst this; decide
      · rw [List.getLast?_append_of_ne_nil _ h0] at hc
        exact hl c hc
  have : "%include".toList.isPrefixOf (strip l) = true := by
    rw [List.isPrefixOf_iff_prefix, e1]; exact List.prefix_append _ _
  rw [h] at this
  exact absurd this (by decide)

end Verif.McComp
