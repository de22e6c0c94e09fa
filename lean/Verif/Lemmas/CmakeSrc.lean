import Verif.Spec.CmakeSrc
import Verif.Lemmas.Run
import Mathlib.Tactic.Common
/-!
Lemmas about the sources of components.
-/

namespace Verif.CmakeSrc
open Spec

theorem dir_clean {c : Comp} (h : Simple c) : Clean c.dir := by
  obtain ⟨_, h1, h2⟩ := h
  constructor
  · simp [Comp.dir, subdir, h1.1, h2.1]
  · simp [Comp.dir, subdir, h1.2, h2.2]

theorem dir_ne {a b : Comp} (ha : Simple a) (hb : Simple b) (h : Different a b) : a.dir ≠ b.dir := by
  intro e
  exact h (Run.append_cons_inj ha.1 hb.1 e)

theorem head_of {k t d w r s : Text} (hs : '(' ∉ w) (hr : '(' ∉ r) (h : s ++ (k ++ '(' :: d) ++ t = w ++ '(' :: r) :
    s ++ k = w ∧ d ++ t = r := by
  have e : (s ++ k) ++ '(' :: (d ++ t) = w ++ '(' :: r := by
    rw [← h]
    simp only [List.append_assoc, List.cons_append]
  by_cases hs' : '(' ∈ s ++ k
  · have c1 := congrArg (List.count '(') e
    have c2 := List.count_pos_iff.2 hs'
    rw [List.count_append, List.count_append (l₁ := w)] at c1
    simp only [List.count_cons_self, List.count_eq_zero.2 hs, List.count_eq_zero.2 hr] at c1
    omega
  · exact Run.append_cons_inj hs' hs e

theorem infix_head {s t d w r : Text} (hs : '(' ∉ w) (hr : '(' ∉ r) (h : s ++ cmakeLine d ++ t = w ++ '(' :: r) :
    s ++ "add_subdirectory".toList = w ∧ d ++ [')'] ++ t = r :=
  head_of hs hr h

theorem infix_line {d d' : Text} (h : Clean d) (h' : Clean d') : cmakeLine d <:+: cmakeLine d' ↔ d = d' := by
  constructor
  · rintro ⟨s, t, e⟩
    have e' : s ++ cmakeLine d ++ t = "add_subdirectory".toList ++ '(' :: (d' ++ [')']) := e
    obtain ⟨_, e2⟩ := infix_head (by decide) (by simp [h'.1]) e'
    have e3 : d ++ ')' :: t = d' ++ ')' :: [] := by simpa using e2
    exact (Run.append_cons_inj h.2 h'.2 e3).1
  · rintro rfl
    exact List.infix_rfl

theorem infix_header (d : Text) : ∀ l ∈ header, ¬ cmakeLine d <:+: l := by
  intro l hl hi
  obtain ⟨s, t, e⟩ := hi
  have hc : ∀ w : Text, s ++ "add_subdirectory".toList = w → w.getLast? = some 'y' := by
    rintro w rfl
    rw [List.getLast?_append]
    rfl
  rcases List.mem_cons.1 hl with rfl | hl
  · obtain ⟨e1, _⟩ := infix_head (by decide) (by decide) e
    exact absurd (hc _ e1) (by decide)
  · rw [List.mem_singleton] at hl
    subst hl
    obtain ⟨e1, _⟩ := infix_head (by decide) (by decide) e
    exact absurd (hc _ e1) (by decide)

/-- the file with lines for some directories -/
theorem addLine_eq {lines : Option (List Text)} {ds : List Text} (hl : lines.getD header = header ++ ds.map cmakeLine)
    (hd : ∀ d ∈ ds, Clean d) {d : Text} (h : Clean d) :
    addLine lines d = header ++ (if d ∈ ds then ds else ds ++ [d]).map cmakeLine := by
  unfold addLine
  dsimp only
  rw [hl]
  by_cases hm : d ∈ ds
  · rw [if_pos hm, if_pos]
    rw [List.any_eq_true]
    exact ⟨cmakeLine d, by simp only [List.mem_append, List.mem_map]; exact .inr ⟨d, hm, rfl⟩, by simp⟩
  · rw [if_neg hm, if_neg]
    · rw [List.map_append, List.append_assoc]
      rfl
    · rw [List.any_eq_true]
      rintro ⟨l, hl', hi⟩
      rw [decide_eq_true_eq] at hi
      rcases List.mem_append.1 hl' with hl' | hl'
      · exact infix_header d l hl' hi
      · obtain ⟨d', hd', rfl⟩ := List.mem_map.1 hl'
        exact hm (((infix_line h (hd d' hd')).1 hi) ▸ hd')

theorem timeOf_create (now : Nat) (c : Comp) (t : Tree) (d : Text) :
    timeOf (create now c t).dirs d = if d = c.dir then some now else timeOf t.dirs d := by
  unfold timeOf create
  by_cases h : d = c.dir
  · rw [if_pos h, List.find?_cons_of_pos (by simp [h])]
    rfl
  · rw [if_neg h, List.find?_cons_of_neg (by simpa using Ne.symm h), List.find?_filter]
    congr 2
    funext x
    by_cases hx : x.1 = d
    · simp [hx, h]
    · simp [hx]

theorem timeOf_other (now : Nat) (cs : List Comp) (t : Tree) (d : Text) (h : ∀ c ∈ cs, c.dir ≠ d) :
    timeOf (createAll now cs t).dirs d = timeOf t.dirs d := by
  induction cs generalizing t with
  | nil => rfl
  | cons c cs ih =>
    unfold createAll
    rw [ih _ fun e he => h e (by simp [he])]
    split
    · rfl
    · rw [timeOf_create, if_neg (Ne.symm (h c (by simp)))]

theorem timeOf_all (now : Nat) (cs : List Comp) (t : Tree) (h : cs.Pairwise fun a b => a.dir ≠ b.dir) :
    ∀ c ∈ cs, timeOf (createAll now cs t).dirs c.dir = if bypass c t then timeOf t.dirs c.dir else some now := by
  induction cs generalizing t with
  | nil => simp
  | cons a cs ih =>
    rw [List.pairwise_cons] at h
    intro c hc
    unfold createAll
    rcases List.mem_cons.1 hc with rfl | hc
    · rw [timeOf_other now cs _ _ fun e he => (h.1 e he).symm]
      split
      · rfl
      · rw [timeOf_create, if_pos rfl]
    · rw [ih _ h.2 c hc]
      have hn : c.dir ≠ a.dir := (h.1 c hc).symm
      split
      · rfl
      · have ht : timeOf (create now a t).dirs c.dir = timeOf t.dirs c.dir := by rw [timeOf_create, if_neg hn]
        have hb : bypass c (create now a t) = bypass c t := by
          unfold bypass
          rw [ht]
        rw [hb, ht]

/-- the lines after all components, none of which is left out -/
theorem lines_all (now : Nat) (cs : List Comp) (hw : ∀ c ∈ cs, c.wrapped = false) (hs : ∀ c ∈ cs, Clean c.dir) (t : Tree) (ds : List Text)
    (hl : t.lines.getD header = header ++ ds.map cmakeLine) (hd : ∀ d ∈ ds, Clean d)
    (hp : cs.Pairwise fun a b => a.dir ≠ b.dir) (hn : ∀ c ∈ cs, c.dir ∉ ds) :
    (createAll now cs t).lines.getD header = header ++ (ds ++ cs.map Comp.dir).map cmakeLine := by
  induction cs generalizing t ds with
  | nil => simpa [createAll] using hl
  | cons c cs ih =>
    rw [List.pairwise_cons] at hp
    have hb : bypass c t = false := by
      unfold bypass
      rw [hw c (by simp)]
      rfl
    unfold createAll
    rw [hb, if_neg (by simp), ih (fun e he => hw e (by simp [he])) (fun e he => hs e (by simp [he])) _ (ds ++ [c.dir]) ?_ ?_ hp.2 ?_]
    · simp
    · change addLine t.lines c.dir = _
      rw [addLine_eq hl hd (hs c (by simp)), if_neg (hn c (by simp))]
    · intro d hd'
      rcases List.mem_append.1 hd' with hd' | hd'
      · exact hd d hd'
      · rw [List.mem_singleton] at hd'
        exact hd' ▸ hs c (by simp)
    · intro e he
      simp only [List.mem_append, List.mem_singleton, not_or]
      exact ⟨hn e (by simp [he]), (hp.1 e he).symm⟩

end Verif.CmakeSrc
