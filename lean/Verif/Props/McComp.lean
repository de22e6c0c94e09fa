import Verif.Lemmas.McComp
import Mathlib.Tactic.NormNum
import Mathlib.Tactic.Linarith
import Mathlib.Data.Rat.Defs
import Mathlib.Algebra.Field.Rat
/-!
C282, C283, C284: the parsing of components of McStas.
-/

namespace Verif.McComp
open Facility McInstr

/-! ### a file -/

/-- `string filename = "a.dat"` -/
def d1 : Decl := ⟨[], .plain "string".toList " ".toList, "filename".toList, " ".toList, .quoted " ".toList '"' "a.dat".toList, []⟩
/-- `xmin = -0.5` -/
def d2 : Decl := ⟨" ".toList, .none, "xmin".toList, " ".toList, .bare " ".toList "-0.5".toList, []⟩
/-- `char *sel` -/
def d3 : Decl := ⟨"\n  ".toList, .pointer "char".toList " ".toList [], "sel".toList, [], .none, " ".toList⟩

theorem d1_ok : d1.Ok ∧ d1.dflt.Safe :=
  ⟨⟨⟨by simp [White, d1], by simp [White, d1], by simp [White, d1]⟩,
    ⟨⟨by decide, by decide⟩, by unfold White; decide, by decide⟩, ⟨by decide, by decide⟩, ⟨by unfold White; decide, .inl rfl, by decide⟩⟩,
    show ∀ c ∈ "a.dat".toList, _ by decide⟩
theorem d2_ok : d2.Ok ∧ d2.dflt.Safe :=
  ⟨⟨⟨show White " ".toList by unfold White; decide, show White " ".toList by unfold White; decide, by simp [White, d2]⟩,
    trivial, ⟨by decide, by decide⟩,
    show White " ".toList by unfold White; decide, by decide, by unfold Solid; decide, by unfold Solid; decide, by decide⟩, trivial⟩
theorem d3_ok : d3.Ok ∧ d3.dflt.Safe :=
  ⟨⟨⟨show White "\n  ".toList by unfold White; decide, by simp [White, d3], show White " ".toList by unfold White; decide⟩,
    ⟨⟨by decide, by decide⟩, by unfold White; decide, by simp [White]⟩, ⟨by decide, by decide⟩, trivial⟩, trivial⟩

/-! ### C282: the lists of parameters -/

/-- `McStasComponentParser` finds the parameters of a list `WORD PARAMETERS (...)` as they are declared, with type, name and default, if no text in
quotes has commas, equal signs or brackets -/
theorem C282_partial {w text : Txt} {ds : List Decl} (hw : ListWord w) (h : Declares w text ds) (hs : ∀ d ∈ ds, d.dflt.Safe) :
    params w text = ds.map Decl.param := declares_eq hw h hs

example : ∃ text, Declares "SETTING".toList text [d1, d2, d3] ∧ (∀ d ∈ [d1, d2, d3], d.dflt.Safe) ∧
    text = "SETTING PARAMETERS (string filename = \"a.dat\", xmin = -0.5,\n  char *sel )\nTRACE".toList := by
  refine ⟨"SETTING".toList ++ (' ' :: [] ++ ("PARAMETERS".toList ++ (" ".toList ++ '(' :: (List.intercalate [','] ([d1, d2, d3].map Decl.text) ++ ')' :: "\nTRACE".toList)))), ?_, ?_, ?_⟩
  · refine .some (by simp) ?_ (listed_first (by decide) (by decide +kernel))
    simp only [List.mem_cons, List.not_mem_nil, or_false]
    rintro d (rfl | rfl | rfl)
    · exact d1_ok.1
    · exact d2_ok.1
    · exact d3_ok.1
  · simp only [List.mem_cons, List.not_mem_nil, or_false]
    rintro d (rfl | rfl | rfl)
    · exact d1_ok.2
    · exact d2_ok.2
    · exact d3_ok.2
  · decide +kernel

/-- the state parameters are a list of names -/
theorem C282_names {w text : Txt} {ns : List (Txt × Txt × Txt)} (hw : ListWord w) (h0 : ns ≠ [])
    (h : ∀ n ∈ ns, White n.1 ∧ Name n.2.1 ∧ White n.2.2)
    (hl : Listed w text (List.intercalate [','] (ns.map fun n => n.1 ++ (n.2.1 ++ n.2.2)))) : names w text = ns.map fun n => n.2.1 :=
  names_eq hw h0 h hl

example : ∃ ns : List (Txt × Txt × Txt), ns ≠ [] ∧ (∀ n ∈ ns, White n.1 ∧ Name n.2.1 ∧ White n.2.2) ∧
    Listed "STATE".toList "STATE PARAMETERS (x, vx)\n".toList (List.intercalate [','] (ns.map fun n => n.1 ++ (n.2.1 ++ n.2.2))) := by
  refine ⟨[([], "x".toList, []), (" ".toList, "vx".toList, [])], by simp, by unfold White Name; decide, ?_⟩
  have := listed_first (w := "STATE".toList) (body := "x, vx".toList) (post := "\n".toList) (by decide) (by decide)
  have e : "STATE".toList ++ (' ' :: [] ++ ("PARAMETERS".toList ++ (" ".toList ++ '(' :: ("x, vx".toList ++ ')' :: "\n".toList)))) =
    "STATE PARAMETERS (x, vx)\n".toList := by decide
  rw [e] at this
  exact this

/-- `options="x,y"` -/
def d4 : Decl := ⟨[], .plain "string".toList " ".toList, "options".toList, [], .quoted [] '"' "x,y".toList, []⟩
/-- `options="x=1"` -/
def d5 : Decl := ⟨[], .plain "string".toList " ".toList, "options".toList, [], .quoted [] '"' "x=1".toList, []⟩

theorem d4_ok : d4.Ok :=
  ⟨⟨by simp [White, d4], by simp [White, d4], by simp [White, d4]⟩, ⟨⟨by decide, by decide⟩, by unfold White; decide, by decide⟩,
    ⟨by decide, by decide⟩, ⟨by simp [White], .inl rfl, by decide⟩⟩
theorem d5_ok : d5.Ok :=
  ⟨⟨by simp [White, d5], by simp [White, d5], by simp [White, d5]⟩, ⟨⟨by decide, by decide⟩, by unfold White; decide, by decide⟩,
    ⟨by decide, by decide⟩, ⟨by simp [White], .inl rfl, by decide⟩⟩

/-- without the condition it is false: a comma in quotes separates parameters, and a default with an equal sign in quotes is lost -/
theorem C282_quoted_false :
    (¬ ∀ (text : Txt) (ds : List Decl), Declares "SETTING".toList text ds → params "SETTING".toList text = ds.map Decl.param) ∧
    (∃ text, Declares "SETTING".toList text [d4] ∧
      params "SETTING".toList text = [⟨"string".toList, "options".toList, "x".toList⟩, ⟨[], "y\"".toList, []⟩]) ∧
    (∃ text, Declares "SETTING".toList text [d5] ∧ params "SETTING".toList text = [⟨"string".toList, "options".toList, []⟩]) := by
  have h1 : Declares "SETTING".toList ("SETTING".toList ++ (' ' :: [] ++ ("PARAMETERS".toList ++ (" ".toList ++ '(' ::
      (List.intercalate [','] ([d4].map Decl.text) ++ ')' :: [])))))  [d4] :=
    .some (by simp) (by simpa using d4_ok) (listed_first (by decide) (by decide +kernel))
  have h2 : Declares "SETTING".toList ("SETTING".toList ++ (' ' :: [] ++ ("PARAMETERS".toList ++ (" ".toList ++ '(' ::
      (List.intercalate [','] ([d5].map Decl.text) ++ ')' :: []))))) [d5] :=
    .some (by simp) (by simpa using d5_ok) (listed_first (by decide) (by decide +kernel))
  have e1 : params "SETTING".toList ("SETTING".toList ++ (' ' :: [] ++ ("PARAMETERS".toList ++ (" ".toList ++ '(' ::
      (List.intercalate [','] ([d4].map Decl.text) ++ ')' :: []))))) =
      [⟨"string".toList, "options".toList, "x".toList⟩, ⟨[], "y\"".toList, []⟩] := by decide +kernel
  have e2 : params "SETTING".toList ("SETTING".toList ++ (' ' :: [] ++ ("PARAMETERS".toList ++ (" ".toList ++ '(' ::
      (List.intercalate [','] ([d5].map Decl.text) ++ ')' :: []))))) = [⟨"string".toList, "options".toList, []⟩] := by decide +kernel
  refine ⟨fun h => ?_, ⟨_, h1, e1⟩, ⟨_, h2, e2⟩⟩
  have := h _ _ h1
  rw [e1] at this
  have := congrArg List.length this
  simp at this

/-- a comment `// ...` inside a list matters: it makes the list empty -/
theorem C282_comment_false :
    (¬ ∀ a c b : Txt, '"' ∉ a → '\'' ∉ a → ¬ ['/', '/'] <:+: a → '\n' ∉ c →
      params "SETTING".toList (a ++ ("//".toList ++ (c ++ '\n' :: b))) = params "SETTING".toList (a ++ '\n' :: b)) ∧
    params "SETTING".toList "SETTING PARAMETERS (xmin=0, // left\n xmax=1)\n".toList = [] ∧
    params "SETTING".toList "SETTING PARAMETERS (xmin=0, \n xmax=1)\n".toList = [⟨[], "xmin".toList, "0".toList⟩, ⟨[], "xmax".toList, "1".toList⟩] := by
  have e1 : params "SETTING".toList "SETTING PARAMETERS (xmin=0, // left\n xmax=1)\n".toList = [] := by decide +kernel
  have e2 : params "SETTING".toList "SETTING PARAMETERS (xmin=0, \n xmax=1)\n".toList =
    [⟨[], "xmin".toList, "0".toList⟩, ⟨[], "xmax".toList, "1".toList⟩] := by decide +kernel
  refine ⟨fun h => ?_, e1, e2⟩
  have := h "SETTING PARAMETERS (xmin=0, ".toList " left".toList " xmax=1)\n".toList (by decide) (by decide) (by decide +kernel) (by decide)
  have f1 : "SETTING PARAMETERS (xmin=0, ".toList ++ ("//".toList ++ (" left".toList ++ '\n' :: " xmax=1)\n".toList)) =
    "SETTING PARAMETERS (xmin=0, // left\n xmax=1)\n".toList := by decide
  have f2 : "SETTING PARAMETERS (xmin=0, ".toList ++ '\n' :: " xmax=1)\n".toList = "SETTING PARAMETERS (xmin=0, \n xmax=1)\n".toList := by decide
  rw [f1, f2, e1, e2] at this
  exact absurd this (by simp)

/-! ### C283: parameters of components -/

section
variable {F : Type} [Zero F] (float : Txt → Option F) (int : Txt → Option ℤ) (descr : Txt → Option Txt)

/-- the component has the parameter `name` and then those of the definition and the setting list in their order; a default that is a number or a text
is kept -/
theorem C283_partial {text name : Txt} {ds ss : List Decl} (hn : Defined text name) (hd : Declares "DEFINITION".toList text ds)
    (hs : Declares "SETTING".toList text ss) (h : ∀ d ∈ ds ++ ss, d.dflt.Safe ∧ Known d.kind.type) :
    ∃ n qs, inputs float int descr name text = .ok (n :: qs) ∧ n.name = "name".toList ∧
      (name ≠ "0".toList → n.default = .str (name.map Char.toLower)) ∧ List.Forall₂ (Gives float int descr) (ds ++ ss) qs :=
  inputs_eq float int descr hn hd hs h

/-- another name in the header is an error -/
theorem C283_header {text name header : Txt} (hn : Defined text name) (h : header ≠ name) :
    inputs float int descr header text = .error .assertionError := by
  unfold inputs
  simp only [compName_eq hn]
  rw [if_pos h]

/-- the types of parameters: others are errors -/
theorem C283_types {n t v d : Txt} : ((∃ p, Parameter.new float int n t v d = .ok p) ↔ Known t) ∧
    (¬ Known t → Parameter.new float int n t v d = .error .keyError) := by
  refine ⟨⟨?_, ?_⟩, new_unknown float int⟩
  · rintro ⟨p, hp⟩
    by_contra hk
    rw [new_unknown float int hk] at hp
    exact absurd hp (by simp)
  · intro h
    obtain ⟨p, hp, -⟩ := new_known float int (n := n) (v := v) (d := d) h
    exact ⟨p, hp⟩

example : Known "double".toList ∧ ¬ Known "long".toList := by unfold Known; decide

end

/-- the beginning of a file -/
def text1 : Txt := "DEFINE COMPONENT Slit\nDEFINITION PARAMETERS ()\nSETTING PARAMETERS (string filename = \"a.dat\", xmin = -0.5,\n  char *sel )\nTRACE".toList

/-- the first line -/
def line1 : Txt := "DEFINE COMPONENT Slit\n".toList
/-- the second line -/
def line2 : Txt := "DEFINITION PARAMETERS ()\n".toList

theorem text1_defined : Defined text1 "Slit".toList :=
  ⟨⟨[], [], "DEFINE".toList, [], "COMPONENT".toList, " ".toList, [], "DEFINITION PARAMETERS ()\nSETTING PARAMETERS (string filename = \"a.dat\", xmin = -0.5,\n  char *sel )\nTRACE".toList,
    by decide +kernel, .inl rfl, noLine_nil _ (by decide), by simp [Blanks], spelled_self _, by simp, spelled_self _, by unfold Blanks; decide,
    by simp [Blanks], ⟨by decide, by decide⟩⟩⟩

theorem text1_definition : Declares "DEFINITION".toList text1 [] := by
  refine .empty (body := []) (by simp [White]) ⟨⟨line1, [], "DEFINITION".toList, [], "PARAMETERS".toList, " ".toList,
    "\nSETTING PARAMETERS (string filename = \"a.dat\", xmin = -0.5,\n  char *sel )\nTRACE".toList, by decide +kernel, .inr (by decide), ?_, by simp [Blanks],
    spelled_self _, by simp, spelled_self _, by decide, by simp⟩⟩
  have e : line1 = "DEFINE COMPONENT Slit".toList ++ ['\n'] := by decide
  rw [e]
  refine noLine_one (by decide) (by decide) ?_
  rintro ⟨b, k, r, e, hb, hk⟩
  cases b with
  | nil =>
    have hlen : k.length = 10 := by have := congrArg List.length hk; simpa using this
    have : k = "DEFINE COM".toList := by
      have := congrArg (List.take 10) e
      rw [List.nil_append, ← hlen, List.take_left, hlen] at this
      rw [← this]; decide
    rw [this] at hk
    exact absurd hk (by decide)
  | cons a b =>
    have h1 : 'D' = a := by have := congrArg List.head? e; simpa using this
    have := hb a List.mem_cons_self
    rw [← h1] at this
    exact absurd this (by decide)

theorem text1_setting : Declares "SETTING".toList text1 [d1, d2, d3] := by
  refine .some (by simp) ?_ ⟨⟨line1 ++ line2, [], "SETTING".toList, [], "PARAMETERS".toList, " ".toList, "\nTRACE".toList, by decide +kernel, .inr (by decide), ?_,
    by simp [Blanks], spelled_self _, by simp, spelled_self _, by decide, by decide +kernel⟩⟩
  · simp only [List.mem_cons, List.not_mem_nil, or_false]
    rintro d (rfl | rfl | rfl)
    · exact d1_ok.1
    · exact d2_ok.1
    · exact d3_ok.1
  · have e : line1 ++ line2 = "DEFINE COMPONENT Slit".toList ++ '\n' :: ("DEFINITION PARAMETERS ()".toList ++ ['\n']) := by decide
    rw [e]
    refine noLine_append (noLine_one (by decide) (by decide) fun h => ?_) (noLine_one (by decide) (by decide) fun h => ?_)
    · exact absurd (begins_head (w := "ETTING".toList) (l := "EFINE COMPONENT Slit".toList) (c := 'D') (d := 'S') (by decide) h) (by decide)
    · exact absurd (begins_head (w := "ETTING".toList) (l := "EFINITION PARAMETERS ()".toList) (c := 'D') (d := 'S') (by decide) h) (by decide)

example : Defined text1 "Slit".toList ∧ Declares "DEFINITION".toList text1 [] ∧ Declares "SETTING".toList text1 [d1, d2, d3] ∧
    ∀ d ∈ [] ++ [d1, d2, d3], d.dflt.Safe ∧ Known d.kind.type := by
  refine ⟨text1_defined, text1_definition, text1_setting, ?_⟩
  simp only [List.nil_append, List.mem_cons, List.not_mem_nil, or_false]
  rintro d (rfl | rfl | rfl)
  · exact ⟨d1_ok.2, by unfold Known; decide⟩
  · exact ⟨d2_ok.2, by unfold Known; decide⟩
  · exact ⟨d3_ok.2, by unfold Known; decide⟩

/-- a default that is an expression becomes 0 without an error: `freq=50.0/3.0` in `ESS_moderator_long.comp` -/
theorem C283_expr_false (float : Txt → Option ℚ) (int : Txt → Option ℤ) (h1 : float "50.0".toList = some 50) (h2 : float "3.0".toList = some 3)
    (h3 : float "50.0/3.0".toList = none) :
    (¬ ∀ (n v d : Txt) (x : ℚ), Means float v x → ∃ p, Parameter.new float int n [] v d = .ok p ∧ p.default = .num x) ∧
    Parameter.new float int "freq".toList [] "50.0/3.0".toList [] = .ok ⟨"freq".toList, "double".toList, .int 0, []⟩ ∧
    Means float "50.0/3.0".toList (50 / 3) := by
  have hm : Means float "50.0/3.0".toList (50 / 3) := by
    have : "50.0/3.0".toList = "50.0".toList ++ '/' :: "3.0".toList := by decide
    rw [this]
    exact .quotient h1 h2 (by norm_num)
  have e : Parameter.new float int "freq".toList [] "50.0/3.0".toList [] = .ok ⟨"freq".toList, "double".toList, .int 0, []⟩ := by
    have : Parameter.new float int "freq".toList [] "50.0/3.0".toList [] =
      .ok ⟨"freq".toList, "double".toList, (float "50.0/3.0".toList).elim (.int 0) .num, []⟩ := rfl
    rw [this, h3]; rfl
  refine ⟨fun h => ?_, e, hm⟩
  obtain ⟨p, hp, hd⟩ := h "freq".toList "50.0/3.0".toList [] (50 / 3) hm
  rw [e] at hp
  injection hp with hp
  rw [← hp] at hd
  exact absurd hd (by simp)

example : ∃ float : Txt → Option ℚ, float "50.0".toList = some 50 ∧ float "3.0".toList = some 3 ∧ float "50.0/3.0".toList = none :=
  ⟨fun s => if s = "50.0".toList then some 50 else if s = "3.0".toList then some 3 else none, by
    refine ⟨if_pos rfl, ?_, ?_⟩
    · show (if _ then _ else _) = _
      rw [if_neg (by decide), if_pos rfl]
    · show (if _ then _ else _) = _
      rw [if_neg (by decide), if_neg (by decide)]⟩

/-! ### C284: the sections -/

/-- the text of a section is what is between the brackets after the first head with the word -/
theorem C284_section {w text body : Txt} (hw : SectionWord w) (h : Sectioned w text body) : section' w text = body := section_eq hw h

example : Sectioned "TRACE".toList "/ TRACE of a ray\nTRACE\n%{ PROP_Z0; %}\nEND".toList " PROP_Z0; ".toList := by
  refine ⟨⟨"/ TRACE of a ray\n".toList, "TRACE".toList, "\n".toList, "\nEND".toList, by decide +kernel, .inr (by decide), ?_, spelled_self _, by decide, by decide +kernel⟩⟩
  rintro ⟨x, k, s, y, e, -, -⟩
  have : '%' ∈ "/ TRACE of a ray\n".toList := by rw [e]; simp
  exact absurd this (by decide)

/-- the section `SHARE` is cut in header and implementation before the last separator; nothing is lost and names of libraries are replaced -/
theorem C284_share_partial {l k : Txt} {ls ks as bs : List Txt} (hl : Shared l k) (hsep : Separator l) (hs : List.Forall₂ Shared ls ks)
    (hn : ∀ l ∈ ls, ¬ Separator l) (has : List.Forall₂ Shared as bs) (hnl : ∀ x ∈ as ++ l :: ls, '\n' ∉ x) (h2 : as ≠ [] ∨ ls ≠ []) :
    formatShare (List.intercalate ['\n'] (as ++ l :: ls)) = .ok (List.intercalate ['\n'] bs, List.intercalate ['\n'] (k :: ks)) :=
  share_eq hl hsep hs hn has hnl h2

/-- more than one line without a separator is an error -/
theorem C284_separator {ls ks : List Txt} (hs : List.Forall₂ Shared ls ks) (hn : ∀ l ∈ ls, ¬ Separator l) (hnl : ∀ x ∈ ls, '\n' ∉ x) (h2 : 2 ≤ ls.length) :
    formatShare (List.intercalate ['\n'] ls) = .error .runtimeError := share_error hs hn hnl h2

example : ∃ (l k : Txt) (ls ks as bs : List Txt), Shared l k ∧ Separator l ∧ List.Forall₂ Shared ls ks ∧ (∀ l ∈ ls, ¬ Separator l) ∧
    List.Forall₂ Shared as bs ∧ (∀ x ∈ as ++ l :: ls, '\n' ∉ x) ∧ as ≠ [] ∧ bs = ["#include \"mcstas2/share/ref-lib.h\"".toList] ∧
    ls = ["int f;".toList] := by
  refine ⟨signature, signature, ["int f;".toList], ["int f;".toList], ["  %include \"ref-lib\"".toList], ["#include \"mcstas2/share/ref-lib.h\"".toList],
    shared_code (by decide +kernel), ⟨[], [], by simp [White], by simp [White], by rw [List.nil_append, List.append_nil]; rfl⟩,
    .cons (shared_code (by decide +kernel)) .nil, ?_, .cons ?_ .nil, ?_, by simp, rfl, rfl⟩
  · simp only [List.mem_cons, List.not_mem_nil, or_false]
    rintro l rfl h
    rw [sig_iff] at h
    revert h
    decide +kernel
  · exact Shared.incl (x := "  ".toList) (y := " ".toList) (z := []) (h := "ref-lib".toList) (by unfold White; decide) (by unfold White; decide)
      (by simp [White]) (by decide) (by decide)
  · decide +kernel

example : ∃ ls ks : List Txt, List.Forall₂ Shared ls ks ∧ (∀ l ∈ ls, ¬ Separator l) ∧ (∀ x ∈ ls, '\n' ∉ x) ∧ 2 ≤ ls.length := by
  refine ⟨["int f;".toList, "int g;".toList], ["int f;".toList, "int g;".toList],
    .cons (shared_code (by decide +kernel)) (.cons (shared_code (by decide +kernel)) .nil), ?_, by decide, by decide⟩
  simp only [List.mem_cons, List.not_mem_nil, or_false]
  rintro l (rfl | rfl) h
  · rw [sig_iff] at h
    revert h
    decide +kernel
  · rw [sig_iff] at h
    revert h
    decide +kernel

/-- a section of one line is lost without an error, be it `%include "ref-lib"` -/
theorem C284_single_false :
    (¬ ∀ share h i : Txt, formatShare share = .ok (h, i) → (∃ c ∈ share, c.isWhitespace = false) → h ≠ [] ∨ i ≠ []) ∧
    ∀ share, '\n' ∉ share → formatShare share = .ok ([], []) := by
  have key : ∀ share, '\n' ∉ share → formatShare share = .ok ([], []) := by
    intro share h
    unfold formatShare
    rw [splitAll_single h]
    rfl
  refine ⟨fun h => ?_, key⟩
  have := h " %include \"ref-lib\" ".toList [] [] (key _ (by decide)) ⟨'%', by decide, by decide⟩
  simp at this

end Verif.McComp
