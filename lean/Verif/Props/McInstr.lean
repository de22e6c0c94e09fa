import Verif.Lemmas.McInstr
import Mathlib.Data.Rat.Defs
import Mathlib.Algebra.Order.Field.Rat
/-!
Property theorems about the conversion of instruments of McStas: C269, C270, C271, C272.
-/

namespace Verif.McInstr
open Facility Geometer Frames
variable {F : Type}

deriving instance DecidableEq for Val
deriving instance DecidableEq for Place
deriving instance DecidableEq for Comp

/-- for the examples: numbers are digits, as in `float` white space around them does not matter -/
def exFloat (s : Txt) : Option ℚ :=
  let t := strip s
  if t.isEmpty || t.any fun c => !c.isDigit then none
  else some ((t.foldl (fun n c => 10 * n + (c.toNat - '0'.toNat)) 0 : Nat) : ℚ)

/-- for the examples: the names and types that are read -/
def namesOf (text : String) : List (Txt × Txt) := (parse exFloat text.toList).map fun c => (c.name, c.type)

/-! ### C269 -/

/-- **C269** What does hold: in files in the layout of the documentation every component is read with its name, its type, its parameters, its
position and its orientation; without `ROTATED` it is oriented like the reference of its position.  Missing: parentheses, commas and equal signs
within values, other layouts of the clauses. -/
theorem C269_read_partial [Zero F] (float : Txt → Option F) (text header : Txt) (srcs : List Src) (hu : Uncommented text (file header srcs))
    (hh : ¬ "COMPONENT".toList <:+: header) (hl : ∀ c ∈ header.getLast?, c.isWhitespace = true) (h : ∀ s ∈ srcs, s.Ok) :
    List.Forall₂ (Means float) srcs (parse float text) := parse_eq float hu hh hl h

/-- a source at the origin -/
def exSrc : Src :=
  { b0 := " ".toList, name := "src".toList, b1 := " ".toList, b2 := " ".toList, type := "Source_simple".toList, b3 := [], pad := [],
    ps := [⟨"\n  ".toList, "radius".toList, " ".toList, " ".toList, "0.1".toList, []⟩, ⟨" ".toList, "dist".toList, [], [], "10".toList, []⟩],
    fill0 := [[]],
    at' := ⟨"  ".toList, "AT".toList, [], "0".toList, " 0".toList, " 0".toList, " ".toList, "ABSOLUTE".toList, [], [], []⟩,
    fill1 := [], rot := none, fill2 := ["EXTEND %{ x = 1; %}".toList, []], stop := [] }

/-- a slit behind it -/
def exSlit : Src :=
  { b0 := " ".toList, name := "slit".toList, b1 := [], b2 := [], type := "Slit".toList, b3 := [], pad := " ".toList, ps := [],
    fill0 := [[]],
    at' := ⟨[], "at".toList, [], "0".toList, " 0".toList, " 3".toList, " ".toList, "RELATIVE".toList, " ".toList, "PREVIOUS".toList, " ".toList⟩,
    fill1 := [], rot := some ⟨[], "ROTATED".toList, [], "0".toList, " 90".toList, "0".toList, " ".toList, "relative".toList, "  ".toList, "src".toList, []⟩,
    fill2 := [], stop := ["END".toList, []] }

theorem exSrc_ok : exSrc.Ok where
  blanks := by unfold Blanks White; decide
  names := by
    intro c hc
    rcases hc with hc | hc
    · revert c; decide
    · revert c; decide
  filled := by decide
  params := by
    intro p hp
    simp only [exSrc, List.mem_cons, List.not_mem_nil, or_false] at hp
    rcases hp with rfl | rfl
    · exact ⟨by unfold White; decide, by unfold Token; decide⟩
    · exact ⟨by unfold White; decide, by unfold Token; decide⟩
  fill := by
    intro f hf
    simp only [exSrc, List.mem_cons, List.not_mem_nil, or_false, false_or] at hf
    rcases hf with rfl | rfl | rfl <;> (unfold Plain; decide)
  at_ok := ⟨by unfold Spelled; decide, by unfold Blanks; decide, by
    intro s hs
    rcases hs with rfl | rfl | rfl <;> decide, .inl ⟨by unfold Spelled; decide, rfl, rfl⟩⟩
  rot_ok := by intro c hc; cases hc
  stop := .inl rfl
  word := by decide +kernel
  ends := ⟨exSrc.text.dropLast, '\n', by decide +kernel, by decide⟩

theorem exSlit_ok : exSlit.Ok where
  blanks := by unfold Blanks White; decide
  names := by
    intro c hc
    rcases hc with hc | hc
    · revert c; decide
    · revert c; decide
  filled := by decide
  params := by intro p hp; cases hp
  fill := by
    intro f hf
    simp only [exSlit, List.mem_cons, List.not_mem_nil, or_false] at hf
    rcases hf with rfl
    unfold Plain; decide
  at_ok := ⟨by unfold Spelled; decide, by unfold Blanks; decide, by
    intro s hs
    rcases hs with rfl | rfl | rfl <;> decide, .inr ⟨by unfold Spelled; decide, by decide, by decide, by decide⟩⟩
  rot_ok := by
    intro c hc
    simp only [exSlit, Option.mem_some_iff] at hc
    subst hc
    exact ⟨by unfold Spelled; decide, by unfold Blanks; decide, by
      intro s hs
      rcases hs with rfl | rfl | rfl <;> decide, .inr ⟨by unfold Spelled; decide, by decide, by decide, by decide⟩⟩
  stop := .inr ⟨"END".toList, [[]], rfl, [], "END".toList, [], "END".toList, rfl, by unfold White; decide, .inl rfl, by unfold Spelled; decide, by decide, .inl rfl⟩
  word := by decide +kernel
  ends := ⟨exSlit.text.dropLast, '\n', by decide +kernel, by decide⟩

/-- the file of the example -/
def exText : Txt := ("DEFINE INSTRUMENT t() /* a comment */\nDECLARE\n" ++
  "COMPONENT src = Source_simple(\n  radius = 0.1, dist=10)\n  AT (0, 0, 0) ABSOLUTE\nEXTEND %{ x = 1; %}\n" ++
  "COMPONENT slit=Slit( )\nat (0, 0, 3) RELATIVE PREVIOUS \nROTATED (0, 90,0) relative  src\nEND\n").toList

/-- the file of the example is one in the layout -/
theorem exText_ok : Uncommented exText (file "DEFINE INSTRUMENT t() \nDECLARE\n".toList [exSrc, exSlit]) := by
  have h := Uncommented.comment (a := "DEFINE INSTRUMENT t() ".toList) (b := " a comment ".toList) (by decide +kernel) (by decide +kernel)
    (Uncommented.plain (t := exText.drop 37) (by decide +kernel))
  have e1 : "DEFINE INSTRUMENT t() ".toList ++ ['/', '*'] ++ " a comment ".toList ++ ['*', '/'] ++ exText.drop 37 = exText := by decide +kernel
  have e2 : "DEFINE INSTRUMENT t() ".toList ++ exText.drop 37 = file "DEFINE INSTRUMENT t() \nDECLARE\n".toList [exSrc, exSlit] := by decide +kernel
  rw [e1, e2] at h
  exact h

example : List.Forall₂ (Means exFloat) [exSrc, exSlit] (parse exFloat exText) ∧ (parse exFloat exText).length = 2 ∧
    exSrc.Given "dist".toList "10".toList ∧ exSlit.turn exFloat = .relative (.num 0, .num 90, .num 0) "src".toList ∧
    exSlit.at'.place exFloat = .relative (.num 0, .num 0, .num 3) "previous".toList := by
  refine ⟨C269_read_partial _ _ _ _ exText_ok (by decide +kernel) (by decide +kernel) ?_, by decide +kernel, ⟨[_], _, [], rfl, rfl, rfl, by simp⟩,
    by decide +kernel, by decide +kernel⟩
  intro s hs
  simp only [List.mem_cons, List.not_mem_nil, or_false] at hs
  rcases hs with rfl | rfl
  · exact exSrc_ok
  · exact exSlit_ok

/-- **C269** (negation) A parameter with an expression in parentheses: the component is lost, and one with the name of the parameter and without
type is read instead. -/
theorem C269_parentheses_false :
    namesOf "COMPONENT s = Slit(xmin = (1+2), xmax = 3)\nAT (0, 0, 1) ABSOLUTE\n" = [("xmin".toList, [])] := by decide +kernel

/-- **C269** (negation) Values in quotes with a comma are cut, those with an equal sign are lost. -/
theorem C269_quotes_false :
    (parse exFloat "COMPONENT m = Monitor(options = \"x limits=[0 1]\", filename = \"a,b\", bins = 4)\nAT (0, 0, 1) ABSOLUTE\n".toList).map Comp.params =
      [[("bins".toList, "4".toList), ("filename".toList, "\"a".toList)]] := by decide +kernel

/-- **C269** (negation) `AT` and `ROTATED` on one line: the first coordinate is a piece of the line, the rotation is lost. -/
theorem C269_one_line_false :
    (parse exFloat "COMPONENT m = Arm()\nAT (0, 0, 1) RELATIVE a ROTATED (0, 90, 0) RELATIVE a\n".toList).map (fun c => (c.position, c.orientation)) =
      [(.relative (.text "0, 0, 1) RELATIVE a ROTATED (0".toList, .num 90, .num 0) "a".toList, .relative (.num 0, .num 0, .num 0) "a".toList)] := by
  decide +kernel

/-- **C269** (negation) Without a blank before the parenthesis the position is lost. -/
theorem C269_blank_false :
    (parse exFloat "COMPONENT m = Arm()\nAT(0, 0, 1) ABSOLUTE\n".toList).map Comp.position = [.nowhere none] := by decide +kernel

/-! ### C270 -/

/-- **C270** Comments `/* ... */` are removed, each up to the first `*/`, and nothing else is. -/
theorem C270_comments_partial (s t : Txt) (h : Uncommented s t) : removeComments s.length s = t := removeComments_eq h _ le_rfl

example : Uncommented "a/* b */c/**/".toList "ac".toList := by
  have := Uncommented.comment (a := "a".toList) (b := " b ".toList) (by decide) (by decide)
    (Uncommented.comment (a := "c".toList) (b := []) (by decide) (by decide) (Uncommented.plain (t := []) (by decide)))
  exact this

/-- **C270** (negation) A component behind `//` is converted. -/
theorem C270_line_comment_false :
    namesOf "COMPONENT a = Arm()\nAT (0, 0, 1) ABSOLUTE\n// COMPONENT old = Slit()\n// AT (0, 0, 2) ABSOLUTE\n" =
      [("a".toList, "Arm".toList), ("old".toList, "Slit".toList)] := by decide +kernel

/-! ### C271 -/

/-- **C271** What does hold: if position and orientation of each component are given by numbers and relative to the same (the instrument, or a
component before), then the script runs, and stores on each component the position and orientation that the file describes.  Missing:
different references of position and orientation, `PREVIOUS`, expressions. -/
theorem C271_script_partial [CommRing F] [DecidableEq F] (toM : V3 F → M3 F) (fuel : Nat) (cat : Txt → Option Txt) (comps : List (Comp F))
    (hcat : ∀ c ∈ comps, cat c.type ≠ none) (hnd : (comps.map Comp.name).Nodup) (hs : SameReference comps) (hf : 1 ≤ fuel) :
    ∃ s, runScript toM fuel (render cat comps) = .ok s ∧ s.placed.map (·.1) = (comps.map Comp.name).reverse ∧
      ∀ reg, Describes comps reg → ∀ n p o, (n, p, o) ∈ s.placed → HasPos toM reg none n p ∧ HasOri toM reg none n (o.matrix toM) := by
  obtain ⟨k, rfl⟩ : ∃ k, fuel = k + 1 := ⟨fuel - 1, by omega⟩
  obtain ⟨s, h1, hi⟩ := exec_all (fuel := k) (cat := cat) comps [] _ (inv_empty toM) hcat (by simpa using hnd) (by simpa using hs)
  rw [List.nil_append] at hi
  refine ⟨s, h1, hi.names, ?_⟩
  intro reg hd n p o hm
  have hsub : ∀ e r, s.geo.reg e = some r → reg e = some r := by
    intro e r he
    obtain ⟨c, hc, rfl⟩ := hi.fresh e (by rw [he]; simp)
    obtain ⟨p1, o1, a1, a2, a3⟩ := hi.reg c hc
    obtain ⟨p2, o2, b1, b2, b3⟩ := hd c hc
    rw [a3] at he
    rw [b3, ← he, coords_unique a1 b1, coords_unique a2 b2]
  obtain ⟨q1, q2⟩ := hi.placed _ hm
  exact ⟨q1.mono hsub, q2.mono hsub⟩

/-- for the examples: a quarter turn about the vertical, everything else is the identity -/
def exToM (v : V3 ℚ) : M3 ℚ := if v = ⟨0, 90, 0⟩ then ⟨⟨0, 0, -1⟩, ⟨0, 1, 0⟩, ⟨1, 0, 0⟩⟩ else M3.one

/-- for the examples -/
def exCat (t : Txt) : Option Txt := if t = "Arm".toList then some "optics".toList else none

/-- the script for a file and its result -/
def scriptOf (text : String) : Except Err (Script ℚ) := runScript exToM 1000 (render exCat (parse exFloat text.toList))

/-- two arms, the second relative to the first -/
def exTwo : List (Comp ℚ) :=
  parse exFloat "COMPONENT a = Arm()\nAT (0, 0, 2) ABSOLUTE\nROTATED (0, 90, 0) ABSOLUTE\nCOMPONENT b = Arm()\nAT (0, 0, 1) RELATIVE a\n".toList

/-- what the file says -/
theorem exTwo_eq : exTwo = [⟨"a".toList, "Arm".toList, [], .absolute (.num 0, .num 0, .num 2), .absolute (.num 0, .num 90, .num 0)⟩,
    ⟨"b".toList, "Arm".toList, [], .relative (.num 0, .num 0, .num 1) "a".toList, .relative (.num 0, .num 0, .num 0) "a".toList⟩] := by decide +kernel

example : (∀ c ∈ exTwo, exCat c.type ≠ none) ∧ (exTwo.map Comp.name).Nodup ∧ SameReference exTwo ∧
    ((runScript exToM 1000 (render exCat exTwo)).toOption.map fun s => s.placed.map fun e => (e.1, e.2.1)) =
      some [("b".toList, ⟨1, 0, 2⟩), ("a".toList, ⟨0, 0, 2⟩)] := by
  refine ⟨by decide +kernel, by decide +kernel, ?_, by decide +kernel⟩
  rw [exTwo_eq]
  intro l1 c l2 h
  rcases l1 with _ | ⟨d1, _ | ⟨d2, _ | ⟨d3, l1⟩⟩⟩
  · simp only [List.nil_append, List.cons.injEq] at h
    rw [← h.1]
    exact .inl ⟨_, _, .absolute _ _ _, .absolute _ _ _⟩
  · simp only [List.cons_append, List.nil_append, List.cons.injEq] at h
    obtain ⟨rfl, rfl, -⟩ := h
    exact .inr ⟨_, _, _, .relative _ _ _ _ (by decide), .relative _ _ _ _ (by decide), List.mem_cons_self⟩
  · simp at h
  · simp at h

/-- **C271** (negation) The reference of the orientation is that of the position, whatever `ROTATED` says: a component relative to a turned arm,
`ROTATED (0, 0, 0) ABSOLUTE`, is turned. -/
theorem C271_reference_false : ∃ (s : Script ℚ) (p : V3 ℚ) (o : Ori ℚ),
    let comps := parse exFloat
      "COMPONENT a = Arm()\nAT (0, 0, 2) ABSOLUTE\nROTATED (0, 90, 0) ABSOLUTE\nCOMPONENT b = Arm()\nAT (0, 0, 1) RELATIVE a\nROTATED (0, 0, 0) ABSOLUTE\n".toList
    runScript exToM 1000 (render exCat comps) = .ok s ∧ ("b".toList, p, o) ∈ s.placed ∧
      ∀ reg, Describes comps reg → ¬ HasOri exToM reg none "b".toList (o.matrix exToM) := by
  have hcomps : parse exFloat
      "COMPONENT a = Arm()\nAT (0, 0, 2) ABSOLUTE\nROTATED (0, 90, 0) ABSOLUTE\nCOMPONENT b = Arm()\nAT (0, 0, 1) RELATIVE a\nROTATED (0, 0, 0) ABSOLUTE\n".toList =
      [⟨"a".toList, "Arm".toList, [], .absolute (.num 0, .num 0, .num 2), .absolute (.num 0, .num 90, .num 0)⟩,
       ⟨"b".toList, "Arm".toList, [], .relative (.num 0, .num 0, .num 1) "a".toList, .absolute (.num 0, .num 0, .num 0)⟩] := by decide +kernel
  simp only [hcomps]
  refine ⟨_, _, _, rfl, List.mem_cons_self, ?_⟩
  intro reg hd h
  obtain ⟨p, o, h1, h2, h3⟩ := hd ⟨"b".toList, "Arm".toList, [], .relative (.num 0, .num 0, .num 1) "a".toList, .absolute (.num 0, .num 0, .num 0)⟩ (by simp)
  cases h2
  have := h.unique _ (HasOri.absolute h3)
  revert this
  decide +kernel

/-- **C271** (negation) `RELATIVE PREVIOUS`: the script refers to a variable `previous` that does not exist. -/
theorem C271_previous_false : (match scriptOf
      "COMPONENT a = Arm()\nAT (0, 0, 2) ABSOLUTE\nCOMPONENT b = Arm()\nAT (0, 0, 1) RELATIVE PREVIOUS\n" with
    | .error e => some e | .ok _ => none) = some .nameError := by decide +kernel

/-- **C271** (negation) A position that could not be read is the origin. -/
theorem C271_origin_false : (match scriptOf "COMPONENT a = Arm()\nAT(0, 0, 2) ABSOLUTE\n" with
    | .error _ => none | .ok s => some (s.placed.map fun e => (e.1, e.2.1))) = some [("a".toList, ⟨0, 0, 0⟩)] := by decide +kernel

/-! ### C272 -/

/-- **C272** In the inventory position and orientation keep their vectors and their own references; what could not be read is an error. -/
theorem C272_coord (P : Place F) : (∀ v, P = .nowhere v → coord P = .error .attributeError) ∧
    (∀ v, P = .absolute v → coord P = .ok (.absolute v)) ∧
    (∀ v, P = .relative v "previous".toList → coord P = .ok (.relative v .previous)) ∧
    (∀ v r, P = .relative v r → r ≠ "previous".toList → coord P = .ok (.relative v (.elem r))) := by
  refine ⟨?_, ?_, ?_, ?_⟩
  · rintro v rfl; rfl
  · rintro v rfl; rfl
  · rintro v rfl; simp only [coord, if_true]
  · rintro v r rfl h; simp only [coord, h, if_false]

example : coord (.relative ((.num 1, .num 2, .text "L".toList) : Vec ℚ) "a".toList) =
    .ok (.relative (.num 1, .num 2, .text "L".toList) (.elem "a".toList)) := (C272_coord _).2.2.2 _ _ rfl (by decide)

/-- **C272** Texts that are expressions of the parameters are replaced by their values, wherever they are.  Missing: that names, types and
references are left alone. -/
theorem C272_values_partial {V : Type} (eval : Txt → Option (PyVal V)) (x : PyVal V) : Replaced eval x (propagate eval x) := propagate_replaced eval x

/-- for the examples: the parameter `L1` of the instrument, and `filter`, a function of python -/
def exEval (s : Txt) : Option (PyVal String) :=
  if s = "L1".toList then some (.other "12.5") else if s = "filter".toList then some (.other "<class 'filter'>") else none

example : propagate exEval (.dict [("position".toList, .tuple [.tuple [.other "0", .other "0", .text "L1".toList], .text "relative".toList, .text "src".toList])]) =
    .dict [("position".toList, .tuple [.tuple [.other "0", .other "0", .other "12.5"], .text "relative".toList, .text "src".toList])] := by
  simp [propagate, exEval]

/-- **C272** (negation) A component with the name of a function of python, like `filter`, loses its name. -/
theorem C272_names_false : propagate exEval (.dict [("name".toList, .text "filter".toList), ("type".toList, .text "Slit".toList)]) =
    .dict [("name".toList, .other "<class 'filter'>"), ("type".toList, .text "Slit".toList)] := by
  simp [propagate, exEval]

end Verif.McInstr
