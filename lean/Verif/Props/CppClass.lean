import Verif.Lemmas.CppClass
/-!
Properties of the class that is made for a component of McStas (`component2cppClass.py`).
-/

namespace Verif.CppClass

/-- C337 (partial): declarations of variables whose type is one word with a space after it become the members that C means: each variable in
order, with its type and its stars.  Missing: types of several words, types with a star or a tab after them, comments. -/
theorem C337_partial {s : Text} {ds : List (Text × List Declarator)} (h : SectionText s ds) :
    parse s = .ok (ds.flatMap fun d => d.2.map (meant d.1)) := section_ok h

/-- a section with two declarations -/
theorem section_example : SectionText "\n  double x, * p;\n  int n[3] ;\n".toList
    [("double".toList, [⟨0, "x".toList⟩, ⟨1, "p".toList⟩]), ("int".toList, [⟨0, "n[3]".toList⟩])] := by
  refine ⟨["\n  double x, * p".toList, "\n  int n[3] ".toList], "\n".toList, by unfold Blank; decide, ?_, by decide⟩
  refine .cons ?_ (.cons ?_ .nil)
  · refine ⟨by unfold Word; decide, by simp, "\n  ".toList, ["x".toList, " * p".toList], by unfold Blank; decide, ?_, by decide⟩
    refine .cons ⟨by unfold Word; decide, [], [], [], ?_, ?_, ?_, by decide⟩
      (.cons ⟨by unfold Word; decide, [' '], [' '], [], ?_, ?_, ?_, by decide⟩ .nil) <;> (unfold Blank; decide)
  · refine ⟨by unfold Word; decide, by simp, "\n  ".toList, ["n[3] ".toList], by unfold Blank; decide, ?_, by decide⟩
    refine .cons ⟨by unfold Word; decide, [], [], [' '], ?_, ?_, ?_, by decide⟩ .nil <;> (unfold Blank; decide)

example : parse "\n  double x, * p;\n  int n[3] ;\n".toList =
    .ok [⟨"double".toList, "x".toList⟩, ⟨"double*".toList, "p".toList⟩, ⟨"int".toList, "n[3]".toList⟩] := by
  rw [C337_partial section_example]
  decide

/-- C337 is false for a type of two words: the second variable of `long double a, b` becomes a `long` -/
theorem C337_words_false : parse "long double a, b;".toList =
    .ok [⟨"long".toList, "double a".toList⟩, ⟨"long".toList, "b".toList⟩] := by decide

example : ("long".toList : Text) ≠ "long double".toList := by decide

/-- C337 is false for a star at the type: the second variable of `char* a, b` becomes a pointer -/
theorem C337_star_false : parse "char* a, b;".toList =
    .ok [⟨"char*".toList, "a".toList⟩, ⟨"char*".toList, "b".toList⟩] := by decide

/-- `char* a, b` in C -/
example : meant "char".toList ⟨0, "b".toList⟩ ≠ ⟨"char*".toList, "b".toList⟩ := by decide

/-- C337 is false with a comment of one line before a declaration: the type is taken to be `//`, and the second variable becomes the
comment `// c;` in the class -/
theorem C337_comment_false : parse "int a; // width\nint b, c;".toList =
    .ok [⟨"int".toList, "a".toList⟩, ⟨"//".toList, "width\nint b".toList⟩, ⟨"//".toList, "c".toList⟩] := by decide

example : ("//".toList : Text) ≠ "int".toList := by decide

/-- C337 is false with a tab after the type: the declaration is refused -/
theorem C337_tab_false : parse "double\tx;".toList = .error .runtimeError := by decide

example : parse "double x;".toList = .ok [⟨"double".toList, "x".toList⟩] := by decide

/-- C338 (partial): of the declared variables exactly those with the name of an output parameter are public, and the rest is private.
Missing: arrays, whose name is taken with their size. -/
theorem C338_partial {s : Text} {ds : List (Text × List Declarator)} (h : SectionText s ds) (outputs : List Text) :
    ∃ ms, parse s = .ok ms ∧ ∀ d ∈ ds, ∀ v ∈ d.2,
      (v.name ∈ outputs → meant d.1 v ∈ publicMembers outputs ms ∧ meant d.1 v ∉ privateMembers outputs ms) ∧
      (v.name ∉ outputs → meant d.1 v ∈ privateMembers outputs ms ∧ meant d.1 v ∉ publicMembers outputs ms) := by
  refine ⟨_, section_ok h, fun d hd v hv => ?_⟩
  have hm : meant d.1 v ∈ ds.flatMap fun d => d.2.map (meant d.1) :=
    List.mem_flatMap.2 ⟨d, hd, List.mem_map.2 ⟨v, hv, rfl⟩⟩
  refine ⟨fun ho => ⟨mem_public.2 ⟨hm, ho⟩, fun hp => (mem_private.1 hp).2 ho⟩,
    fun ho => ⟨mem_private.2 ⟨hm, ho⟩, fun hp => ho (mem_public.1 hp).2⟩⟩

example : ∃ ms, parse "\n  double x, * p;\n  int n[3] ;\n".toList = .ok ms ∧
    (⟨"double*".toList, "p".toList⟩ : Member) ∈ publicMembers ["p".toList] ms := by
  obtain ⟨ms, e, h⟩ := C338_partial section_example ["p".toList]
  exact ⟨ms, e, ((h _ List.mem_cons_self ⟨1, "p".toList⟩ (by simp)).1 (by simp)).1⟩

/-- C338 is false for an array: an output parameter that is an array becomes a private member -/
theorem C338_false : ∃ ms, parse "double a[3], b;".toList = .ok ms ∧
    publicMembers ["a".toList, "b".toList] ms = [⟨"double".toList, "b".toList⟩] ∧
    privateMembers ["a".toList, "b".toList] ms = [⟨"double".toList, "a[3]".toList⟩] :=
  ⟨[⟨"double".toList, "a[3]".toList⟩, ⟨"double".toList, "b".toList⟩], by decide, by decide, by decide⟩

example : (⟨"double".toList, "a[3]".toList⟩ : Member) ∉ publicMembers ["a".toList] [⟨"double".toList, "a[3]".toList⟩] := by decide

/-- C339 (partial): when no parameter has the name of the argument of another one, the members have the values of the arguments of the
constructor before the text of `INITIALIZE`, and no other member was touched.  Missing: parameters with such names. -/
theorem C339_partial {V : Type} (ps : List Text) (val : Text → V) (s : State V) (hname : "name".toList ∉ ps)
    (hclash : ∀ p ∈ ps, ∀ q ∈ ps, p ≠ "in_".toList ++ q)
    (hval : ∀ p ∈ ps, s.args ("in_".toList ++ p) = some (val p))
    (honly : ∀ n, s.args n ≠ none → n = "name".toList ∨ ∃ p ∈ ps, n = "in_".toList ++ p) :
    ∃ args as, ctor ("name".toList :: ps) = .ok (args, as) ∧ args = "name".toList :: ps.map ("in_".toList ++ ·) ∧
      (∀ p ∈ ps, (assignAll s as).members p = some (val p)) ∧
      (∀ n, n ∉ ps → (assignAll s as).members n = s.members n) ∧ (assignAll s as).args = s.args := by
  have key := assignAll_ok (val := val) (ps := ps) (s := s) (fun p hp => by
    by_contra hne
    rcases honly p hne with rfl | ⟨q, hq, e⟩
    · exact hname hp
    · exact hclash p hp q hq e) hval
  refine ⟨"name".toList :: ps.map argName, transfers ps, by rw [ctor, if_neg (by simp)], rfl, fun p hp => ?_, fun n hn => ?_, key.1⟩
  · rw [key.2 p, if_pos hp]
  · rw [key.2 n, if_neg hn]

/-- a state with the arguments of two parameters -/
def started : State Nat :=
  ⟨fun n => if n = "in_x".toList then some 5 else if n = "in_y".toList then some 7 else none, fun _ => none⟩

example : ∃ args as, ctor ["name".toList, "x".toList, "y".toList] = .ok (args, as) ∧
    (assignAll started as).members "x".toList = some 5 ∧ (assignAll started as).members "y".toList = some 7 := by
  obtain ⟨args, as, h1, -, h2, -⟩ := C339_partial ["x".toList, "y".toList] (fun p => if p = "x".toList then 5 else 7) started
    (by decide) (by decide) (by decide) (by
      intro n hn
      unfold started at hn
      by_cases e1 : n = "in_x".toList
      · exact .inr ⟨"x".toList, by simp, e1⟩
      by_cases e2 : n = "in_y".toList
      · exact .inr ⟨"y".toList, by simp, e2⟩
      · simp only [if_neg e1, if_neg e2] at hn
        exact absurd rfl hn)
  exact ⟨args, as, h1, h2 _ (by simp), h2 _ (by simp)⟩

/-- C339 is false for the parameters `x` and `in_x`: `in_x = in_in_x;` assigns the argument of `x`, and the member `in_x` has no value -/
theorem C339_false :
    let s : State Nat := ⟨fun n => if n = "in_x".toList then some 5 else if n = "in_in_x".toList then some 7 else none, fun _ => none⟩
    ∃ args as, ctor ["name".toList, "x".toList, "in_x".toList] = .ok (args, as) ∧
      (assignAll s as).members "x".toList = some 5 ∧ (assignAll s as).members "in_x".toList = none :=
  ⟨_, _, rfl, by decide, by decide⟩

example : ("in_x".toList : Text) = "in_".toList ++ "x".toList := by decide

end Verif.CppClass
