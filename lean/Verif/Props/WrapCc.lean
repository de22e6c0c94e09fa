import Verif.Lemmas.WrapCc
/-!
Properties of the bindings of components to python (C355, C356).
-/

namespace Verif.WrapCc

open CppClass (Text Member)
open Spec

/-- **C355**: if all arguments of the constructor have known types, then exactly those that are texts are kept alive as long as the component: there are no policies if there is no text, and otherwise the
policies are nested ones for the numbers of the texts, in increasing order. -/
theorem C355_wards (args : List Member) (h : ∀ a ∈ args, Known a.type) :
    ∃ l : List Nat, l.Pairwise (· < ·) ∧ (∀ i, i ∈ l ↔ IsText args i) ∧
      (l = [] → policies args = .ok []) ∧ (l ≠ [] → ∃ t, Nested l t ∧ policies args = .ok ("[".toList ++ t ++ "()]".toList)) := by
  obtain ⟨l, hl, hp, hm⟩ := needWards_ok args 0 h
  refine ⟨l, hp, hm, ?_, ?_⟩
  · rintro rfl
    simp [policies, hl, Except.map]
  · intro hne
    refine ⟨_, nested_text l hne, ?_⟩
    simp [policies, hl, Except.map, hne]

/-- the arguments of a monitor -/
def argsExample : List Member := [⟨"int".toList, "nchan".toList⟩, ⟨"char *".toList, "filename".toList⟩, ⟨"double".toList, "xmin".toList⟩, ⟨"const char *".toList, "options".toList⟩]

example : ∀ a ∈ argsExample, Known a.type := by
  intro a ha
  rw [← mem_types]
  exact (by decide : ∀ a ∈ argsExample, a.type ∈ types) a ha

example : (policies argsExample).map String.ofList = .ok "[with_custodian_and_ward<1, 3,\nwith_custodian_and_ward<1, 5> > ()]" := by decide +kernel

/-- **C355**: with an argument of any other type there is no binding. -/
theorem C355_unknown (klass : Text) (args members : List Member) (a : Member) (ha : a ∈ args) (hk : ¬ Known a.type) :
    generate klass args members = .error .notImplemented := by
  simp [generate, policies, needWards_unknown args 0 ⟨a, ha, hk⟩, Except.map, Except.bind]

example : ¬ Known "long".toList := by rw [← mem_types]; decide

/-- **C355**: the constructor has the types of the arguments, in their order. -/
theorem C355_args (klass : Text) (args members : List Member) (c : Content) (h : generate klass args members = .ok c) (hne : args ≠ []) :
    Facility.splitAll ',' c.ctorArgs = args.map (·.type) := by
  have hk : ∀ a ∈ args, Known a.type := by
    intro a ha
    by_contra hn
    rw [C355_unknown klass args members a ha hn] at h
    cases h
  rw [(generate_ok h).2.1]
  refine split_join _ (by simpa using hne) ?_
  intro t ht
  obtain ⟨a, ha, rfl⟩ := List.mem_map.1 ht
  exact (by decide : ∀ t ∈ types, ',' ∉ t) _ ((mem_types _).2 (hk a ha))

example : ∃ c, generate "M".toList argsExample [⟨"double*".toList, "p".toList⟩] = .ok c ∧ argsExample ≠ [] := by
  have h : (generate "M".toList argsExample [⟨"double*".toList, "p".toList⟩]).toBool = true := by decide +kernel
  cases hg : generate "M".toList argsExample [⟨"double*".toList, "p".toList⟩] with
  | error e => rw [hg] at h; cases h
  | ok c => exact ⟨c, rfl, by decide⟩

/-- **C356** (partial): a public member of a type of C for one number, or one that points to something other than characters and pointers, can be read in python: as an attribute, or as the address that a
method gives. Missing: the other types, see `C356_false`. -/
theorem C356_partial (klass : Text) (args members : List Member) (c : Content) (h : generate klass args members = .ok c) (m : Member) (hm : m ∈ members) :
    ((m.type = "double".toList ∨ m.type = "int".toList ∨ m.type = "float".toList ∨ m.type = "char".toList) → IsLine (attributeLine m) c.exposeDatamembers) ∧
    (∀ t : Text, m.type = t ++ ['*'] → t.getLast? ≠ some '*' → ¬ "char".toList <+: m.type → IsLine (methodLine m) c.exposePtrmethods ∧ IsLine (functionLine klass m) c.ptrmethods) := by
  obtain ⟨_, _, hd, hp, he⟩ := generate_ok h
  constructor
  · intro ht
    rw [hd]
    have e : attributeLine m = readonlyLine m := attributeLine_eq m
    rw [e]
    refine join_line _ _ (List.mem_map.2 ⟨m, List.mem_filter.2 ⟨hm, ?_⟩, rfl⟩)
    rcases ht with ht | ht | ht | ht <;> simp [ispointer, isofbasictype, ht]
  · intro t ht hl hc
    have hmem : m ∈ ptrsHavingAccessor (members.filter ispointer) := by
      refine List.mem_filter.2 ⟨List.mem_filter.2 ⟨hm, ?_⟩, ?_⟩
      · simp only [ispointer, Bool.and_eq_true, decide_eq_true_eq, Bool.not_eq_true', ← Bool.not_eq_true, List.isPrefixOf_iff_prefix]
        exact ⟨by rw [ht]; simp, hc⟩
      · rw [ht]
        simp only [List.reverse_append, List.reverse_cons, List.reverse_nil, List.nil_append, List.singleton_append, decide_eq_true_eq]
        intro e
        rw [List.getLast?_eq_head?_reverse] at hl
        cases hr : t.reverse with
        | nil => rw [hr] at e; simp at e
        | cons x r => rw [hr] at e hl; simp at e hl; exact hl e
    rw [hp, he]
    have e1 : methodLine m = exposePtrmethod m := methodLine_eq m
    have e2 : functionLine klass m = ptrmethod klass m := functionLine_eq klass m
    rw [e1, e2]
    exact ⟨join_line _ _ (List.mem_map.2 ⟨m, hmem, rfl⟩), join_line _ _ (List.mem_map.2 ⟨m, hmem, rfl⟩)⟩

/-- the members of a monitor -/
def membersExample : List Member := [⟨"int".toList, "nchan".toList⟩, ⟨"char *".toList, "filename".toList⟩, ⟨"double*".toList, "PSD_p".toList⟩, ⟨"double**".toList, "grid".toList⟩,
  ⟨"long".toList, "count".toList⟩]

example : (generate "M".toList [] membersExample).map (fun c => (String.ofList c.exposeDatamembers, String.ofList c.exposePtrmethods)) =
    .ok ("    .def_readonly( \"nchan\", &w_t::nchan )", "    .def( \"getPSD_p\", getPSD_p)") := by decide +kernel

example : "double*".toList = "double".toList ++ ['*'] ∧ "double".toList.getLast? ≠ some '*' ∧ ¬ "char".toList <+: "double*".toList := by decide +kernel

/-- **C356**: only what is there is made readable: every line for python belongs to a public member, and no member of a pointer type is made an attribute. -/
theorem C356_only (klass : Text) (args members : List Member) (c : Content) (h : generate klass args members = .ok c) :
    ∃ data ptrs : List Member, data ⊆ members ∧ ptrs ⊆ members ∧ (∀ m ∈ data, m.type.getLast? ≠ some '*') ∧ (∀ m ∈ ptrs, m.type.getLast? = some '*') ∧
      c.exposeDatamembers = join ['\n'] (data.map attributeLine) ∧ c.exposePtrmethods = join ['\n'] (ptrs.map methodLine) ∧ c.ptrmethods = join ['\n'] (ptrs.map (functionLine klass)) := by
  obtain ⟨_, _, hd, hp, he⟩ := generate_ok h
  refine ⟨members.filter fun m => !ispointer m && isofbasictype m, ptrsHavingAccessor (members.filter ispointer), fun m hm => (List.mem_filter.1 hm).1, fun m hm => (List.mem_filter.1 (List.mem_filter.1 hm).1).1, ?_, ?_, ?_, ?_, ?_⟩
  · intro m hm
    have h2 := (List.mem_filter.1 hm).2
    simp only [Bool.and_eq_true, isofbasictype, decide_eq_true_eq] at h2
    exact (by decide : ∀ t ∈ ["double".toList, "int".toList, "float".toList, "char".toList], t.getLast? ≠ some '*') _ h2.2
  · intro m hm
    have h2 := (List.mem_filter.1 (List.mem_filter.1 hm).1).2
    simp only [ispointer, Bool.and_eq_true, decide_eq_true_eq] at h2
    exact h2.1
  · rw [hd]; congr 2; funext m; exact (attributeLine_eq m).symm
  · rw [he]; congr 2; funext m; exact (methodLine_eq m).symm
  · rw [hp]; congr 2; funext m; exact (functionLine_eq klass m).symm

/-- **C356** is false for other types: a text (`char *`), a pointer to pointers, or a number of any other type such as `long` or `unsigned` leaves no trace in the binding; python cannot read it, and
there is no message. -/
theorem C356_false (klass : Text) (args before after : List Member) (m : Member)
    (h : m.type = "char *".toList ∨ m.type = "char*".toList ∨ m.type = "double**".toList ∨ m.type = "long".toList ∨ m.type = "unsigned".toList ∨ m.type = "double&".toList) :
    generate klass args (before ++ m :: after) = generate klass args (before ++ after) := by
  have h1 : (!ispointer m && isofbasictype m) = false := by
    rcases h with h | h | h | h | h | h <;> simp [ispointer, isofbasictype, h]
  have h2 : ispointer m = false ∨ m.type.reverse.take 2 = ['*', '*'] := by
    rcases h with h | h | h | h | h | h <;> simp [ispointer, h]
  have h3 : (m.type = []) = False := by
    rcases h with h | h | h | h | h | h <;> simp [h]
  unfold generate
  have e1 : (before ++ m :: after).filter (fun m => !ispointer m && isofbasictype m) = (before ++ after).filter fun m => !ispointer m && isofbasictype m := by
    simp [List.filter_append, List.filter_cons, h1]
  have e2 : ptrsHavingAccessor ((before ++ m :: after).filter ispointer) = ptrsHavingAccessor ((before ++ after).filter ispointer) := by
    rcases h2 with h2 | h2
    · simp [List.filter_append, List.filter_cons, h2]
    · cases hp : ispointer m <;> simp [ptrsHavingAccessor, List.filter_append, List.filter_cons, h2, hp]
  rw [e1, e2]
  simp [h3]

example : CppClass.parse "double **grid; char *name; long count;".toList =
    .ok [⟨"double**".toList, "grid".toList⟩, ⟨"char*".toList, "name".toList⟩, ⟨"long".toList, "count".toList⟩] := by decide +kernel

end Verif.WrapCc
