import Verif.Lemmas.FactoryPy
/-!
Properties of the python module that is made for a component of McStas (`factorymethod_py.py`).
-/

namespace Verif.FactoryPy

/-- the module starts without variables that matter -/
def start : Env := fun _ => none

/-- C340 (partial): the lines written for the information about a component rebuild it when the module is imported.  Missing: texts that cannot stand between three
quotes, `None`, other classes, lists within lists. -/
theorem C340_partial {v : Val} (h : Fine false v) (env : Env) :
    ∃ env', run env (inst2str "info".toList v) = .ok env' ∧ env' "info".toList = some v := by
  obtain ⟨e, h1, h2, -⟩ := good h "info".toList env fun _ => info_apart
  exact ⟨e, h1, h2⟩

/-- a component with two parameters -/
def sample : Val := .obj "ComponentInfo".toList [("declare".toList, .str "double a;".toList),
  ("input_parameters".toList, .list [.obj "Parameter".toList [("default".toList, .num 3), ("name".toList, .str "xmin".toList)],
    .obj "Parameter".toList [("default".toList, .num 0), ("name".toList, .str "the \"end\" x".toList)]]),
  ("state_parameters".toList, .list [.str "x".toList, .str "y".toList])]

theorem quotable_of {s : Text} (h1 : '\\' ∉ s) (h2 : s.count '"' ≤ 2) (h3 : s.getLast? ≠ some '"') : Quotable s := by
  refine ⟨h1, ?_, h3⟩
  rintro x y rfl
  simp [List.count_append] at h2
  omega

theorem sample_fine : Fine false sample := by
  refine .obj _ (.inl rfl) (by decide) (by simp) ?_
  intro p hp
  simp only [List.mem_cons, List.not_mem_nil, or_false] at hp
  rcases hp with rfl | rfl | rfl
  · exact .str _ (quotable_of (by decide) (by decide) (by decide))
  · refine .list fun x hx => ?_
    simp only [List.mem_cons, List.not_mem_nil, or_false] at hx
    rcases hx with rfl | rfl
    all_goals
      refine .obj _ (.inr rfl) (by decide) (by simp) fun p hp => ?_
      simp only [List.mem_cons, List.not_mem_nil, or_false] at hp
      rcases hp with rfl | rfl
    · exact .num _ _
    · exact .str _ (quotable_of (by decide) (by decide) (by decide))
    · exact .num _ _
    · exact .str _ (quotable_of (by decide) (by decide) (by decide))
  · refine .list fun x hx => ?_
    simp only [List.mem_cons, List.not_mem_nil, or_false] at hx
    rcases hx with rfl | rfl <;> exact .str _ (quotable_of (by decide) (by decide) (by decide))

example : ∃ env', run start (inst2str "info".toList sample) = .ok env' ∧ env' "info".toList = some sample := C340_partial sample_fine start

/-- C340 is false for a text with a backslash, as in any `printf` of a component: `\n` becomes a new line -/
theorem C340_backslash_false : ∃ env', run start (inst2str "info".toList (.str ['%', 'g', '\\', 'n'])) = .ok env' ∧
    env' "info".toList = some (.str ['%', 'g', '\n']) := by
  refine ⟨start.put "info".toList (.str ['%', 'g', '\n']), ?_, put_same ..⟩
  rw [inst2str, run, step]
  rfl

example : (['%', 'g', '\n'] : Text) ≠ ['%', 'g', '\\', 'n'] := by decide

/-- C340 is false for a text with a quote at its end, e.g. the description of a parameter: the module cannot be imported -/
theorem C340_quote_false : run start (inst2str "info".toList (.str "name of \"file\"".toList)) = .error .valueError := by
  rw [inst2str, run, step]
  rfl

example : ("name of \"file\"".toList).getLast? = some '"' := by decide

/-- C340 is false for a list within a list, whose items have the names of the outer items: `[5, [1, 2]]` becomes `[1, [1, 2]]` -/
theorem C340_nested_false : ∃ env', run start (inst2str "info".toList (.list [.num 5, .list [.num 1, .num 2]])) = .ok env' ∧
    env' "info".toList = some (.list [.num 1, .list [.num 1, .num 2]]) := by
  simp only [inst2str, items, List.length_cons, List.length_nil]
  exact ⟨_, rfl, rfl⟩

example : (Val.num 5) ≠ .num 1 := by simp

/-- C340 is false for an object in a list which has a list: the object is overwritten by an item of its list, and the module cannot be imported -/
theorem C340_object_false : run start (inst2str "info".toList (.list [.obj "Parameter".toList [("range".toList, .list [.num 1, .num 2])]])) =
    .error .attributeError := by
  simp only [inst2str, items, attributes, List.length_cons, List.length_nil]
  rfl

example : item 0 = "item0".toList := by decide

/-- C340 is false for `None`: the name `NoneType` is not known -/
theorem C340_none_false : run start (inst2str "info".toList .none) = .error .nameError := by
  rw [inst2str, run, step]
  rfl

example : "NoneType".toList ∉ known := by decide

variable {V : Type}

/-- C341 (partial): the constructor gets for every parameter, in their order, the value that the user gave or else its default.  Missing: parameters that have the
names of imports in the factory, of words of python, or the same name. -/
theorem C341_partial (other : Text → V) (params : List (Text × V)) (args : List V) (kw : List (Text × V)) (hn : (params.map Prod.fst).Nodup)
    (hw : ∀ p ∈ params, p.1 ∉ keywords)
    (hi : ∀ p ∈ params, p.1 ≠ "boostpython".toList ∧ p.1 ≠ "component".toList ∧ p.1 ≠ "_factory_mcvine".toList)
    (hl : args.length ≤ params.length) (hk : ∀ k ∈ kw, k.1 ∈ params.map Prod.fst)
    (hd : ∀ p ∈ params.take args.length, p.1 ∉ kw.map Prod.fst) :
    factory other params args kw = .ok ((List.range params.length).map (given params args kw)) := by
  obtain ⟨vs, e1, e2, e3⟩ := bind_ok kw hl hd
  have hw' : ¬ ∃ p ∈ params, p.1 ∈ keywords := fun ⟨p, hp, h⟩ => hw p hp h
  have hk' : ¬ ∃ k ∈ kw, k.1 ∉ params.map Prod.fst := fun ⟨k, hm, h⟩ => h (hk k hm)
  rw [factory, if_neg (not_not_intro hn), if_neg hw', if_neg hk', e1, ← e3, ← lookup_zip hn (by simpa using e2), List.map_map]
  refine congrArg Except.ok (List.map_congr_left fun p hp => ?_)
  have h := hi p hp
  exact if_neg fun hh => hh.elim h.1 fun hh => hh.elim h.2.1 h.2.2

example : factory (fun _ => 99) [("name".toList, 0), ("xmin".toList, 1), ("xmax".toList, 2)] [7] [("xmax".toList, 5)] =
    .ok [some 7, some 1, some 5] := by
  rw [C341_partial _ _ _ _ (by decide) (by decide) (by decide) (by decide) (by decide) (by decide)]
  decide

/-- C341: too many values, unknown names and values that are given twice are refused -/
theorem C341_refused (other : Text → V) (params : List (Text × V)) (args : List V) (kw : List (Text × V)) (hn : (params.map Prod.fst).Nodup)
    (hw : ∀ p ∈ params, p.1 ∉ keywords)
    (h : params.length < args.length ∨ (∃ k ∈ kw, k.1 ∉ params.map Prod.fst) ∨ ∃ p ∈ params.take args.length, p.1 ∈ kw.map Prod.fst) :
    factory other params args kw = .error .typeError := by
  rw [factory, if_neg (not_not_intro hn), if_neg fun ⟨p, hp, h⟩ => hw p hp h]
  by_cases hk : ∃ k ∈ kw, k.1 ∉ params.map Prod.fst
  · rw [if_pos hk]
  · rw [if_neg hk, bind_refused (h.imp id fun h => h.resolve_left hk)]

example : factory (fun _ => 99) [("name".toList, 0), ("xmin".toList, 1)] [7, 8] [("xmin".toList, 5)] = .error .typeError :=
  C341_refused _ _ _ _ (by decide) (by decide) (.inr (.inr ⟨("xmin".toList, 1), by simp, by simp⟩))

/-- C341 is false for a parameter called `component`: the import in the factory overwrites its value -/
theorem C341_component_false : factory (fun _ => 99) [("name".toList, 0), ("component".toList, 1)] [7, 8] [] = .ok [some 7, some 99] := by decide

example : given [("name".toList, 0), ("component".toList, 1)] [7, 8] [] 1 = some 8 := by decide

/-- C341 is false for a parameter called `lambda`, a usual name for a wavelength: the module is not python -/
theorem C341_lambda_false : factory (fun _ => 99) [("name".toList, 0), ("lambda".toList, 1)] [7, 8] [] = .error .valueError := by decide

example : given [("name".toList, 0), ("lambda".toList, 1)] [7, 8] [] 1 = some 8 := by decide

/-- C341 is false for a component with a parameter `name` of its own, since one is put before the others (`parsers/__init__.py:34-35`): the module is not python -/
theorem C341_name_false : factory (fun _ => 99) [("name".toList, 0), ("name".toList, 1)] [7, 8] [] = .error .valueError := by decide

example : given [("name".toList, 0), ("name".toList, 1)] [7, 8] [] 1 = some 8 := by decide

end Verif.FactoryPy
