import Verif.Lemmas.Elementary
/-!
Properties of the pyre component made for a component of McStas (C346, C347).
-/

namespace Verif.Elementary

open Spec

variable {V : Type}

/-- **C346** (partial): a component whose parameters have different names, none of which means something in the body of the class, and types of the table, has exactly its parameters for
settings, each with its type, default and description. Missing: the names of the body, see `C346_arg_false` and `C346_pinv_false`. -/
theorem C346_partial (args : List (Arg V)) (hf : ∀ a ∈ args, Free a.name) (hd : (args.map Arg.name).Nodup)
    (ht : ∀ a ∈ args, ∃ t, TypeOf a.type t) : ∃ ns, inventory args = .ok ns ∧ Settings args ns :=
  inventory_good args hf hd ht

/-- two parameters of an arm -/
def sample : List (Arg Nat) := [⟨"xwidth", "double", 3, "width"⟩, ⟨"filename", "char *", 7, "file"⟩]

example : (∀ a ∈ sample, Free a.name) ∧ (sample.map Arg.name).Nodup ∧ ∀ a ∈ sample, ∃ t, TypeOf a.type t := by
  refine ⟨by unfold sample Free; simp, by unfold sample; simp, ?_⟩
  intro a ha
  unfold sample at ha
  simp only [List.mem_cons, List.not_mem_nil, or_false] at ha
  rcases ha with rfl | rfl
  · exact ⟨_, .double⟩
  · exact ⟨_, .text⟩

/-- **C346** (of types): a component with a parameter whose type is not in the table, such as `double *` or `char`, gets no pyre component. -/
theorem C346_types (pre : List (Arg V)) (a : Arg V) (post : List (Arg V)) (ha : ∀ t, ¬ TypeOf a.type t) :
    ∃ e, inventory (pre ++ a :: post) = .error e := by
  obtain ⟨e, he⟩ := turns_type pre a post ha (put (fun _ => none) "pinv" (some .pinv))
  exact ⟨e, by unfold inventory; rw [he]⟩

example : ∀ t, ¬ TypeOf "double *" t := by intro t h; have := traitType_ok h; simp [traitType] at this

/-- **C346** is false of a parameter called `arg`: the class is made, and the setting is not there. -/
theorem C346_arg_false : ∃ ns, inventory [(⟨"arg", "double", 3, ""⟩ : Arg Nat)] = .ok ns ∧
    ¬ Settings [(⟨"arg", "double", 3, ""⟩ : Arg Nat)] ns := by
  refine ⟨_, rfl, fun h => ?_⟩
  obtain ⟨t, _, e⟩ := h.1 _ List.mem_cons_self
  cases e

/-- **C346** is false of a parameter called `pinv` that is not the last one: the class cannot be made. -/
theorem C346_pinv_false : inventory [(⟨"pinv", "double", 3, ""⟩ : Arg Nat), ⟨"a", "double", 4, ""⟩] = .error .attributeError := rfl

/-- **C347** (partial): such a component hands over to its constructor, in their order, the value the user gave for each parameter, or the default when there was none, and then its own
name when the constructor takes it. Missing: a parameter called `name`, see `C347_name_false`, and the names of the body, see `C347_arg`. -/
theorem C347_partial (args : List (Arg V)) (hf : ∀ a ∈ args, Free a.name) (hd : (args.map Arg.name).Nodup)
    (ht : ∀ a ∈ args, ∃ t, TypeOf a.type t) (hn : "name" ∉ args.map Arg.name) (user : String → Option V) (name : V) (takesName : Bool) :
    kwds takesName args user name =
      .ok ((args.map fun a => (a.name, (user a.name).getD a.default)) ++ if takesName then [("name", name)] else []) := by
  obtain ⟨ns, h1, h2⟩ := inventory_good args hf hd ht
  unfold kwds
  rw [h1]; dsimp only
  rw [kwdsOf_good args h2.1]; dsimp only
  cases takesName
  · simp
  · rw [if_pos rfl, if_pos rfl, putName_eq]
    rw [List.map_map]; exact hn

example : "name" ∉ sample.map Arg.name := by unfold sample; simp

/-- **C347** (of `arg`): a component with a parameter called `arg` cannot be started, whatever the values. -/
theorem C347_arg (args : List (Arg V)) (h : "arg" ∈ args.map Arg.name) (user : String → Option V) (name : V) (takesName : Bool) :
    ∃ e, kwds takesName args user name = .error e := by
  unfold kwds
  cases hi : inventory args with
  | error e => exact ⟨e, rfl⟩
  | ok ns =>
    obtain ⟨e, he⟩ := kwdsOf_none (user := user) (inventory_arg hi) args h
    exact ⟨e, by dsimp only; rw [he]⟩

example : "arg" ∈ [(⟨"arg", "double", 3, ""⟩ : Arg Nat)].map Arg.name := List.mem_cons_self

/-- **C347** is false of a parameter called `name`: the value the user gave is replaced with the name of the component. -/
theorem C347_name_false : kwds true [(⟨"name", "char *", 3, ""⟩ : Arg Nat)] (fun _ => some 5) 9 = .ok [("name", 9)] := rfl

end Verif.Elementary
