import Verif.Lemmas.Listing
/-!
Properties of the lists of components and of the command `mcvine component` (C348-C350).
-/

namespace Verif.Listing

open Launch Spec

/-- **C348**: for any suppliers, with any category and supplier, or none, `mcvine component list` prints a component under a category and a supplier if and only if that supplier has it
there and the options match; no category is printed twice. -/
theorem C348_list (all : List (String × Supplier)) (hp : Proper all) (category supplier : String)
    (hs : supplier = "" ∨ supplier ∈ all.map Prod.fst) :
    ∃ out, list all category supplier = .ok out ∧ (out.map Prod.fst).Nodup ∧
      ∀ c t s, Printed out c t s ↔ Has all t c s ∧ Matches category c ∧ Matches supplier s := by
  unfold list
  by_cases h : supplier = ""
  · rw [if_neg (not_not_intro h)]
    by_cases hc : category = ""
    · rw [if_neg (not_not_intro hc)]
      refine ⟨_, rfl, ?_, fun c t s => ?_⟩
      · rw [List.map_map]
        have : (Prod.fst ∘ fun c => (c, componentsIn all c)) = id := rfl
        rw [this, List.map_id]; exact List.nodup_dedup _
      · constructor
        · rintro ⟨l, h1, h2⟩
          obtain ⟨c', -, e⟩ := List.mem_map.mp h1
          cases e
          exact ⟨(mem_componentsIn all c t s).mp h2, Or.inl hc, Or.inl h⟩
        · rintro ⟨h1, -, -⟩
          refine ⟨_, List.mem_map.mpr ⟨c, ?_, rfl⟩, (mem_componentsIn all c t s).mpr h1⟩
          obtain ⟨v, hv, hcv, -⟩ := h1
          exact (mem_allCategories all c).mpr ⟨s, v, hv, hcv⟩
    · rw [if_pos hc]
      refine ⟨_, rfl, by simp, fun c t s => ?_⟩
      constructor
      · rintro ⟨l, h1, h2⟩
        rw [List.mem_singleton] at h1
        cases h1
        exact ⟨(mem_componentsIn all _ t s).mp h2, Or.inr rfl, Or.inl h⟩
      · rintro ⟨h1, h2, -⟩
        rcases h2 with h2 | rfl
        · exact absurd h2 hc
        · exact ⟨_, List.mem_singleton.mpr rfl, (mem_componentsIn all _ t s).mpr h1⟩
  · rw [if_pos h]
    have hs := hs.resolve_left h
    obtain ⟨⟨n, v⟩, hv, e⟩ := List.mem_map.mp hs
    dsimp only at e
    subst e
    rw [lookup_unique hp.1 hv]
    dsimp only
    have key : ∀ t c s, Has all t c s ∧ Matches n s ↔ s = n ∧ t ∈ v.types c := by
      intro t c s
      constructor
      · rintro ⟨⟨w, hw, h1, h2⟩, h3⟩
        rcases h3 with h3 | rfl
        · exact absurd h3 h
        · have := lookup_unique hp.1 hw
          rw [lookup_unique hp.1 hv] at this
          cases this
          exact ⟨rfl, h2⟩
      · rintro ⟨rfl, h1⟩
        exact ⟨⟨v, hv, (hp.2 _ _ hv).2 _ _ h1, h1⟩, Or.inr rfl⟩
    by_cases hc : category = ""
    · rw [if_neg (not_not_intro hc)]
      refine ⟨_, rfl, ?_, fun c t s => ?_⟩
      · rw [List.map_map]
        have : (Prod.fst ∘ fun c => (c, (v.types c).map fun t => (t, n))) = id := rfl
        rw [this, List.map_id]; exact (hp.2 _ _ hv).1
      · rw [and_comm (a := Matches category c), ← and_assoc, key]
        constructor
        · rintro ⟨l, h1, h2⟩
          obtain ⟨c', -, e⟩ := List.mem_map.mp h1
          cases e
          obtain ⟨t', ht, e⟩ := List.mem_map.mp h2
          cases e
          exact ⟨⟨rfl, ht⟩, Or.inl hc⟩
        · rintro ⟨⟨rfl, h1⟩, -⟩
          exact ⟨_, List.mem_map.mpr ⟨c, (hp.2 _ _ hv).2 _ _ h1, rfl⟩, List.mem_map.mpr ⟨t, h1, rfl⟩⟩
    · rw [if_pos hc]
      refine ⟨_, rfl, by simp, fun c t s => ?_⟩
      rw [and_comm (a := Matches category c), ← and_assoc, key]
      constructor
      · rintro ⟨l, h1, h2⟩
        rw [List.mem_singleton] at h1
        cases h1
        obtain ⟨t', ht, e⟩ := List.mem_map.mp h2
        cases e
        exact ⟨⟨rfl, ht⟩, Or.inr rfl⟩
      · rintro ⟨⟨rfl, h1⟩, h2⟩
        rcases h2 with h2 | rfl
        · exact absurd h2 hc
        · exact ⟨_, List.mem_singleton.mpr rfl, List.mem_map.mpr ⟨t, h1, rfl⟩⟩

/-- the two suppliers of C276 -/
example : Proper two ∧ "mcni" ∈ two.map Prod.fst := ⟨two_proper, by decide⟩

/-- **C348** (of unknown suppliers): the command is refused. -/
theorem C348_unknown (all : List (String × Supplier)) (category supplier : String) (h : supplier ≠ "") (hs : supplier ∉ all.map Prod.fst) :
    list all category supplier = .error .runtimeError := by
  unfold list
  rw [if_pos h]
  cases hl : all.lookup supplier with
  | none => rfl
  | some v => exact absurd (List.mem_map.mpr ⟨_, lookup_mem hl, rfl⟩) hs

example : "vitess" ∉ two.map Prod.fst := by decide

/-- **C349** (partial): in a category of the library the components that are listed for McStas are those with a file in it and those that are registered, each once. Missing: other
categories, see `C349_false`. -/
theorem C349_partial (L : Library) (r : List (String × List String)) (category : String)
    (hc : (category, true) ∈ L.items ∧ ¬ hidden category ∧ category ≠ "CVS" ∧ category ≠ "data") :
    category ∈ mcstasCategories L r ∧ (mcstasTypes L r category).Nodup ∧
      ∀ type, type ∈ mcstasTypes L r category ↔ InLibrary L category type ∨ Registered r category type := by
  have hd := (mem_defaultCategories L category).mpr hc
  refine ⟨List.mem_dedup.mpr (List.mem_append_left _ hd), ?_, fun t => ?_⟩
  · unfold mcstasTypes
    rw [if_neg (not_not_intro hd)]; exact List.nodup_dedup _
  · unfold mcstasTypes
    rw [if_neg (not_not_intro hd), List.mem_dedup, List.mem_append, mem_defaultComponents, mem_registeredIn]
    unfold InLibrary
    constructor
    · rintro (h | h)
      · exact Or.inl ⟨hc.1, hc.2.1, hc.2.2.1, hc.2.2.2, h⟩
      · exact Or.inr h
    · rintro (h | h)
      · exact Or.inl ⟨h.2.2.2.2.1, h.2.2.2.2.2⟩
      · exact Or.inr h

/-- a library with the category `optics`, a hidden directory and the directory of data -/
def library : Library := ⟨[("optics", true), (".svn", true), ("data", true), ("README", false)], fun c => if c = "optics" then [("Guide.comp", true), ("Make.mm", true)] else []⟩

example : ("optics", true) ∈ library.items ∧ ¬ hidden "optics" ∧ "optics" ≠ "CVS" ∧ "optics" ≠ "data" := by decide

/-- **C349** (of categories): the categories that are listed are the directories of the library and the categories of the registry, each once. -/
theorem C349_categories (L : Library) (r : List (String × List String)) :
    (mcstasCategories L r).Nodup ∧ ∀ c, c ∈ mcstasCategories L r ↔
      ((c, true) ∈ L.items ∧ ¬ hidden c ∧ c ≠ "CVS" ∧ c ≠ "data") ∨ c ∈ r.map Prod.fst := by
  refine ⟨List.nodup_dedup _, fun c => ?_⟩
  unfold mcstasCategories
  rw [List.mem_dedup, List.mem_append, mem_defaultCategories]

/-- **C349** is false of a category that is not one of the library: it is listed, its components are registered, and none of them is listed, so that they cannot be found by their type
either. -/
theorem C349_false : ∃ (L : Library) (r : List (String × List String)), Registered r "mine" "Slit" ∧ "mine" ∈ mcstasCategories L r ∧
    mcstasTypes L r "mine" = [] ∧ Launch.find [("mcstas2", mcstas L r)] "Slit" none none = .ok none := by
  refine ⟨library, [("mine", ["Slit"])], ⟨["Slit"], by decide, by decide⟩, by decide, by decide, by decide⟩

/-- **C350** (of arguments): the arguments that `info` hands over are the text cut at its commas. -/
theorem C350_args (all : List (String × Supplier)) (type : String) (text : List Char) (category supplier : Option String)
    {r : String × String × String} {args : List (List Char)} {spec : List Char} (hi : info all type text category supplier = .ok (r, args, spec)) :
    (∀ a ∈ args, ',' ∉ a) ∧ List.intercalate [','] args = text ∧ (text ≠ [] → args ≠ []) := by
  unfold info at hi
  have : args = argsOf text := by
    split at hi
    · cases hi
    · cases hi
    · cases hi; rfl
  subst this
  unfold argsOf
  by_cases h : text = []
  · rw [if_pos h]; exact ⟨by simp, by simp [h], fun h' => absurd h h'⟩
  · rw [if_neg h]; exact ⟨splitAll_no text, splitAll_join text, fun _ => Facility.splitAll_ne _ _⟩

/-- **C350** (of the specifier): it is decoded to the type and the arguments that were given, without the blanks around them -/
theorem C350_specifier (type : String) (args : List (List Char))
    (h : Facility.Clean ⟨none, none, type.toList, if args = [] then none else some args⟩) :
    Facility.decode (specifier type args) = .ok ⟨none, none, type.toList, if args = [] then none else some (args.map Facility.strip)⟩ := by
  rw [specifier_written, Facility.decode_written h]
  by_cases ha : args = [] <;> simp [ha]

/-- **C350** (partial): the specifier that `mcvine component info` prints for a component that exists stands for that component with the same arguments, or it is refused, but it
never stands for another component; and it is refused only if there is another component of the same type. Missing: see `C350_two_false` and `C350_slash_false`. -/
theorem C350_partial (all : List (String × Supplier)) (hp : Proper all) (type : String) (text : List Char) (category supplier : Option String)
    {c s : String} {args : List (List Char)} {spec : List Char}
    (hi : info all type text category supplier = .ok ((type, c, s), args, spec)) (hh : Has all type c s)
    (h : Facility.Clean ⟨none, none, type.toList, if args = [] then none else some args⟩) :
    (use all spec = .ok ((type, c, s), if args = [] then none else some (args.map Facility.strip)) ∧ ∀ c' s', Has all type c' s' → c' = c ∧ s' = s) ∨
    (use all spec = .error .runtimeError ∧ ∃ c' s', Has all type c' s' ∧ (c', s') ≠ (c, s)) := by
  unfold info at hi
  have hsp : spec = specifier type args := by
    split at hi
    · cases hi
    · cases hi
    · cases hi; rfl
  subst hsp
  unfold use
  rw [C350_specifier type args h]
  dsimp only
  rw [String.ofList_toList, Option.map_none]
  obtain ⟨h1, h2, h3⟩ := C276_partial all hp type none none (Or.inl rfl) (by simp)
  by_cases hu : ∀ c' s', Has all type c' s' → c' = c ∧ s' = s
  · left
    rw [(h1 (type, c, s)).mpr ⟨c, s, rfl, ⟨hh, by simp, by simp⟩, fun c' s' h' => hu c' s' h'.1⟩]
    exact ⟨rfl, hu⟩
  · right
    simp only [not_forall] at hu
    obtain ⟨c', s', h', hne⟩ := hu
    have hne : (c', s') ≠ (c, s) := fun e => hne (Prod.mk.inj e)
    rw [h3.mpr ⟨c', s', c, s, ⟨h', by simp, by simp⟩, ⟨hh, by simp, by simp⟩, hne⟩]
    exact ⟨rfl, c', s', h', hne⟩

/-- the guide of the two suppliers, with arguments `x, y` -/
example : info two "Guide" "x, y".toList none none = .ok (("Guide", "optics", "mcstas2"), ["x".toList, " y".toList], "Guide(x, y)".toList) ∧
    Has two "Guide" "optics" "mcstas2" ∧ Facility.Clean ⟨none, none, "Guide".toList, some ["x".toList, " y".toList]⟩ := by
  refine ⟨by decide, ⟨_, List.mem_cons_of_mem _ List.mem_cons_self, by decide, by decide⟩, ⟨?_, ?_, ?_, ?_⟩⟩
  all_goals simp

/-- a guide of two suppliers -/
def guides : List (String × Supplier) :=
  [("mcni", ⟨["optics"], fun c => if c = "optics" then ["Guide"] else []⟩), ("mcstas2", ⟨["optics"], fun c => if c = "optics" then ["Guide"] else []⟩)]

/-- **C350** is false of types that several suppliers have: `info` describes the one that is asked for, and the specifier that it prints is refused. -/
theorem C350_two_false : info guides "Guide" [] none (some "mcstas2") = .ok (("Guide", "optics", "mcstas2"), [], "Guide".toList) ∧
    use guides "Guide".toList = .error .runtimeError := by decide

/-- **C350** is false of arguments with a slash, such as the name of a file: the specifier is taken for one with a category, and is not found. -/
theorem C350_slash_false : info two "Guide" "data/m.dat".toList none none = .ok (("Guide", "optics", "mcstas2"), ["data/m.dat".toList], "Guide(data/m.dat)".toList) ∧
    use two "Guide(data/m.dat)".toList = .error .runtimeError := by decide

end Verif.Listing
