import Verif.Lemmas.PyreGeo
/-!
Properties of the geometer of pyre (C357-C359).
-/

namespace Verif.PyreGeo

open Spec

variable {R : Type}

/-- **C357** (partial): the geometer of an instrument has exactly the settings of the components, with the values of the user, or the origin. Missing: components with names that the geometer or its source uses, see
`C357_register_false`, `C357_transformer_false`, `C357_dump_false`, and instruments without components, see `C357_empty_false`. -/
theorem C357_partial (origin : R) (names : List String) (user : String → Option R) (dump : Bool) (hne : names ≠ [])
    (h1 : "Register" ∉ names) (h2 : "transformer" ∉ names) (h3 : "dump" ∉ names) :
    ∃ g, makeGeometer origin names user dump = .ok g ∧ Right origin names user dump g := by
  obtain ⟨g, e, hr, ht, hd⟩ := makeGeometer_ok origin names user dump hne h1
  refine ⟨g, e, ?_, ?_, ht.2 h2, by rw [hd, if_neg h3]⟩
  · intro n hn
    rw [hr, if_pos hn]
    exact ⟨fun r hu => by rw [hu]; rfl, fun hu => by rw [hu]; rfl⟩
  · intro n hn
    rw [hr, if_neg hn]

example : ["moderator", "monitor", "sample"] ≠ [] ∧ "Register" ∉ ["moderator", "monitor", "sample"] ∧ "transformer" ∉ ["moderator", "monitor", "sample"] ∧
    "dump" ∉ ["moderator", "monitor", "sample"] := by decide

example : (makeGeometer (0, 0) ["moderator", "sample"] (fun n => if n = "sample" then some (10, 1) else none) false).map (fun g => [g.reg "moderator", g.reg "sample", g.reg "other"]) =
    .ok [some (0, 0), some (10, 1), none] := by decide

/-- **C357** is false for a component with the name `Register` before another one: the geometer cannot be made. -/
theorem C357_register_false (origin : R) (before after : List String) (x : String) (user : String → Option R) (dump : Bool) :
    makeGeometer origin (before ++ "Register" :: x :: after) user dump = .error .typeError := by
  have : before ++ "Register" :: x :: after ≠ [] := by simp
  simp [makeGeometer, buildInventory, this, body_register, Except.map]

/-- **C357** is false for a component with the name `transformer`: its record takes the place of the transformer of coordinates, which then cannot be called for any relative position. -/
theorem C357_transformer_false (origin : R) (names : List String) (user : String → Option R) (dump : Bool) (h : "Register" ∉ names) (ht : "transformer" ∈ names) :
    ∃ g, makeGeometer origin names user dump = .ok g ∧ g.callable = false := by
  obtain ⟨g, e, _, hc, _⟩ := makeGeometer_ok origin names user dump (List.ne_nil_of_mem ht) h
  refine ⟨g, e, ?_⟩
  cases hg : g.callable
  · rfl
  · exact absurd ht (hc.1 hg)

example : "Register" ∉ ["sample", "transformer"] ∧ "transformer" ∈ ["sample", "transformer"] := by decide

/-- **C357** is false for a component with the name `dump`: the report is printed although nobody asked for it. -/
theorem C357_dump_false (origin : R) (names : List String) (user : String → Option R) (h : "Register" ∉ names) (ht : "dump" ∈ names) :
    ∃ g, makeGeometer origin names user false = .ok g ∧ g.dumps = true := by
  obtain ⟨g, e, _, _, hd⟩ := makeGeometer_ok origin names user false (List.ne_nil_of_mem ht) h
  exact ⟨g, e, by rw [hd, if_pos ht]⟩

example : "Register" ∉ ["dump", "sample"] ∧ "dump" ∈ ["dump", "sample"] := by decide

/-- **C357** is false for an instrument, or a group of monitors, without components: the source of the class is not python. -/
theorem C357_empty_false (origin : R) (user : String → Option R) (dump : Bool) : makeGeometer origin [] user dump = .error .runtimeError := rfl

/-- **C358** (partial): a component is placed according to the setting for the place it is used for. Missing: components that are also known by the name of another place, see `C358_false`. -/
theorem C358_partial (reg : String → Option R) (c : Comp) (place : String) (r : R) (hr : reg place = some r) (hb : BelongsTo c place)
    (ho : ∀ n ∈ knownAs c, n ≠ place → reg n = none) : record reg c = .ok r := by
  unfold record
  by_cases hn : c.name = place
  · rw [hn, hr]
  · rw [ho c.name (by simp [knownAs]) hn]
    rcases hb with hb | ⟨l, hl, hp⟩
    · exact absurd hb hn
    · rw [hl]
      exact tryAliases_unique reg place r hr l hp fun a ha => ho a (by simp [knownAs, hl, ha])

/-- two places -/
def regExample : String → Option Nat := fun n => if n = "mon1" then some 1 else if n = "mon2" then some 2 else none

example : regExample "mon1" = some 1 ∧ BelongsTo ⟨0, "E_monitor", some ["E_monitor", "mon1"]⟩ "mon1" ∧
    ∀ n ∈ knownAs ⟨0, "E_monitor", some ["E_monitor", "mon1"]⟩, n ≠ "mon1" → regExample n = none :=
  ⟨by decide, Or.inr ⟨_, rfl, by decide⟩, by decide⟩

/-- **C358**: a component without any known name is an error, never the origin. -/
theorem C358_unknown (reg : String → Option R) (c : Comp) (h : ∀ n ∈ knownAs c, reg n = none) : ∃ e, record reg c = .error e := by
  unfold record
  rw [h c.name (by simp [knownAs])]
  cases ha : c.aliases with
  | none => exact ⟨_, rfl⟩
  | some l =>
    have : ∀ l : List String, (∀ n ∈ l, reg n = none) → tryAliases reg l = .error .typeError := by
      intro l
      induction l with
      | nil => exact fun _ => rfl
      | cons a l ih => intro h; simp [tryAliases, h a (by simp), ih fun n hn => h n (by simp [hn])]
    exact ⟨_, this l fun n hn => h n (by simp [knownAs, ha, hn])⟩

example : ∀ n ∈ knownAs ⟨0, "x", some ["y"]⟩, regExample n = none := by decide

/-- **C358** is false for a component whose own name is that of another place: it is put there. -/
theorem C358_false (reg : String → Option R) (c : Comp) (place other : String) (r s : R) (_hb : BelongsTo c place) (_hr : reg place = some r)
    (hn : c.name = other) (hs : reg other = some s) (hrs : r ≠ s) : record reg c = .ok s ∧ record reg c ≠ .ok r := by
  have : record reg c = .ok s := by unfold record; rw [hn, hs]
  refine ⟨this, ?_⟩
  rw [this]
  intro e
  cases e
  exact hrs rfl

example : BelongsTo ⟨0, "mon2", some ["mon2", "mon1"]⟩ "mon1" ∧ regExample "mon1" = some 1 ∧ regExample "mon2" = some 2 ∧ (1 : Nat) ≠ 2 :=
  ⟨Or.inr ⟨_, rfl, by decide⟩, by decide, by decide, by decide⟩

/-- **C359** (partial): for a component of the sequence, `previous` is the component before it, and the first has none; for a name it is the name of the component before the one of that name. Missing: names of places that are
not the names of their components, see `C359_false`. -/
theorem C359_partial (seq : List Comp) (hd : seq.Nodup) (i : Nat) (c d : Comp) (hi : seq[i]? = some d) (hc : seq[i + 1]? = some c) :
    previous seq c = .ok (.inl d) ∧ ((seq.map (·.name)).Nodup → previousOfName seq c.name = .ok d.name) := by
  refine ⟨by simp [previous, index_get seq (i + 1) c hd hc, hi], fun hn => ?_⟩
  have : (seq.map (·.name))[i + 1]? = some c.name := by simp [hc]
  simp [previousOfName, index_get _ _ _ hn this, hi]

/-- a sequence whose second component has a name of its own -/
def seqExample : List Comp := [⟨0, "moderator", some ["moderator"]⟩, ⟨1, "E_monitor", some ["E_monitor", "mon1"]⟩, ⟨2, "mon2", some ["mon2"]⟩]

example : seqExample.Nodup ∧ seqExample[1]? = some ⟨1, "E_monitor", some ["E_monitor", "mon1"]⟩ ∧ seqExample[1 + 1]? = some ⟨2, "mon2", some ["mon2"]⟩ ∧
    (seqExample.map (·.name)).Nodup := by decide

/-- **C359**: the first component of a sequence has no previous one. -/
theorem C359_first (seq : List Comp) (c : Comp) : previous (c :: seq) c = .error .runtimeError ∧ previousOfName (c :: seq) c.name = .error .runtimeError := by
  simp [previous, previousOfName, index]

/-- **C359** is false for a name of a place that is not the name of the component there: `previous` is looked for among the names of components, and there is an error; the place itself is known. -/
theorem C359_false : (∀ (seq : List Comp) (place : String), (∀ c ∈ seq, c.name ≠ place) → previousOfName seq place = .error .valueError) ∧
    ∃ (seq : List Comp) (c : Comp) (place : String), c ∈ seq ∧ BelongsTo c place ∧ (∃ d, previous seq c = .ok (.inl d)) ∧ previousOfName seq place = .error .valueError := by
  have key : ∀ (seq : List Comp) (place : String), (∀ c ∈ seq, c.name ≠ place) → previousOfName seq place = .error .valueError := by
    intro seq place h
    have : place ∉ seq.map (·.name) := by
      intro hm
      obtain ⟨c, hc, e⟩ := List.mem_map.1 hm
      exact h c hc e
    simp [previousOfName, index_none _ _ this]
  exact ⟨key, seqExample, ⟨1, "E_monitor", some ["E_monitor", "mon1"]⟩, "mon1", by decide, Or.inr ⟨_, rfl, by decide⟩, ⟨⟨0, "moderator", some ["moderator"]⟩, by decide⟩,
    key _ _ (by decide)⟩

end Verif.PyreGeo
