import Verif.Lemmas.RegCmp
/-!
Comparison of the settings of two applications.
-/

namespace Verif.RegCmp

/-- C335: the report about two registries tells exactly their differences: each setting with different values, with both values, and each component
that only one has, with its name, as deep as it is; besides these there are titles only. -/
theorem C335_report {r1 r2 : Reg} (h1 : Proper r1) (h2 : Proper r2) :
    ∃ ls, compareReport r1 r2 = .ok ls ∧ ∀ l, (Tells l ∧ l ∈ ls) ↔ Differs r1 r2 0 l := by
  obtain ⟨d, c, ls, a, b, h⟩ := claim_all (sizeOf r1) r1 (Nat.le_refl _) r2 0 none none h1 h2
  refine ⟨ls, ?_, fun l => ⟨fun ⟨t, m⟩ => (h l t).mp m, fun m => ⟨differs_tells m, (h l (differs_tells m)).mpr m⟩⟩⟩
  unfold compareReport
  rw [a]
  exact b

/-- an instrument with a source and a sample -/
def instrument (energy sample : String) (more : List (String × Reg)) : Reg :=
  .mk [("name", some "app"), ("ncount", some "100")]
    ([("source", .mk [("name", some "source"), ("energy", some energy)] []), ("sample", .mk [("name", some sample)] [])] ++ more)

/-- a registry without components is proper -/
theorem proper_leaf {e : List (String × Val)} (h1 : ∃ v, ("name", v) ∈ e) (h2 : (e.map Prod.fst).Nodup) (h3 : ∀ v, ("components", v) ∉ e) :
    Proper (.mk e []) := by
  intro path q h
  cases path with
  | nil =>
    obtain rfl := Option.some.inj h
    exact ⟨h1, h2, by simp [Reg.components], h3⟩
  | cons n ns => simp [part, Reg.components] at h

/-- a registry with proper components is proper -/
theorem proper_node {e : List (String × Val)} {c : List (String × Reg)} (h1 : ∃ v, ("name", v) ∈ e) (h2 : (e.map Prod.fst).Nodup)
    (h3 : ∀ v, ("components", v) ∉ e) (h4 : (c.map Prod.fst).Nodup) (h5 : ∀ n r, (n, r) ∈ c → Proper r) : Proper (.mk e c) := by
  intro path q h
  cases path with
  | nil =>
    obtain rfl := Option.some.inj h
    exact ⟨h1, h2, h4, h3⟩
  | cons n ns =>
    rcases hl : c.lookup n with _ | r
    · simp [part, Reg.components, hl] at h
    · rw [part_cons _ r _ _ hl] at h
      exact h5 n r (lookup_mem _ _ _ hl) ns q h

/-- the instruments are proper -/
theorem proper_instrument (energy sample : String) : Proper (instrument energy sample []) := by
  refine proper_node ⟨some "app", by simp⟩ (by simp) (by simp) (by simp) ?_
  intro n r h
  simp only [List.append_nil, List.mem_cons, Prod.mk.injEq, List.not_mem_nil, or_false] at h
  rcases h with ⟨-, rfl⟩ | ⟨-, rfl⟩
  · exact proper_leaf ⟨some "source", by simp⟩ (by simp) (by simp)
  · exact proper_leaf ⟨some sample, by simp⟩ (by simp) (by simp)

/-- example: two instruments whose sources have different energies -/
example : Proper (instrument "60" "V" []) ∧ Proper (instrument "70" "V" []) ∧
    Differs (instrument "60" "V" []) (instrument "70" "V" []) 0 (.changed 2 "energy" (some "60") (some "70")) := by
  refine ⟨proper_instrument _ _, proper_instrument _ _, ?_⟩
  refine .inside (n := "source") (q1 := .mk [("name", some "source"), ("energy", some "60")] [])
    (q2 := .mk [("name", some "source"), ("energy", some "70")] []) rfl rfl ?_
  exact Differs.value (r1 := .mk [("name", some "source"), ("energy", some "60")] []) (r2 := .mk [("name", some "source"), ("energy", some "70")] [])
    (k := "energy") (by decide) (by decide)

/-- C336: a report about a registry and itself tells no difference -/
theorem C336_same {r : Reg} (h : Proper r) : ∃ ls, compareReport r r = .ok ls ∧ ∀ l ∈ ls, ¬ Tells l := by
  obtain ⟨ls, a, b⟩ := C335_report h h
  exact ⟨ls, a, fun l hl ht => differs_self ((b l).mp ⟨ht, hl⟩) rfl⟩

example : Proper (instrument "60" "V" []) := proper_instrument _ _

/-- C336, partial: if the report tells no difference, both registries have the same parts, and all their settings besides the names have the same
values, where a missing setting is taken for one with value `None`.  What is missing: names, see `C336_name_false`, and missing settings, see
`C336_none_false`. -/
theorem C336_partial {r1 r2 : Reg} (h1 : Proper r1) (h2 : Proper r2) {ls : List Line} (hr : compareReport r1 r2 = .ok ls) (hl : ∀ l ∈ ls, ¬ Tells l)
    (path : List String) : ((part r1 path).isSome ↔ (part r2 path).isSome) ∧
      ∀ q1 q2, part r1 path = some q1 → part r2 path = some q2 → ∀ k, k ≠ "name" → value q1 k = value q2 k := by
  obtain ⟨ls', a, b⟩ := C335_report h1 h2
  rw [hr] at a
  obtain rfl := Except.ok.inj a
  have hno : ∀ l, ¬ Differs r1 r2 0 l := fun l hd => hl l ((b l).mpr hd).2 ((b l).mpr hd).1
  clear hr hl a b h1 h2
  generalize (0 : Nat) = i at hno
  induction path generalizing r1 r2 i with
  | nil =>
    refine ⟨by simp [part], ?_⟩
    intro q1 q2 e1 e2 k hk
    obtain rfl := Option.some.inj e1
    obtain rfl := Option.some.inj e2
    by_contra hne
    exact hno _ (.value hk hne)
  | cons n ns ih =>
    rcases a1 : part r1 [n] with _ | p1 <;> rcases a2 : part r2 [n] with _ | p2
    · rw [part_one] at a1 a2
      simp [part, a1, a2]
    · exact absurd (.right a1 a2) (hno _)
    · exact absurd (.left a1 a2) (hno _)
    · have := ih (r1 := p1) (r2 := p2) (i + 2) fun l hd => hno l (.inside a1 a2 hd)
      rw [part_one] at a1 a2
      rw [part_cons _ _ _ _ a1, part_cons _ _ _ _ a2]
      exact this

example : ∃ ls, compareReport (instrument "60" "V" []) (instrument "60" "C60" []) = .ok ls ∧ ∀ l ∈ ls, ¬ Tells l := by
  refine ⟨_, rfl, ?_⟩
  intro l h
  simp at h
  rcases h with rfl | rfl | rfl | rfl <;> simp [Tells]

/-- C336 is false for the names of components, which tell the choice of the user: the report is the same as that of equal registries -/
theorem C336_name_false : ∃ r1 r2 : Reg, Proper r1 ∧ Proper r2 ∧ part r1 ["sample"] ≠ part r2 ["sample"] ∧ compareReport r1 r2 = compareReport r1 r1 := by
  refine ⟨instrument "60" "V" [], instrument "60" "C60" [], proper_instrument _ _, proper_instrument _ _, ?_, rfl⟩
  simp [part, instrument, Reg.components, List.lookup]

/-- C336 is false for a setting `None` that is missing in the other registry -/
theorem C336_none_false : ∃ r1 r2 : Reg, Proper r1 ∧ Proper r2 ∧ r1 ≠ r2 ∧ compareReport r1 r2 = compareReport r1 r1 := by
  refine ⟨.mk [("name", some "a"), ("k", none)] [], .mk [("name", some "a")] [], ?_, ?_, by simp, rfl⟩
  · exact proper_leaf ⟨some "a", by simp⟩ (by simp) (by simp)
  · exact proper_leaf ⟨some "a", by simp⟩ (by simp) (by simp)

/-- there is no report about an empty registry: the comparison gives a pair, and the report wants a dictionary -/
theorem C336_empty_false {r : Reg} (h : Proper r) : compareReport .empty r = .error .typeError ∧ compareReport r .empty = .error .typeError ∧
    compareReport .empty .empty = .error .typeError := by
  obtain ⟨a, b⟩ := proper_name r h
  refine ⟨?_, ?_, rfl⟩
  · unfold compareReport
    rw [Reg.empty, compare, if_pos ⟨rfl, rfl⟩, onlySecond, a, b]
    rfl
  · obtain ⟨e1, c1⟩ := r
    unfold compareReport
    rw [compare, if_neg]
    · rw [show nameOf e1 = .ok (value (.mk e1 c1) "name") from b]
      rfl
    · rintro ⟨x, y⟩
      subst x
      simp [Reg.isEmpty, Reg.entries, Reg.components, y] at a

example : Proper (instrument "60" "V" []) := proper_instrument _ _

end Verif.RegCmp
