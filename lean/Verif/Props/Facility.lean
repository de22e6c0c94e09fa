import Verif.Lemmas.Facility
/-!
Property theorems C45: names of component facilities.
-/

namespace Verif.Facility

/-- C45: a specifier that is written in the documented syntax is decoded to its parts, with the arguments without the
blanks around them -/
theorem C45_decode {s : Spec} (h : Clean s) : ∃ args', decode (written s) = .ok ⟨s.supplier, s.category, s.type, args'⟩ ∧
    ((s.args = none ∧ args' = none) ∨ ∃ as as', s.args = some as ∧ args' = some as' ∧ List.Forall₂ Trimmed as as') := by
  refine ⟨_, decode_written h, ?_⟩
  cases s.args with
  | none => exact Or.inl ⟨rfl, rfl⟩
  | some as =>
    refine Or.inr ⟨as, as.map strip, rfl, rfl, ?_⟩
    induction as with
    | nil => exact List.Forall₂.nil
    | cons a as ih => exact List.Forall₂.cons (strip_trimmed a) ih

/-- what is written in the examples: `mcni://sources/NDMonitor(x, y)` -/
def nd : Spec := ⟨some "mcni".toList, some "sources".toList, "NDMonitor".toList, some ["x".toList, " y".toList]⟩

/-- example: the hypotheses are met, and the result is that of the docstring -/
example : Clean nd ∧ written nd = "mcni://sources/NDMonitor(x, y)".toList ∧
    decode (written nd) = .ok ⟨some "mcni".toList, some "sources".toList, "NDMonitor".toList, some ["x".toList, "y".toList]⟩ := by
  refine ⟨⟨?_, ?_, ?_, ?_⟩, by decide, by decide⟩
  all_goals simp [nd]

/-- C45, partial: what was encoded is decoded again.  Missing: the supplier, and parts with special characters, see below. -/
theorem C45_roundtrip_partial {supplier category type : List Char} {args : Option (List (List Char))}
    (h : Clean ⟨some supplier, some category, type, args⟩) (ht : ∀ as ∈ args, ∀ a ∈ as, Trimmed a a) :
    decode (encode supplier category type args) = .ok ⟨none, some category, type, args⟩ := by
  have hc : Clean ⟨none, some category, type, args⟩ := ⟨by simp, h.category, h.type, h.args⟩
  have hw : encode supplier category type args = written ⟨none, some category, type, args⟩ := by
    unfold encode written
    match args, h.args with
    | none, _ => simp
    | some [], h => have := (h [] rfl).2; simp at this
    | some (a :: as), _ => simp [join_eq]
  rw [hw, decode_written hc]
  simp only
  congr 2
  cases args with
  | none => rfl
  | some as =>
    rw [Option.map_some]
    congr 1
    conv_rhs => rw [← List.map_id as]
    exact List.map_congr_left fun a ha => trimmed_strip (ht as rfl a ha)

/-- example -/
example : Clean ⟨some "mcni".toList, some "sources".toList, "NDMonitor".toList, some ["x".toList, "y".toList]⟩ ∧
    Trimmed "x".toList "x".toList := by
  refine ⟨⟨?_, ?_, ?_, ?_⟩, [], [], by decide, by simp, by simp, by simp, by simp⟩
  all_goals simp

/-- C45 is false for the supplier: it is not encoded -/
theorem C45_supplier_false : ∀ category type args,
    encode "mcni".toList category type args = encode "mcstas2".toList category type args := fun _ _ _ => rfl

/-- C45 is false for arguments with a slash, such as the name of a file -/
theorem C45_slash_false : decode (encode "mcni".toList "sources".toList "Source".toList (some ["data/I.dat".toList])) =
    .error .valueError := by decide

/-- C45 is false for a single empty argument: the factory is not called with it -/
theorem C45_empty_false : decode (encode "mcni".toList "sources".toList "Source".toList (some [[]])) =
    .ok ⟨none, some "sources".toList, "Source".toList, none⟩ := by decide

end Verif.Facility
