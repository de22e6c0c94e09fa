import Verif.Spec.WrapCc
import Verif.Lemmas.Facility
import Mathlib.Data.List.Basic
/-!
Lemmas on the bindings of components.
-/

namespace Verif.WrapCc

open CppClass (Text Member)
open Spec

theorem join_line (l : List Text) (t : Text) (h : t ∈ l) : IsLine t (join ['\n'] l) := by
  induction l with
  | nil => simp at h
  | cons a l ih =>
    cases l with
    | nil =>
      have : t = a := by simpa using h
      exact ⟨[], [], by simp [join, this], Or.inl rfl, Or.inl rfl⟩
    | cons b l =>
      rcases List.mem_cons.1 h with rfl | h
      · exact ⟨[], '\n' :: join ['\n'] (b :: l), by simp [join], Or.inl rfl, Or.inr rfl⟩
      · obtain ⟨u, v, e, hu, hv⟩ := ih h
        refine ⟨a ++ ['\n'] ++ u, v, by simp [join, e], Or.inr ?_, hv⟩
        rcases hu with rfl | hu
        · simp
        · rw [List.getLast?_append_of_ne_nil _ (by rintro rfl; simp at hu)]
          exact hu

theorem mem_types (t : Text) : t ∈ types ↔ Known t := by simp [types, Known]

theorem mem_pointertypes (t : Text) : t ∈ pointertypes ↔ t = "char *".toList ∨ t = "const char *".toList := by simp [pointertypes]

theorem needWards_ok (args : List Member) : ∀ n, (∀ a ∈ args, Known a.type) →
    ∃ l, needWards n args = .ok l ∧ l.Pairwise (· < ·) ∧ ∀ i, i ∈ l ↔ ∃ k a, i = k + n + 2 ∧ args[k]? = some a ∧ (a.type = "char *".toList ∨ a.type = "const char *".toList) := by
  induction args with
  | nil => exact fun n _ => ⟨[], rfl, List.Pairwise.nil, by simp⟩
  | cons a args ih =>
    intro n h
    obtain ⟨l, hl, hp, hm⟩ := ih (n + 1) fun b hb => h b (by simp [hb])
    have ha : a.type ∈ types := (mem_types _).2 (h a (by simp))
    have hgt : ∀ i ∈ l, n + 2 < i := by
      intro i hi
      obtain ⟨k, _, e, _⟩ := (hm i).1 hi
      omega
    by_cases hc : a.type ∈ pointertypes
    · refine ⟨(n + 2) :: l, by simp [needWards, ha, hl, hc, Except.map], List.pairwise_cons.2 ⟨hgt, hp⟩, ?_⟩
      intro i
      rw [List.mem_cons, hm]
      constructor
      · rintro (rfl | ⟨k, b, e, hb, ht⟩)
        · exact ⟨0, a, by omega, rfl, (mem_pointertypes _).1 hc⟩
        · exact ⟨k + 1, b, by omega, by simpa using hb, ht⟩
      · rintro ⟨k, b, e, hb, ht⟩
        cases k with
        | zero => left; omega
        | succ k => exact Or.inr ⟨k, b, by omega, by simpa using hb, ht⟩
    · refine ⟨l, by simp [needWards, ha, hl, hc, Except.map], hp, ?_⟩
      intro i
      rw [hm]
      constructor
      · rintro ⟨k, b, e, hb, ht⟩
        exact ⟨k + 1, b, by omega, by simpa using hb, ht⟩
      · rintro ⟨k, b, e, hb, ht⟩
        cases k with
        | zero =>
          have : a = b := by simpa using hb
          exact absurd ((mem_pointertypes _).2 (this ▸ ht)) hc
        | succ k => exact ⟨k, b, by omega, by simpa using hb, ht⟩

theorem needWards_unknown (args : List Member) : ∀ n, (∃ a ∈ args, ¬ Known a.type) → needWards n args = .error .notImplemented := by
  induction args with
  | nil => rintro n ⟨a, ha, _⟩; simp at ha
  | cons a args ih =>
    rintro n ⟨b, hb, hk⟩
    by_cases ha : a.type ∈ types
    · have : b ∈ args := by
        rcases List.mem_cons.1 hb with rfl | hb
        · exact absurd ((mem_types _).1 ha) hk
        · exact hb
      simp [needWards, ha, ih (n + 1) ⟨b, this, hk⟩, Except.map]
    · simp [needWards, ha]

theorem nested_text (l : List Nat) (h : l ≠ []) :
    Nested l (join ",\n".toList (l.map fun i => "with_custodian_and_ward<1, ".toList ++ (Nat.repr i).toList) ++ (List.replicate l.length "> ".toList).flatten) := by
  induction l with
  | nil => exact absurd rfl h
  | cons i l ih =>
    cases l with
    | nil => simp [Nested, join]
    | cons j l =>
      refine ⟨_, ih (by simp), ?_⟩
      have : (List.replicate (i :: j :: l).length "> ".toList).flatten = (List.replicate (j :: l).length "> ".toList).flatten ++ "> ".toList := by
        rw [List.length_cons, List.replicate_succ', List.flatten_append]; simp
      rw [this, List.map_cons, List.map_cons, join]
      · simp only [List.append_assoc]
      · simp

theorem split_join : ∀ l : List Text, l ≠ [] → (∀ t ∈ l, ',' ∉ t) → Facility.splitAll ',' (join [','] l) = l
  | [], h, _ => absurd rfl h
  | [t], _, h => by rw [join]; exact Facility.splitAll_single (h t (by simp))
  | t :: u :: l, _, h => by
    rw [join, List.append_assoc, List.singleton_append, Facility.splitAll_append _ (h t (by simp)), split_join (u :: l) (by simp) fun v hv => h v (by simp [hv])]
    simp

theorem generate_ok {klass : Text} {args members : List Member} {c : Content} (h : generate klass args members = .ok c) :
    policies args = .ok c.ctorPolicies ∧ c.ctorArgs = join [','] (args.map (·.type)) ∧
    c.exposeDatamembers = join ['\n'] ((members.filter fun m => !ispointer m && isofbasictype m).map readonlyLine) ∧
    c.ptrmethods = join ['\n'] ((ptrsHavingAccessor (members.filter ispointer)).map (ptrmethod klass)) ∧
    c.exposePtrmethods = join ['\n'] ((ptrsHavingAccessor (members.filter ispointer)).map exposePtrmethod) := by
  unfold generate at h
  cases hp : policies args with
  | error e => rw [hp] at h; cases h
  | ok pol =>
    rw [hp] at h
    simp only [Except.bind] at h
    split at h
    · cases h
    · cases h
      exact ⟨rfl, rfl, rfl, rfl, rfl⟩

theorem text5 (a b c : String) (x y : Text) : (a ++ String.ofList x ++ b ++ String.ofList y ++ c).toList = a.toList ++ x ++ b.toList ++ y ++ c.toList := by
  simp only [String.toList_append, String.toList_ofList]

theorem text7 (a b c d : String) (x y z : Text) :
    (a ++ String.ofList x ++ b ++ String.ofList y ++ c ++ String.ofList z ++ d).toList = a.toList ++ x ++ b.toList ++ y ++ c.toList ++ z ++ d.toList := by
  simp only [String.toList_append, String.toList_ofList]

theorem attributeLine_eq (m : Member) : attributeLine m = readonlyLine m := text5 _ _ _ _ _

theorem methodLine_eq (m : Member) : methodLine m = exposePtrmethod m := text5 _ _ _ _ _

theorem functionLine_eq (klass : Text) (m : Member) : functionLine klass m = ptrmethod klass m := text7 _ _ _ _ _ _ _

end Verif.WrapCc
