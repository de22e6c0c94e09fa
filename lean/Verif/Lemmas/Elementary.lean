import Verif.Spec.Elementary
import Mathlib.Data.List.Basic
/-!
Lemmas about the settings of a pyre component made for a component of McStas.
-/

namespace Verif.Elementary

open Spec

variable {V : Type}

theorem traitType_ok {c t : String} (h : TypeOf c t) : traitType c = .ok t := by
  cases h <;> rfl

theorem traitType_typeOf {c t : String} (h : traitType c = .ok t) : TypeOf c t := by
  unfold traitType at h
  split at h
  · rename_i hc; cases h
    rcases hc with rfl | rfl
    · exact .constText
    · exact .text
  · split at h
    · rename_i hc; cases h
      rcases hc with rfl | rfl
      · exact .float
      · exact .double
    · split at h
      · rename_i hc; cases h; subst hc; exact .int
      · cases h

/-- the body of the class is usable: the module and the functions are not hidden -/
structure Good (ns : Ns V) : Prop where
  pinv : ns "pinv" = some .pinv
  exec : ns "exec" = none
  locals : ns "locals" = none
  ts : ns "_trait_str" = none

theorem put_same (ns : Ns V) (n : String) (o : Option (Obj V)) : put ns n o n = o := if_pos rfl

theorem put_other (ns : Ns V) {n m : String} (o : Option (Obj V)) (h : m ≠ n) : put ns n o m = ns m := if_neg h

theorem Good.put {ns : Ns V} (g : Good ns) {n : String} (o : Option (Obj V)) (h : n ≠ "pinv" ∧ n ≠ "exec" ∧ n ≠ "locals" ∧ n ≠ "_trait_str") :
    Good (put ns n o) :=
  ⟨(put_other _ _ h.1.symm).trans g.pinv, (put_other _ _ h.2.1.symm).trans g.exec, (put_other _ _ h.2.2.1.symm).trans g.locals,
    (put_other _ _ h.2.2.2.symm).trans g.ts⟩

theorem Good.loop {ns : Ns V} (g : Good ns) (a : Arg V) : Good (Elementary.put ns "arg" (some (.loop a))) :=
  g.put _ (by decide)

theorem turn_good {ns : Ns V} (g : Good ns) (a : Arg V) :
    turn ns a = match traitType a.type with
      | .error e => .error e
      | .ok t => .ok (put (put ns "arg" (some (.loop a))) a.name (some (.trait t a.name a.default a.description))) := by
  have g' := g.loop a
  unfold turn
  simp only [g'.ts, g'.locals, g'.exec, Option.isSome_none, Bool.false_eq_true, if_false]
  cases traitType a.type with
  | error e => rfl
  | ok t => simp only [execTrait, g'.pinv]

theorem turns_good (args : List (Arg V)) : ∀ (ns : Ns V), Good ns → (∀ a ∈ args, Free a.name) → (args.map Arg.name).Nodup →
    (∀ a ∈ args, ∃ t, TypeOf a.type t) →
    ∃ ns', turns ns args = .ok ns' ∧ Good ns' ∧
      (∀ a ∈ args, ∃ t, TypeOf a.type t ∧ ns' a.name = some (.trait t a.name a.default a.description)) ∧
      ∀ n, n ≠ "arg" → n ∉ args.map Arg.name → ns' n = ns n := by
  induction args with
  | nil => intro ns g _ _ _; exact ⟨ns, rfl, g, by simp, fun _ _ _ => rfl⟩
  | cons a as ih =>
    intro ns g hf hd ht
    obtain ⟨t, hty⟩ := ht a List.mem_cons_self
    have hfa := hf a List.mem_cons_self
    rw [List.map_cons, List.nodup_cons] at hd
    have hturn := turn_good g a
    rw [traitType_ok hty] at hturn
    obtain ⟨ns', h1, h2, h3, h4⟩ := ih _ ((g.loop a).put (n := a.name) (some (.trait t a.name a.default a.description)) ⟨hfa.2.1, hfa.2.2.1, hfa.2.2.2.1, hfa.2.2.2.2⟩)
      (fun b hb => hf b (List.mem_cons_of_mem _ hb)) hd.2 (fun b hb => ht b (List.mem_cons_of_mem _ hb))
    refine ⟨ns', ?_, h2, ?_, ?_⟩
    · unfold turns; rw [hturn]; exact h1
    · intro b hb
      rcases List.mem_cons.mp hb with rfl | hb
      · exact ⟨t, hty, by rw [h4 _ hfa.1 hd.1, put_same]⟩
      · exact h3 b hb
    · intro n hn hm
      rw [List.map_cons, List.mem_cons, not_or] at hm
      rw [h4 n hn hm.2, put_other _ _ hm.1, put_other _ _ hn]

theorem start_good : Good (put (fun _ => none) "pinv" (some .pinv) : Ns V) := ⟨rfl, rfl, rfl, rfl⟩

theorem inventory_good (args : List (Arg V)) (hf : ∀ a ∈ args, Free a.name) (hd : (args.map Arg.name).Nodup)
    (ht : ∀ a ∈ args, ∃ t, TypeOf a.type t) : ∃ ns, inventory args = .ok ns ∧ Settings args ns := by
  obtain ⟨ns, h1, h2, h3, h4⟩ := turns_good args _ start_good hf hd ht
  refine ⟨put ns "arg" none, ?_, ?_, ?_⟩
  · unfold inventory; rw [h1]; simp [h2.locals]
  · intro a ha
    obtain ⟨t, hty, he⟩ := h3 a ha
    exact ⟨t, hty, by rw [put_other _ _ (hf a ha).1, he]⟩
  · intro n t s d tip h
    by_cases hn : n = "arg"
    · subst hn; rw [put_same] at h; cases h
    · rw [put_other _ _ hn] at h
      by_cases hm : n ∈ args.map Arg.name
      · obtain ⟨a, ha, e⟩ := List.mem_map.mp hm; exact ⟨a, ha, e⟩
      · rw [h4 n hn hm] at h
        by_cases hp : n = "pinv"
        · subst hp; rw [put_same] at h; cases h
        · rw [put_other _ _ hp] at h; cases h

theorem kwdsOf_good {ns : Ns V} {user : String → Option V} (args : List (Arg V))
    (h : ∀ a ∈ args, ∃ t, TypeOf a.type t ∧ ns a.name = some (.trait t a.name a.default a.description)) :
    kwdsOf ns user args = .ok (args.map fun a => (a.name, (user a.name).getD a.default)) := by
  induction args with
  | nil => rfl
  | cons a as ih =>
    obtain ⟨t, _, he⟩ := h a List.mem_cons_self
    unfold kwdsOf
    rw [ih fun b hb => h b (List.mem_cons_of_mem _ hb)]
    simp only [setting, he, List.map_cons]

theorem putName_eq (v : V) (l : List (String × V)) (h : "name" ∉ l.map Prod.fst) : putName v l = l ++ [("name", v)] := by
  induction l with
  | nil => rfl
  | cons p ps ih =>
    rw [List.map_cons, List.mem_cons, not_or] at h
    unfold putName
    rw [if_neg (fun e => h.1 e.symm), ih h.2]; rfl

/-- a setting called `arg` is deleted at the end -/
theorem inventory_arg {args : List (Arg V)} {ns : Ns V} (h : inventory args = .ok ns) : ns "arg" = none := by
  unfold inventory at h
  split at h
  · cases h
  · split at h
    · cases h
    · cases h; exact put_same _ _ _

theorem kwdsOf_none {ns : Ns V} {user : String → Option V} {n : String} (hn : ns n = none) :
    ∀ (args : List (Arg V)), n ∈ args.map Arg.name → ∃ e, kwdsOf ns user args = .error e := by
  intro args
  induction args with
  | nil => intro h; simp at h
  | cons a as ih =>
    intro h
    rw [List.map_cons, List.mem_cons] at h
    unfold kwdsOf
    rcases h with rfl | h
    · exact ⟨.attributeError, by simp only [setting, hn]⟩
    · obtain ⟨e, he⟩ := ih h
      cases setting ns user a.name with
      | error e' => exact ⟨e', rfl⟩
      | ok v => exact ⟨e, by rw [he]⟩

/-- a type of C that is not in the table is refused, whatever else the component has -/
theorem turns_type (pre : List (Arg V)) (a : Arg V) (post : List (Arg V)) (ha : ∀ t, ¬ TypeOf a.type t) :
    ∀ ns : Ns V, ∃ e, turns ns (pre ++ a :: post) = .error e := by
  induction pre with
  | nil =>
    intro ns
    have : ∃ e, turn ns a = .error e := by
      unfold turn
      dsimp only
      split
      · exact ⟨_, rfl⟩
      · cases h : traitType a.type with
        | error e => exact ⟨e, rfl⟩
        | ok t => exact absurd (traitType_typeOf h) (ha t)
    obtain ⟨e, he⟩ := this
    exact ⟨e, by rw [List.nil_append]; unfold turns; rw [he]⟩
  | cons b bs ih =>
    intro ns
    rw [List.cons_append]
    unfold turns
    cases turn ns b with
    | error e => exact ⟨e, rfl⟩
    | ok ns' => exact ih ns'

end Verif.Elementary
