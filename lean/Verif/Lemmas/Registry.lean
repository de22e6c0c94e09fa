import Verif.Spec.Registry
import Mathlib.Data.List.Dedup
import Mathlib.Data.List.Induction
/-!
Helper lemmas for registries.
-/

namespace Verif.Registry

theorem find_eq (W : World) (k : Key) : find W k = provided W k := by
  unfold find provided
  induction W.repos using List.reverseRecOn with
  | nil => rfl
  | append_singleton l a ih =>
    rw [List.reverse_append, List.filterMap_append]
    simp only [List.reverse_cons, List.reverse_nil, List.nil_append, List.singleton_append, List.findSome?_cons, ih]
    cases h : W.load a k with
    | none => simp [h]
    | some m => simp [h]

/-- what is known about a registry: `cur` holds the newest modules -/
structure Inv (r : Reg) (cur : Key → Option Mod) : Prop where
  factories : ∀ k, r.factories k = (cur k).map (·.id)
  infos : ∀ k, r.infos k = (cur k).bind (·.info)
  complete : ∀ k m, cur k = some m → Complete m
  types : ∀ c t, (∃ ts, r.types c = some ts ∧ t ∈ ts) ↔ (cur (c, t)).isSome

theorem addType_spec (r : Reg) (k : Key) : (addType r k).factories = r.factories ∧ (addType r k).infos = r.infos ∧
    ∀ c t, (∃ ts, (addType r k).types c = some ts ∧ t ∈ ts) ↔ (c, t) = k ∨ ∃ ts, r.types c = some ts ∧ t ∈ ts := by
  obtain ⟨kc, kt⟩ := k
  unfold addType
  cases h : r.types kc with
  | none =>
    refine ⟨rfl, rfl, fun c t => ?_⟩
    simp only [put]
    by_cases hc : c = kc
    · subst hc; simp [h]
    · simp [hc]
  | some ts =>
    by_cases ht : kt ∈ ts
    · simp only [ht, if_true]
      refine ⟨trivial, trivial, fun c t => ⟨Or.inr, ?_⟩⟩
      rintro (h1 | h1)
      · rw [Prod.mk.injEq] at h1
        obtain ⟨rfl, rfl⟩ := h1
        exact ⟨ts, h, ht⟩
      · exact h1
    · simp only [ht, if_false]
      refine ⟨trivial, trivial, fun c t => ?_⟩
      simp only [put]
      by_cases hc : c = kc
      · subst hc
        simp only [if_true, Option.some.injEq, exists_eq_left', List.mem_append, List.mem_singleton, h, Prod.mk.injEq,
          true_and]
        tauto
      · simp [hc]

theorem register_inv {r : Reg} {cur : Key → Option Mod} (h : Inv r cur) {k : Key} {m : Mod} (hm : Complete m) :
    (register r k m).2 = .ok () ∧ Inv (register r k m).1 (fun k' => if k = k' then some m else cur k') := by
  obtain ⟨hf, hi⟩ := hm
  obtain ⟨i, hi⟩ := Option.ne_none_iff_exists'.1 hi
  obtain ⟨a1, a2, a3⟩ := addType_spec r k
  unfold register
  simp only [hf, Bool.not_true, Bool.false_eq_true, if_false, hi]
  refine ⟨trivial, ⟨fun k' => ?_, fun k' => ?_, fun k' m' => ?_, fun c t => ?_⟩⟩
  · simp only [put, a1]
    by_cases hk : k' = k
    · subst hk; simp
    · rw [if_neg hk, if_neg (Ne.symm hk), h.factories]
  · simp only [put, a2]
    by_cases hk : k' = k
    · subst hk; simp [hi]
    · rw [if_neg hk, if_neg (Ne.symm hk), h.infos]
  · by_cases hk : k = k'
    · rw [if_pos hk]
      intro e
      rw [← Option.some.inj e]
      exact ⟨hf, by rw [hi]; simp⟩
    · rw [if_neg hk]; exact h.complete k' m'
  · rw [a3, h.types]
    by_cases hk : k = (c, t)
    · simp [hk]
    · rw [if_neg hk]
      constructor
      · rintro (h1 | h1)
        · exact absurd h1.symm hk
        · exact h1
      · exact Or.inr

theorem import_inv {W : World} {ops : List Op} (hW : Tidy W ops) {r : Reg} {cur : Key → Option Mod} (h : Inv r cur) (k : Key) :
    (match provided W k with
    | none => importComponent W r k = (r, .error .notRegistered)
    | some m => (importComponent W r k).2 = .ok m ∧
        Inv (importComponent W r k).1 (fun k' => if k = k' then some m else cur k')) ∧
    ∀ m, provided W k = some m → Complete m := by
  have hc : ∀ m, provided W k = some m → Complete m := by
    intro m hm
    unfold provided at hm
    have := List.mem_of_getLast? hm
    obtain ⟨repo, -, hl⟩ := List.mem_filterMap.1 this
    exact hW.repos repo k m hl
  refine ⟨?_, hc⟩
  unfold importComponent
  rw [find_eq]
  cases hp : provided W k with
  | none => rfl
  | some m =>
    obtain ⟨e1, e2⟩ := register_inv h (k := k) (hc m hp)
    simp only
    refine ⟨?_, e2⟩
    rw [e1]
    rfl

theorem inv_congr {r : Reg} {cur cur' : Key → Option Mod} (h : Inv r cur) (e : ∀ k, cur' k = cur k) : Inv r cur' := by
  have : cur' = cur := funext e
  rwa [this]

theorem getFactory_inv {W : World} {ops : List Op} (hW : Tidy W ops) {r : Reg} {cur : Key → Option Mod} (h : Inv r cur) (k : Key) :
    (getFactory W r k).2 = (match (cur k).or (provided W k) with | none => .error .notRegistered | some m => .ok m.id) ∧
    Inv (getFactory W r k).1 (fun k' => if k = k' then (cur k').or (provided W k') else cur k') := by
  unfold getFactory
  obtain ⟨hi, -⟩ := import_inv hW h k
  cases hc : cur k with
  | some m =>
    simp only [h.factories, hc, Option.map_some, Option.some_or]
    refine ⟨trivial, inv_congr h fun k' => ?_⟩
    split
    · next e => subst e; rw [hc]; rfl
    · rfl
  | none =>
    simp only [h.factories, hc, Option.map_none, Option.none_or]
    cases hp : provided W k with
    | none =>
      rw [hp] at hi
      simp only at hi
      rw [hi]
      refine ⟨rfl, inv_congr h fun k' => ?_⟩
      split
      · next e => subst e; rw [hc, hp]; rfl
      · rfl
    | some m =>
      rw [hp] at hi
      simp only at hi
      obtain ⟨e1, e2⟩ := hi
      constructor
      · simp only [e1]
        show (match (importComponent W r k).1.factories k with
          | some f => Except.ok f
          | none => .error Err.keyError) = _
        rw [e2.factories]
        simp
      · refine inv_congr e2 fun k' => ?_
        split
        · next e => subst e; rw [hc, hp]; rfl
        · rfl

theorem getInfo_inv {W : World} {ops : List Op} (hW : Tidy W ops) {r : Reg} {cur : Key → Option Mod} (h : Inv r cur) (k : Key) :
    (∀ m, (cur k).or (provided W k) = some m → ∃ i, m.info = some i ∧ (getInfo W r k).2 = .ok i) ∧
    ((cur k).or (provided W k) = none → (getInfo W r k).2 = .error .notRegistered) ∧
    Inv (getInfo W r k).1 (fun k' => if k = k' then (cur k').or (provided W k') else cur k') := by
  unfold getInfo
  obtain ⟨hi, hcomp⟩ := import_inv hW h k
  cases hc : cur k with
  | some m =>
    obtain ⟨i, hm⟩ := Option.ne_none_iff_exists'.1 (h.complete k m hc).2
    simp only [h.infos, hc, Option.bind_some, hm, Option.some_or]
    refine ⟨fun m' e => ⟨i, by rw [← Option.some.inj e, hm], rfl⟩, fun e => by simp at e, inv_congr h fun k' => ?_⟩
    split
    · next e => subst e; rw [hc]; rfl
    · rfl
  | none =>
    simp only [h.infos, hc, Option.bind_none, Option.none_or]
    cases hp : provided W k with
    | none =>
      rw [hp] at hi
      simp only at hi
      rw [hi]
      refine ⟨fun m' e => by simp at e, fun _ => rfl, inv_congr h fun k' => ?_⟩
      split
      · next e => subst e; rw [hc, hp]; rfl
      · rfl
    | some m =>
      rw [hp] at hi
      simp only at hi
      obtain ⟨e1, e2⟩ := hi
      obtain ⟨i, hm⟩ := Option.ne_none_iff_exists'.1 (hcomp m hp).2
      refine ⟨fun m' e => ⟨i, by rw [← Option.some.inj e, hm], ?_⟩, fun e => by simp at e, ?_⟩
      · simp only [e1]
        show (match m.info with
          | some i => Except.ok i
          | none => .error Err.attributeError) = _
        rw [hm]
      · refine inv_congr e2 fun k' => ?_
        split
        · next e => subst e; rw [hc, hp]; rfl
        · rfl

/-- the newest modules after some entries of a repository -/
def entries (W : World) (repo : String) (ks : List Key) (k : Key) : List Mod :=
  ks.filterMap fun k' => if k' = k then (W.load repo k').filter (·.factory) else none

theorem entry_inv {W : World} {ops : List Op} (hW : Tidy W ops) (repo : String) : ∀ (ks : List Key) {r : Reg}
    {cur : Key → Option Mod}, Inv r cur → (ks.foldl (importEntry W repo) (r, .ok ())).2 = .ok () ∧
      Inv (ks.foldl (importEntry W repo) (r, .ok ())).1 (fun k => (entries W repo ks k).getLast?.or (cur k))
  | [], r, cur, h => ⟨rfl, inv_congr h fun k => by simp [entries]⟩
  | k0 :: ks, r, cur, h => by
    rw [List.foldl_cons]
    have hstep : importEntry W repo (r, .ok ()) k0 = (r, .ok ()) ∧ (W.load repo k0).filter (·.factory) = none ∨
        ∃ m, W.load repo k0 = some m ∧ m.factory = true ∧ importEntry W repo (r, .ok ()) k0 = register r k0 m := by
      unfold importEntry
      simp only
      cases hl : W.load repo k0 with
      | none => left; exact ⟨rfl, rfl⟩
      | some m =>
        right
        have := (hW.repos repo k0 m hl).1
        exact ⟨m, rfl, this, by simp [this]⟩
    rcases hstep with ⟨h1, h2⟩ | ⟨m, h1, h2, h3⟩
    · rw [h1]
      obtain ⟨e1, e2⟩ := entry_inv hW repo ks h
      refine ⟨e1, inv_congr e2 fun k => ?_⟩
      unfold entries
      rw [List.filterMap_cons]
      by_cases hk : k0 = k
      · subst hk; simp [h2]
      · simp [hk]
    · obtain ⟨f1, f2⟩ := register_inv h (k := k0) (hW.repos repo k0 m h1)
      rw [h3, show register r k0 m = ((register r k0 m).1, .ok ()) by rw [← f1]]
      obtain ⟨e1, e2⟩ := entry_inv hW repo ks f2
      refine ⟨e1, inv_congr e2 fun k => ?_⟩
      unfold entries
      rw [List.filterMap_cons]
      by_cases hk : k0 = k
      · subst hk
        simp only [if_true, h1, Option.filter_some, h2]
        rw [List.getLast?_cons]
        cases (List.filterMap _ ks).getLast? <;> simp
      · simp [hk]

theorem importAll_inv {W : World} {ops : List Op} (hW : Tidy W ops) {r : Reg} {cur : Key → Option Mod} (h : Inv r cur) :
    (importAll W r).2 = .ok () ∧ Inv (importAll W r).1 (fun k => (importable W k).getLast?.or (cur k)) := by
  unfold importAll importable
  generalize W.repos = repos
  induction repos generalizing r cur with
  | nil => exact ⟨rfl, inv_congr h fun k => by simp⟩
  | cons repo repos ih =>
    rw [List.foldl_cons]
    obtain ⟨e1, e2⟩ := entry_inv hW repo (W.contents repo) h
    obtain ⟨s, hs⟩ : ∃ s, s = List.foldl (importEntry W repo) (r, .ok ()) (W.contents repo) := ⟨_, rfl⟩
    rw [← hs] at e1 e2 ⊢
    rw [show s = (s.1, .ok ()) by rw [← e1]]
    obtain ⟨f1, f2⟩ := ih e2
    refine ⟨f1, inv_congr f2 fun k => ?_⟩
    rw [List.flatMap_cons, List.getLast?_append]
    simp only [entries, Option.or_assoc]

theorem step_inv {W : World} {ops : List Op} (hW : Tidy W ops) {r : Reg} {cur : Key → Option Mod} (h : Inv r cur)
    {op : Op} (hop : op ∈ ops) : Inv (step W r op) (fun k => newer W k (cur k) op) := by
  cases op with
  | register k m => exact (register_inv h (hW.calls k m hop)).2
  | getFactory k => exact (getFactory_inv hW h k).2
  | getInfo k => exact (getInfo_inv hW h k).2.2
  | importAll => exact (importAll_inv hW h).2

theorem empty_inv : Inv empty (fun _ => none) :=
  ⟨fun _ => rfl, fun _ => rfl, by simp, by simp [empty]⟩

theorem run_inv {W : World} {ops : List Op} (hW : Tidy W ops) : Inv (run W ops) (newest W ops) := by
  have key : ∀ (l : List Op) {r : Reg} {cur : Key → Option Mod}, (∀ o ∈ l, o ∈ ops) → Inv r cur →
      Inv (l.foldl (step W) r) (fun k => l.foldl (newer W k) (cur k)) := by
    intro l
    induction l with
    | nil => intro r cur _ h; exact h
    | cons o l ih =>
      intro r cur ho h
      rw [List.foldl_cons]
      exact ih (fun o' h' => ho o' (List.mem_cons_of_mem _ h')) (step_inv hW h (ho o List.mem_cons_self))
  exact key ops (fun _ h => h) empty_inv

/-- every type is listed once -/
def Once (r : Reg) : Prop := ∀ c ts, r.types c = some ts → ts.Nodup

theorem addType_once {r : Reg} (h : Once r) (k : Key) : Once (addType r k) := by
  unfold addType
  cases ht : r.types k.1 with
  | none =>
    intro c ts e
    simp only [put] at e
    split at e
    · rw [← Option.some.inj e]; simp
    · exact h c ts e
  | some ts0 =>
    simp only
    split
    · exact h
    · next hn =>
      intro c ts e
      simp only [put] at e
      split at e
      · rw [← Option.some.inj e]
        exact List.nodup_append.2 ⟨h k.1 ts0 ht, by simp, by
          intro a ha b hb
          rw [List.mem_singleton] at hb
          subst hb
          rintro rfl
          exact hn ha⟩
      · exact h c ts e

theorem register_types (r : Reg) (k : Key) (m : Mod) : (register r k m).1.types = (addType r k).types := by
  unfold register
  simp only
  split
  · rfl
  · split <;> rfl

theorem register_once {r : Reg} (h : Once r) (k : Key) (m : Mod) : Once (register r k m).1 := by
  intro c ts e
  rw [register_types] at e
  exact addType_once h k c ts e

theorem import_once {W : World} {r : Reg} (h : Once r) (k : Key) : Once (importComponent W r k).1 := by
  unfold importComponent
  split
  · exact h
  · exact register_once h k _

theorem importAll_once {W : World} {r : Reg} (h : Once r) : Once (importAll W r).1 := by
  have key : ∀ (repo : String) (ks : List Key) (s : Reg × Except Err Unit), Once s.1 →
      Once (ks.foldl (importEntry W repo) s).1 := by
    intro repo ks
    induction ks with
    | nil => intro s h; exact h
    | cons k ks ih =>
      intro s h
      rw [List.foldl_cons]
      apply ih
      unfold importEntry
      split
      · exact h
      · split
        · exact h
        · split
          · exact register_once h k _
          · exact h
  unfold importAll
  have : ∀ (repos : List String) (s : Reg × Except Err Unit), Once s.1 →
      Once (repos.foldl (fun s repo => (W.contents repo).foldl (importEntry W repo) s) s).1 := by
    intro repos
    induction repos with
    | nil => intro s h; exact h
    | cons a l ih => intro s h; rw [List.foldl_cons]; exact ih _ (key a _ s h)
  exact this _ _ h

theorem step_once {W : World} {r : Reg} (h : Once r) (op : Op) : Once (step W r op) := by
  cases op with
  | register k m => exact register_once h k m
  | getFactory k =>
    show Once (getFactory W r k).1
    unfold getFactory
    split
    · exact h
    · exact import_once h k
  | getInfo k =>
    show Once (getInfo W r k).1
    unfold getInfo
    split
    · exact h
    · exact import_once h k
  | importAll => exact importAll_once h

theorem run_once (W : World) (ops : List Op) : Once (run W ops) := by
  unfold run
  have : ∀ (l : List Op) (r : Reg), Once r → Once (l.foldl (step W) r) := by
    intro l
    induction l with
    | nil => intro r h; exact h
    | cons o l ih => intro r h; rw [List.foldl_cons]; exact ih _ (step_once h o)
  exact this ops empty (by intro c ts e; simp [empty] at e)

/-! ### RegistryBase -/

theorem lastModule_eq (W : World') (t : String) : lastModule W t = (W.repos.filterMap fun repo => W.load repo t).getLast? := by
  unfold lastModule
  have : ∀ (l : List String) (m : Option Mod'),
      l.foldl (fun m repo => match W.load repo t with | none => m | some m' => some m') m =
        (l.filterMap fun repo => W.load repo t).getLast?.or m := by
    intro l
    induction l with
    | nil => intro m; simp
    | cons a l ih =>
      intro m
      rw [List.foldl_cons, ih, List.filterMap_cons]
      cases W.load a t with
      | none => rfl
      | some m' =>
        simp only [List.getLast?_cons]
        cases (l.filterMap fun repo => W.load repo t).getLast? <;> rfl
  exact (this W.repos none).trans (Option.or_none ..)

end Verif.Registry
