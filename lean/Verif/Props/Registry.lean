import Verif.Lemmas.Registry
/-!
Properties of registries of components.
-/

namespace Verif.Registry

/-- C46, as far as it holds (all modules have a factory and information).  After any sequence of registrations, lookups and imports, the factory and the information that are handed out for a
component belong to one module: the newest one registered, and if there is none the one in the last repository that has one; a
component without either is reported as not registered. -/
theorem C46_newest_partial {W : World} {ops : List Op} (hW : Tidy W ops) (k : Key) :
    match (newest W ops k).or (provided W k) with
    | none => (getFactory W (run W ops) k).2 = .error .notRegistered ∧ (getInfo W (run W ops) k).2 = .error .notRegistered
    | some m => (getFactory W (run W ops) k).2 = .ok m.id ∧
        ∃ i, m.info = some i ∧ (getInfo W (run W ops) k).2 = .ok i := by
  have h := run_inv hW
  obtain ⟨f1, -⟩ := getFactory_inv hW h k
  obtain ⟨i1, i2, -⟩ := getInfo_inv hW h k
  split
  · next e => rw [e] at f1; exact ⟨f1, i2 e⟩
  · next m e => rw [e] at f1; exact ⟨f1, i1 m e⟩

/-- C46, as far as it holds.  After any such sequence a type is listed in a category exactly when a factory is registered for it, and it is listed
once. -/
theorem C46_listed_partial {W : World} {ops : List Op} (hW : Tidy W ops) (c t : String) :
    ((∃ ts, (run W ops).types c = some ts ∧ t ∈ ts) ↔ (newest W ops (c, t)).isSome) ∧
    (((run W ops).factories (c, t)).isSome ↔ (newest W ops (c, t)).isSome) ∧
    ∀ ts, (run W ops).types c = some ts → ts.Nodup := by
  have h := run_inv hW
  refine ⟨h.types c t, ?_, run_once W ops c⟩
  rw [h.factories, Option.isSome_map]

/-- two repositories with a module each of the same component -/
def twoRepos : World :=
  ⟨["a", "b"], fun repo k => if k = ("monitors", "E") then some (if repo = "a" then ⟨1, some 10, true⟩ else ⟨2, some 20, true⟩)
    else none, fun _ => [("monitors", "E")]⟩

/-- a program that registers a module of its own after everything has been imported -/
def override : List Op := [.importAll, .register ("monitors", "E") ⟨3, some 30, true⟩, .getFactory ("monitors", "E")]

theorem twoRepos_tidy (l : List Op) (hl : l = [.importAll] ∨ l = override ∨ l = []) : Tidy twoRepos l := by
  constructor
  · intro repo k m h
    simp only [twoRepos] at h
    split at h
    · have := Option.some.inj h
      split at this <;> (subst this; exact ⟨rfl, by simp⟩)
    · exact absurd h (by simp)
  · intro k m h
    rcases hl with rfl | rfl | rfl
    · simp at h
    · simp only [override, List.mem_cons, Op.register.injEq, List.not_mem_nil, or_false, reduceCtorEq, false_or] at h
      rw [h.2]; exact ⟨rfl, by simp⟩
    · simp at h

/-- the hypotheses of `C46_newest_partial` and `C46_listed_partial` hold; the answers are those of the last repository and of the program -/
example : Tidy twoRepos [.importAll] ∧ Tidy twoRepos override ∧ Tidy twoRepos [] ∧
    (newest twoRepos [.importAll] ("monitors", "E")) = some ⟨2, some 20, true⟩ ∧
    (newest twoRepos override ("monitors", "E")) = some ⟨3, some 30, true⟩ ∧
    (newest twoRepos [] ("monitors", "E")) = none ∧ provided twoRepos ("monitors", "E") = some ⟨2, some 20, true⟩ ∧
    (getFactory twoRepos (run twoRepos override) ("monitors", "E")).2 = .ok 3 := by
  refine ⟨twoRepos_tidy _ (.inl rfl), twoRepos_tidy _ (.inr (.inl rfl)), twoRepos_tidy _ (.inr (.inr rfl)), ?_, ?_, ?_, ?_, ?_⟩ <;>
    decide

/-- a repository with one module that lacks an attribute -/
def broken (m : Mod) : World := ⟨["a"], fun _ k => if k = ("monitors", "E") then some m else none, fun _ => []⟩

/-- C46 fails for modules that are not complete: a request that ends with an exception leaves traces.  Without `info` the first
request for the factory raises an exception and the second one succeeds. -/
theorem C46_retry_false : ∃ W : World, ∃ k : Key,
    (getFactory W empty k).2 = .error .attributeError ∧ (getFactory W (getFactory W empty k).1 k).2 = .ok 1 :=
  ⟨broken ⟨1, none, true⟩, ("monitors", "E"), by decide, by decide⟩

/-- C46 fails for modules that are not complete.  Without `factory` the request raises an exception and the type is listed all
the same, though no factory is registered. -/
theorem C46_listed_false : ∃ W : World, ∃ k : Key, (getFactory W empty k).2 = .error .attributeError ∧
    (getFactory W empty k).1.types k.1 = some [k.2] ∧ (getFactory W empty k).1.factories k = none :=
  ⟨broken ⟨1, some 10, false⟩, ("monitors", "E"), by decide, by decide, by decide⟩

/-- C147, as far as it holds.  A component that is listed can be obtained, if the modules of its name in all repositories agree
on the category and define the component; it is the one of the last repository.  Missing: modules of one name in several
categories. -/
theorem C147_obtained_partial {W : World'} {r : Reg'} {k : Key} (hl : k ∈ staticList W) (hr : r k = none)
    (hm : ∀ repo ∈ W.repos, ∀ m, W.load repo k.2 = some m → m.category = some k.1 ∧ m.hasType = true) :
    ∃ m, (W.repos.filterMap fun repo => W.load repo k.2).getLast? = some m ∧ (getFactory' W r k).2 = .ok m.id := by
  unfold staticList at hl
  rw [List.mem_dedup, List.mem_flatMap] at hl
  obtain ⟨repo, h1, h2⟩ := hl
  obtain ⟨t, -, h3⟩ := List.mem_filterMap.1 h2
  obtain ⟨m0, h4, h5⟩ := Option.bind_eq_some_iff.1 h3
  obtain ⟨c, -, h6⟩ := Option.map_eq_some_iff.1 h5
  have ht : t = k.2 := by rw [← h6]
  subst ht
  have hmem : m0 ∈ W.repos.filterMap fun repo => W.load repo k.2 := List.mem_filterMap.2 ⟨repo, h1, h4⟩
  obtain ⟨m, hlast⟩ : ∃ m, (W.repos.filterMap fun repo => W.load repo k.2).getLast? = some m := by
    cases h : (W.repos.filterMap fun repo => W.load repo k.2).getLast? with
    | none => rw [List.getLast?_eq_none_iff] at h; rw [h] at hmem; simp at hmem
    | some m => exact ⟨m, rfl⟩
  refine ⟨m, hlast, ?_⟩
  obtain ⟨repo', g1, g2⟩ := List.mem_filterMap.1 (List.mem_of_getLast? hlast)
  obtain ⟨g3, g4⟩ := hm repo' g1 m g2
  unfold getFactory'
  rw [hr, lastModule_eq, hlast]
  simp [g3, g4]

/-- two repositories of mcni with modules of the same name -/
def shadow (c : String) : World' :=
  ⟨["a", "b"], fun repo t => if t = "E" then some (if repo = "a" then ⟨1, some "monitors", true⟩ else ⟨2, some c, true⟩)
    else none, fun _ => ["E"]⟩

/-- the hypotheses of `C147_obtained_partial` hold for two modules of the same category -/
example : ("monitors", "E") ∈ staticList (shadow "monitors") ∧
    (∀ repo ∈ (shadow "monitors").repos, ∀ m, (shadow "monitors").load repo "E" = some m →
      m.category = some "monitors" ∧ m.hasType = true) ∧
    (getFactory' (shadow "monitors") (fun _ => none) ("monitors", "E")).2 = .ok 2 := by
  refine ⟨by decide, ?_, by decide⟩
  intro repo _ m h
  simp only [shadow, if_true, Option.some.injEq] at h
  split at h <;> (subst h; exact ⟨rfl, rfl⟩)

/-- C147 is false: a component of the list that cannot be obtained, since a later repository has a module of the same name in
another category. -/
theorem C147_shadow_false : ∃ (W : World') (k : Key), k ∈ staticList W ∧
    (getFactory' W (fun _ => none) k).2 = .error .runtimeError :=
  ⟨shadow "sources", ("monitors", "E"), by decide, by decide⟩

/-- C147.  A component that a program has registered is listed and handed out, and a component that has been obtained once is
handed out again by every later request, whatever else is requested in between. -/
theorem C147_stable (W : World') (r : Reg') (k : Key) (f : Nat) (ks : List Key) :
    listed W (put r k f) k ∧ (getFactory' W (put r k f) k).2 = .ok f ∧
    ((getFactory' W r k).2 = .ok f →
      (getFactory' W (ks.foldl (fun r k' => (getFactory' W r k').1) (getFactory' W r k).1) k).2 = .ok f) := by
  have hgot : ∀ r : Reg', r k = some f → (getFactory' W r k).2 = .ok f := by
    intro r h; unfold getFactory'; rw [h]
  have hput : put r k f k = some f := by simp [put]
  refine ⟨Or.inr (by rw [hput]; rfl), hgot _ hput, fun h => hgot _ ?_⟩
  have h0 : (getFactory' W r k).1 k = some f := by
    unfold getFactory' at h ⊢
    cases hr : r k with
    | some g => rw [hr] at h; simp only at h ⊢; rw [hr]; cases h; rfl
    | none =>
      rw [hr] at h
      simp only at h ⊢
      cases hm : lastModule W k.2 with
      | none => rw [hm] at h; simp at h
      | some m =>
        rw [hm] at h
        simp only at h ⊢
        cases hc : m.category with
        | none => rw [hc] at h; simp at h
        | some c =>
          rw [hc] at h
          simp only at h ⊢
          split at h
          · simp at h
          · next hk =>
            rw [if_neg hk]
            split at h
            · next ht => rw [if_pos ht]; cases h; simp [put]
            · simp at h
  generalize (getFactory' W r k).1 = r0 at h0
  induction ks generalizing r0 with
  | nil => exact h0
  | cons k' ks ih =>
    rw [List.foldl_cons]
    apply ih
    unfold getFactory'
    split
    · exact h0
    · next hn =>
      split
      · exact h0
      · split
        · exact h0
        · split
          · exact h0
          · split
            · simp only [put]
              rw [if_neg]
              · exact h0
              · rintro rfl; rw [hn] at h0; exact absurd h0 (by simp)
            · exact h0

/-- a component that is obtained, `C147_stable` -/
example : (getFactory' (shadow "monitors") (fun _ => none) ("monitors", "E")).2 = .ok 2 := by decide

end Verif.Registry
