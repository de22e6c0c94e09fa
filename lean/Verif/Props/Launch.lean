import Verif.Lemmas.Launch
/-!
Properties C273–C276.
-/

namespace Verif.Launch

/-- C273 (partial): the processes that a launcher starts in a shell get the arguments of the user unchanged, and one more, `--mode=worker`;
without the arguments that the shell changes -/
theorem C273_partial (s : Settings) (extra : List Text) (argv0 : Text) (argv : List Text) (hc : PlainWord s.command) (ho : PlainWord s.nodesopt)
    (he : shell s.extra = some extra) (hpy : PlainWord s.python) (h0 : PlainWord argv0) (ha : ∀ a ∈ argv, PlainWord a ∨ PlainOption a) :
    ∃ args, mpiArgs s argv0 argv = .ok args ∧ shell (join args) = some (started s extra argv0 argv) := by
  refine ⟨_, by unfold mpiArgs; rw [if_neg hpy.1], ?_⟩
  have hn : shell (s.nodesopt ++ " ".toList ++ Nat.toDigits 10 (processes s.nodes)) = some ([s.nodesopt] ++ [Nat.toDigits 10 (processes s.nodes)]) := by
    have := shell_append (Nat.toDigits 10 (processes s.nodes)) _ (shell_word _ (plain_digits _)) s.nodesopt false none _ (shell_word _ ho)
    simpa [shell] using this
  have hw : PlainWord "--mode=worker".toList := ⟨by decide, by decide⟩
  have hmap : ∀ argv : List Text, (∀ a ∈ argv, PlainWord a ∨ PlainOption a) → argv ≠ [] → shell (join (argv.map quoteArg)) = some argv := by
    intro argv
    induction argv with
    | nil => intro _ h; exact absurd rfl h
    | cons a as ih =>
      intro h _
      cases as with
      | nil => simpa [join] using shell_quote a (h a (by simp))
      | cons b bs =>
        have := shell_append _ _ (ih (fun x hx => h x (List.mem_cons_of_mem _ hx)) (by simp)) (quoteArg a) false none _ (shell_quote a (h a (by simp)))
        simpa [join, shell] using this
  have step : ∀ (a : Text) (wa : List Text) (as : List Text) (ws : List Text), shell a = some wa → as ≠ [] → shell (join as) = some ws →
      shell (join (a :: as)) = some (wa ++ ws) := by
    intro a wa as ws h1 h2 h3
    cases as with
    | nil => exact absurd rfl h2
    | cons b bs => exact shell_append _ _ h3 a false none _ h1
  have hlast : shell (join ("--mode=worker".toList :: argv.map quoteArg)) = some (["--mode=worker".toList] ++ argv) := by
    by_cases h : argv = []
    · subst h; exact shell_word _ hw
    · exact step _ _ _ _ (shell_word _ hw) (by simpa using h) (hmap argv ha h)
  have hp : processes s.nodes = (max 1 s.nodes).toNat := by
    unfold processes
    split_ifs <;> omega
  have := step _ _ _ _ (shell_word _ hc) (by simp) (step _ _ _ _ he (by simp) (step _ _ _ _ hn (by simp) (step _ _ _ _ (shell_word _ hpy) (by simp)
    (step _ _ _ _ (shell_word _ h0) (by simp) hlast))))
  simp only [List.cons_append, List.nil_append] at this ⊢
  rw [this, started, hp]
  simp

example : PlainWord (mpirun "/usr/bin/python".toList 4).command ∧ shell (mpirun "/usr/bin/python".toList 4).extra = some [] ∧
    PlainOption "--title=a beam".toList ∧ PlainWord "--overwrite-datafiles".toList := by
  refine ⟨⟨by decide, by decide⟩, rfl, ⟨"--title".toList, "a beam".toList, by decide, by decide, by decide, by decide⟩, by decide, by decide⟩

/-- C273: the command for a script is run by the launcher that is chosen, with the number of nodes; without parallel processes it is run as it is -/
theorem C273_cmd (n : Nat) (cmd : Text) (w : List Text) (h : shell cmd = some w) :
    (∃ c, buildLaunchCmd "mpirun".toList n cmd = .ok c ∧ shell c = some (["mpirun".toList, "-np".toList, Nat.toDigits 10 n] ++ w)) ∧
    (∃ c, buildLaunchCmd "slurm".toList n cmd = .ok c ∧ shell c = some (["srun".toList, "-n".toList, Nat.toDigits 10 n] ++ w)) ∧
    buildLaunchCmd "serial".toList n cmd = .ok cmd ∧
    ∀ l, l ≠ "mpirun".toList → l ≠ "slurm".toList → l ≠ "serial".toList → buildLaunchCmd l n cmd = .error .notImplemented := by
  have key : ∀ a b : Text, PlainWord a → PlainWord b → shell (a ++ ' ' :: (b ++ ' ' :: (Nat.toDigits 10 n ++ ' ' :: cmd))) =
      some ([a, b, Nat.toDigits 10 n] ++ w) := by
    intro a b ha hb
    have h1 := shell_append cmd w h (Nat.toDigits 10 n) false none _ (shell_word _ (plain_digits n))
    have h2 := shell_append _ _ h1 b false none _ (shell_word _ hb)
    exact shell_append _ _ h2 a false none _ (shell_word _ ha)
  refine ⟨⟨_, by rw [buildLaunchCmd, if_pos rfl], ?_⟩, ⟨_, by rw [buildLaunchCmd, if_neg (by decide), if_pos rfl], ?_⟩, ?_, ?_⟩
  · rw [← key "mpirun".toList "-np".toList ⟨by decide, by decide⟩ ⟨by decide, by decide⟩]
    congr 1
  · rw [← key "srun".toList "-n".toList ⟨by decide, by decide⟩ ⟨by decide, by decide⟩]
    congr 1
  · rw [buildLaunchCmd, if_neg (by decide), if_neg (by decide), if_pos rfl]
  · intro l h1 h2 h3
    rw [buildLaunchCmd, if_neg h1, if_neg h2, if_neg h3]

example : shell "mcvine instruments arcs".toList = some ["mcvine".toList, "instruments".toList, "arcs".toList] := by decide

/-- C273 is false of other arguments: a quotation mark in a value divides it, a word with a space becomes two -/
theorem C273_false :
    (∃ (s : Settings) (argv0 a : Text) (args w : List Text), mpiArgs s argv0 [a] = .ok args ∧ shell (join args) = some w ∧ '=' ∈ a ∧ w ≠ started s [] argv0 [a]) ∧
    (∃ (s : Settings) (argv0 a : Text) (args w : List Text), mpiArgs s argv0 [a] = .ok args ∧ shell (join args) = some w ∧ '=' ∉ a ∧ w ≠ started s [] argv0 [a]) ∧
    (∃ (argv0 a : Text) (w : List Text), shell (join (serialArgs argv0 [a])) = some w ∧ w ≠ ["python".toList, argv0, "--mode=worker".toList] ++ [a]) := by
  refine ⟨⟨mpirun "python".toList 2, "run.py".toList, "--t=a\" \"b".toList, _, ?_, rfl, ?_, by decide, ?_⟩,
    ⟨mpirun "python".toList 2, "run.py".toList, "my file".toList, _, ?_, rfl, ?_, by decide, ?_⟩,
    ⟨"run.py".toList, "--title=a beam".toList, ?_, ?_, ?_⟩⟩
  · exact ["mpirun", "-np", "2", "python", "run.py", "--mode=worker", "--t=a", "b"].map String.toList
  · decide +kernel
  · decide +kernel
  · exact ["mpirun", "-np", "2", "python", "run.py", "--mode=worker", "my", "file"].map String.toList
  · decide +kernel
  · decide +kernel
  · exact ["python", "run.py", "--mode=worker", "--title=a", "beam"].map String.toList
  · decide +kernel
  · decide +kernel

/-- C274: `main` runs only in workers, and not with several nodes without MPI; a server does not run `main`, starts one command, and ends well only if
the command did; a dry run starts nothing and is an error -/
theorem C274_modes (a : App) (status : Text → Nat) (args : List Text) (result : Except Err Unit) :
    (.main ∈ (execute a status args result).1 ↔ a.worker = true ∧ ¬ (1 < a.nodes ∧ a.mpi = false)) ∧
    (a.worker = true → ∀ c, .system c ∉ (execute a status args result).1) ∧
    (a.worker = false → a.dry = false → args ≠ [] → (execute a status args result).1 = [.system (join args)]) ∧
    (a.worker = false → ((execute a status args result).2 = .ok () ↔ a.dry = false ∧ args ≠ [] ∧ status (join args) = 0)) ∧
    (a.worker = false → a.dry = true → execute a status args result = ([], .error .runtimeError)) ∧
    (.main ∈ (execute a status args result).1 → (execute a status args result).2 = result) := by
  obtain ⟨w, n, m, d⟩ := a
  unfold execute launch
  by_cases hn : 1 < n <;> cases w <;> cases m <;> cases d <;> by_cases he : args = [] <;> by_cases hs : status (join args) = 0 <;>
    simp [hn, he, hs]

example : execute ⟨false, 4, true, false⟩ (fun _ => 0) ["mpirun".toList] (.ok ()) = ([.system "mpirun".toList], .ok ()) := by decide

/-- C275 (partial): a function that is run in another directory leaves the working directory as it was, also after an exception, and its result is that
of the function; a sample is loaded in the directory of its file and the working directory is as before if there was no exception -/
theorem C275_partial (D : Dirs) {α : Type} (func : D.Path → Except Err α × D.Path) (dir : Text) (cwd : D.Path) (hcwd : D.here cwd = true) :
    (runInDir D func dir cwd).2 = cwd ∧ (D.here (D.resolve cwd dir) = true → (runInDir D func dir cwd).1 = (func (D.resolve cwd dir)).1) ∧
    (D.here (D.resolve cwd dir) = false → (runInDir D func dir cwd).1 = .error .ioError) ∧
    (∀ a, (samplecomponent D func dir cwd).1 = .ok a → (samplecomponent D func dir cwd).2 = cwd ∧ (func (D.resolve cwd dir)).1 = .ok a) := by
  unfold runInDir samplecomponent chdir
  by_cases h : D.here (D.resolve cwd dir) = true
  · rcases hf : func (D.resolve cwd dir) with ⟨r, c⟩
    rcases r with e | r
    · simp [h, hf, hcwd]
    · simp [h, hf, hcwd]
  · simp [h]

/-- C275 is false of samples: after an exception the program stays in the directory of the file -/
theorem C275_false : ∃ (D : Dirs) (load : D.Path → Except Err Unit × D.Path) (dir : Text) (cwd : D.Path), (∀ p, D.here p = true) ∧
    (∀ p, (load p).2 = p) ∧ (samplecomponent D load dir cwd).2 ≠ cwd :=
  ⟨⟨Text, fun _ => true, fun _ d => d⟩, fun p => (.error .valueError, p), "sample".toList, "home".toList, fun _ => rfl, fun _ => rfl, by decide⟩

example : ∃ D : Dirs, ∃ cwd : D.Path, D.here cwd = true := ⟨⟨Text, fun _ => true, fun _ d => d⟩, "home".toList, rfl⟩

/-- C276 (partial): a component is found if exactly one supplier has it in one category (of the supplier and the category that are asked for); several are an
error.  Not both are given. -/
theorem C276_partial (all : List (String × Supplier)) (hp : Proper all) (type : String) (category supplier : Option String)
    (hb : category = none ∨ supplier = none) (hs : ∀ s, supplier = some s → s ∈ all.map Prod.fst) :
    let Wanted := fun c s => Has all type c s ∧ (∀ d, category = some d → c = d) ∧ (∀ d, supplier = some d → s = d)
    (∀ r, find all type category supplier = .ok (some r) ↔ ∃ c s, r = (type, c, s) ∧ Wanted c s ∧ ∀ c' s', Wanted c' s' → c' = c ∧ s' = s) ∧
    (find all type category supplier = .ok none ↔ ∀ c s, ¬ Wanted c s) ∧
    (find all type category supplier = .error .runtimeError ↔ ∃ c s c' s', Wanted c s ∧ Wanted c' s' ∧ (c, s) ≠ (c', s')) := by
  intro Wanted
  have hf : find all type category supplier = find.search all type category supplier := by
    rcases hb with rfl | rfl
    · rfl
    · cases category <;> rfl
  obtain ⟨l, hl, hd, hi⟩ := inSuppliers_ok all type category hp (supplier.elim (all.map Prod.fst) fun s => [s])
    (by cases supplier with
      | none => simp
      | some s => simpa using hs s rfl)
    (by cases supplier with
      | none => exact hp.1
      | some s => simp)
  have hi' : ∀ c n, (c, n) ∈ l ↔ Wanted c n := by
    intro c n
    rw [hi]
    cases supplier with
    | none =>
      simp only [Option.elim_none, Wanted]
      constructor
      · rintro ⟨h1, h2, h3⟩; exact ⟨h2, h3, fun d hd => by cases hd⟩
      · rintro ⟨h2, h3, -⟩
        obtain ⟨s, hs, h2⟩ := h2
        exact ⟨List.mem_map.2 ⟨_, hs, rfl⟩, ⟨s, hs, h2⟩, h3⟩
    | some s =>
      simp only [Option.elim_some, Wanted, List.mem_singleton]
      constructor
      · rintro ⟨h1, h2, h3⟩; exact ⟨h2, h3, fun d hd => by cases hd; exact h1⟩
      · rintro ⟨h2, h3, h4⟩; exact ⟨h4 s rfl, h2, h3⟩
  rw [hf]
  unfold find.search
  rw [hl]
  rcases l with _ | ⟨⟨c, s⟩, _ | ⟨⟨c', s'⟩, l⟩⟩
  · simp only [List.not_mem_nil, false_iff] at hi'
    refine ⟨fun r => ⟨fun h => (by simp at h), ?_⟩, ⟨fun _ => hi', fun _ => rfl⟩, ⟨fun h => (by simp at h), ?_⟩⟩
    · rintro ⟨c, s, -, h, -⟩
      exact absurd h (hi' c s)
    · rintro ⟨c, s, c', s', h, -⟩
      exact absurd h (hi' c s)
  · simp only [List.mem_singleton, Prod.mk.injEq] at hi'
    refine ⟨fun r => ⟨fun h => ?_, ?_⟩, ⟨fun h => (by simp at h), fun h => ?_⟩, ⟨fun h => (by simp at h), ?_⟩⟩
    · simp only [Except.ok.injEq, Option.some.injEq] at h
      exact ⟨c, s, h.symm, (hi' c s).1 ⟨rfl, rfl⟩, fun c' s' h' => (hi' c' s').2 h'⟩
    · rintro ⟨c', s', rfl, h, -⟩
      obtain ⟨rfl, rfl⟩ := (hi' c' s').2 h
      rfl
    · exact absurd ((hi' c s).1 ⟨rfl, rfl⟩) (h c s)
    · rintro ⟨c1, s1, c2, s2, h1, h2, h3⟩
      obtain ⟨rfl, rfl⟩ := (hi' _ _).2 h1
      obtain ⟨rfl, rfl⟩ := (hi' _ _).2 h2
      exact absurd rfl h3
  · have hne : (c, s) ≠ (c', s') := by
      rw [List.nodup_cons] at hd
      intro h
      exact hd.1 (by rw [h]; simp)
    have h1 := (hi' c s).1 (by simp)
    have h2 := (hi' c' s').1 (by simp)
    refine ⟨fun r => ⟨fun h => (by simp at h), ?_⟩, ⟨fun h => (by simp at h), fun h => absurd h1 (h _ _)⟩, ⟨fun _ => ⟨c, s, c', s', h1, h2, hne⟩, fun _ => rfl⟩⟩
    rintro ⟨c0, s0, -, -, h⟩
    obtain ⟨e1, e2⟩ := h _ _ h1
    obtain ⟨e3, e4⟩ := h _ _ h2
    exact absurd (by rw [e1, e2, e3, e4]) hne

/-- two suppliers with one component each -/
def two : List (String × Supplier) :=
  [("mcni", ⟨["sources"], fun c => if c = "sources" then ["MonochromaticSource"] else []⟩), ("mcstas2", ⟨["optics"], fun c => if c = "optics" then ["Guide"] else []⟩)]

lemma two_proper : Proper two := by
  refine ⟨by simp [two], ?_⟩
  intro n s h
  simp only [two, List.mem_cons, Prod.mk.injEq, List.not_mem_nil, or_false] at h
  rcases h with ⟨-, rfl⟩ | ⟨-, rfl⟩
  all_goals
    refine ⟨by simp, fun c t ht => ?_⟩
    by_contra hc
    simp only [List.mem_singleton] at hc
    simp [hc] at ht

example : find two "Guide" none none = .ok (some ("Guide", "optics", "mcstas2")) := by decide

/-- C276 is false if the category and the supplier are given: a component that nobody has is found -/
theorem C276_false : ∃ (all : List (String × Supplier)) (type c s : String), Proper all ∧ find all type (some c) (some s) = .ok (some (type, c, s)) ∧
    ¬ Has all type c s := by
  refine ⟨two, "Guide", "sources", "mcni", two_proper, by decide, ?_⟩
  rintro ⟨s, h, -, h2⟩
  simp only [two, List.mem_cons, Prod.mk.injEq, List.not_mem_nil, or_false] at h
  rcases h with ⟨-, rfl⟩ | ⟨h, -⟩
  · simp at h2
  · exact absurd h (by decide)

end Verif.Launch
