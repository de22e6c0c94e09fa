import Verif.Lemmas.Builder
/-!
Applications that are made from a list of components.
-/

namespace Verif.Builder

open Verif.Launch

/-- C331 (partial): if the interpreter and the work directory have plain names and the arguments have no characters that are special inside
of double quotes, `run.sh` has one line that starts the application with exactly the arguments of the user and with the directory for scripts.
What is missing: other arguments and directories, see `C331_quote_false` and `C331_directory_false`. -/
theorem C331_partial (python workdir : Text) (argv : List Text) (hp : PlainWord python) (hw : ∀ c ∈ workdir, Plain c)
    (ha : ∀ a ∈ argv, Quotable a) :
    ∃ line, runSh python workdir argv = line ++ ['\n'] ∧ shell line = some (wanted python workdir argv) := by
  have hplain : ∀ name : Text, (∀ c ∈ name, Plain c) → PlainWord (workdir ++ '/' :: name) := by
    intro name hn
    refine ⟨by simp, ?_⟩
    intro c hc
    rcases List.mem_append.mp hc with h | h
    · exact hw c h
    · rcases List.mem_cons.mp h with rfl | h
      · decide
      · exact hn c h
  have hpost : PlainWord ("--post-processing-scripts-dir=".toList ++ ppsd workdir) := by
    refine ⟨by simp, ?_⟩
    intro c hc
    rcases List.mem_append.mp hc with h | h
    · exact (by decide : ∀ c ∈ "--post-processing-scripts-dir=".toList, Plain c) c h
    · exact (hplain "post-processing-scripts".toList (by decide)).2 c h
  have h1 := shell_append _ _ (shell_word _ hpost) (join (argv.map quote)) false none _ (shell_quotes argv ha)
  have h2 := shell_append _ _ h1 (inDir workdir "simapp.py".toList) false none _ (shell_word _ (hplain "simapp.py".toList (by decide)))
  have h3 := shell_append _ _ h2 python false none _ (shell_word _ hp)
  refine ⟨_, ?_, h3.trans ?_⟩
  · simp [runSh, sysargs]
  · simp [wanted, inDir, ppsd]

example : PlainWord "/usr/bin/python".toList ∧ (∀ c ∈ "/home/user/simapp-x1".toList, Plain c) ∧ (∀ a ∈ ["--title=a beam".toList, []], Quotable a) := by
  refine ⟨⟨by decide, by decide⟩, by decide, ?_⟩
  intro a h
  simp only [List.mem_cons, List.not_mem_nil, or_false] at h
  rcases h with rfl | rfl
  · unfold Quotable; decide
  · unfold Quotable; decide

/-- C331 is false for an argument with quotes: one argument becomes two -/
theorem C331_quote_false : ∃ python workdir argv line ws, PlainWord python ∧ (∀ c ∈ workdir, Plain c) ∧
    runSh python workdir argv = line ++ ['\n'] ∧ shell line = some ws ∧ ws.length = (wanted python workdir argv).length + 1 := by
  refine ⟨"python".toList, "/w".toList, ["--title=a\" \"b".toList],
    "python /w/simapp.py \"--title=a\" \"b\" --post-processing-scripts-dir=/w/post-processing-scripts".toList,
    ["python".toList, "/w/simapp.py".toList, "--title=a".toList, "b".toList, "--post-processing-scripts-dir=/w/post-processing-scripts".toList],
    ⟨by decide, by decide⟩, by decide, by decide, by decide, by decide⟩

/-- C331 is false for a directory with a space: another program is started -/
theorem C331_directory_false : ∃ python workdir argv line ws, PlainWord python ∧ (∀ a ∈ argv, Quotable a) ∧
    runSh python workdir argv = line ++ ['\n'] ∧ shell line = some ws ∧ ws ≠ wanted python workdir argv := by
  refine ⟨"python".toList, "/my w".toList, [], "python /my w/simapp.py  --post-processing-scripts-dir=/my w/post-processing-scripts".toList,
    ["python".toList, "/my".toList, "w/simapp.py".toList, "--post-processing-scripts-dir=/my".toList, "w/post-processing-scripts".toList],
    ⟨by decide, by decide⟩, by simp, by decide, by decide, by decide⟩

/-- C332 (partial): the number of nodes is that of the first option about nodes, if this is of the form `--launcher.nodes=n`; without options
about nodes it is 1.  What is missing: other options in which `.nodes` is found, see `C332_false`. -/
theorem C332_partial (before after : List Text) (launcher : Text) (n : Nat) (hb : ∀ a ∈ before, ¬ AboutNodes a) (hl : '=' ∉ launcher) :
    nodesOption (before ++ ("--".toList ++ launcher ++ ".nodes=".toList ++ Nat.toDigits 10 n) :: after) = .ok n ∧ nodesOption before = .ok 1 := by
  constructor
  · rw [skip _ _ hb]
    unfold nodesOption
    rw [if_pos]
    · have hk : '=' ∉ "--".toList ++ launcher ++ ".nodes".toList := by
        simp only [List.mem_append, not_or]
        exact ⟨⟨by decide, hl⟩, by decide⟩
      have : "--".toList ++ launcher ++ ".nodes=".toList ++ Nat.toDigits 10 n =
          ("--".toList ++ launcher ++ ".nodes".toList) ++ '=' :: Nat.toDigits 10 n := by
        simp
      rw [this]
      unfold Facility.split2
      rw [cut_first _ _ hk]
      dsimp only
      rw [if_neg (by rw [cut_absent _ (digits_no n)]; simp)]
      dsimp only
      rw [if_pos (List.isSuffixOf_iff_suffix.mpr ⟨"--".toList ++ launcher, rfl⟩), digits_int]
    · rw [about_iff]
      exact ⟨⟨launcher ++ ".nodes=".toList ++ Nat.toDigits 10 n, by simp⟩, "--".toList ++ launcher, '=' :: Nat.toDigits 10 n, by simp⟩
  · have := skip before [] hb
    rw [List.append_nil] at this
    rw [this]
    rfl

example : ¬ AboutNodes "--ncount=100".toList ∧ '=' ∉ "mpirun".toList := by
  refine ⟨?_, by decide⟩
  rw [← about_iff]
  decide

/-- C332 is false: an option with another purpose makes it fail, although the number of nodes is given -/
theorem C332_false : ∃ argv : List Text, "--mpirun.nodes=4".toList ∈ argv ∧ (∀ n, nodesOption argv ≠ .ok n) ∧
    ∀ a ∈ argv, Quotable a := by
  refine ⟨["app".toList, "--title=for.nodes".toList, "--mpirun.nodes=4".toList], by decide, ?_, ?_⟩
  · have : nodesOption ["app".toList, "--title=for.nodes".toList, "--mpirun.nodes=4".toList] = .error .assertionError := by rfl
    intro n
    rw [this]
    simp
  · intro a h
    simp only [List.mem_cons, List.not_mem_nil, or_false] at h
    rcases h with rfl | rfl | rfl <;> (unfold Quotable; decide)

/-- C333 (partial): scripts are run only behind a simulation that succeeded, in their order, each with the number of nodes asked for and until
one fails; the work directory is removed only if everything succeeded.  It succeeds exactly if the simulation, reading the number of nodes and
all scripts do.  What is missing: a simulation that succeeded may be left without its scripts, see `C333_false`. -/
theorem C333_partial (w : World) (n : Nat) (prefix' : Text) (hw : ' ' ∉ w.workdir) (hn : nodesOption (w.argv0 :: w.argv) = .ok n)
    (hl : (w.launcher = "mpirun".toList ∧ prefix' = "mpirun -np ".toList) ∨ (w.launcher = "slurm".toList ∧ prefix' = "srun -n ".toList)) :
    ∃ done, done <+: commands prefix' n w.python w.scripts ∧
      (run w).1 = [.simulation (runSh w.python w.workdir w.argv)] ++ done.map .post ++
        (if (run w).2 = .ok () ∧ w.debug = false then [.cleanup] else []) ∧
      (done ≠ [] → w.errcode (runSh w.python w.workdir w.argv) = 0) ∧
      ((run w).2 = .ok () ↔ w.errcode (runSh w.python w.workdir w.argv) = 0 ∧ ∀ c ∈ commands prefix' n w.python w.scripts, w.status c = 0) ∧
      ((run w).2 = .ok () → done = commands prefix' n w.python w.scripts) := by
  have hcmd : ∀ c, Launch.buildLaunchCmd w.launcher n c = .ok (prefix' ++ Nat.toDigits 10 n ++ ' ' :: c) := by
    intro c
    unfold Launch.buildLaunchCmd
    rcases hl with ⟨h1, h2⟩ | ⟨h1, h2⟩
    · rw [if_pos h1, h2]
    · rw [if_neg (by rw [h1]; decide), if_pos h1, h2]
  obtain ⟨done, h1, h2, h3, h4⟩ := ppsd_ok w.python prefix' w.launcher w.status n hcmd w.scripts
  by_cases he : w.errcode (runSh w.python w.workdir w.argv) = 0
  · have hrun : run w = match runPpsd w.launcher w.python w.status n w.scripts with
      | (acts, .error e) => (.simulation (runSh w.python w.workdir w.argv) :: acts, .error e)
      | (acts, .ok ()) => (.simulation (runSh w.python w.workdir w.argv) :: acts ++ (if w.debug then [] else [.cleanup]), .ok ()) := by
      unfold run
      dsimp only
      rw [if_neg hw, if_neg (by simpa using he), hn]
      rfl
    refine ⟨done, h1, ?_⟩
    rw [hrun]
    rcases hr : runPpsd w.launcher w.python w.status n w.scripts with ⟨acts, e | u⟩
    · rw [hr] at h2 h3 h4
      obtain ⟨_, c, hc, h5⟩ := h4 e rfl
      refine ⟨?_, fun _ => he, ?_, by simp⟩
      · simp only at h2 ⊢
        rw [h2]
        simp
      · simp only [reduceCtorEq, false_iff, not_and, not_forall]
        exact fun _ => ⟨c, h1.subset hc, h5⟩
    · rw [hr] at h2 h3 h4
      obtain ⟨h5, h6⟩ := h3 rfl
      refine ⟨?_, fun _ => he, ?_, fun _ => h5⟩
      · simp only at h2 ⊢
        rw [h2]
        cases w.debug <;> simp
      · simp only [true_iff]
        exact ⟨he, fun c hc => h6 c (h5 ▸ hc)⟩
  · have hrun : run w = ([.simulation (runSh w.python w.workdir w.argv)], .error .runtimeError) := by
      unfold run
      dsimp only
      rw [if_neg hw, if_pos he]
    refine ⟨[], List.nil_prefix, ?_⟩
    rw [hrun]
    simp [he]

/-- a run with two scripts -/
def sample : World := ⟨"mpirun".toList, "python".toList, "/w".toList, false, "app".toList, ["--mpirun.nodes=4".toList], fun _ => 0,
  ["/w/a.py".toList, "/w/b.py".toList], fun _ => 0⟩

example : ' ' ∉ sample.workdir ∧ nodesOption (sample.argv0 :: sample.argv) = .ok 4 ∧ (run sample).1.length = 4 ∧
    Act.post "mpirun -np 4 python /w/a.py".toList ∈ (run sample).1 := by
  refine ⟨by decide, by rfl, by rfl, by decide⟩

/-- C333 is false: a simulation succeeds, none of its scripts is run -/
theorem C333_false : ∃ w : World, w.errcode (runSh w.python w.workdir w.argv) = 0 ∧ w.scripts ≠ [] ∧ (∀ c, w.status c = 0) ∧
    (run w).1 = [.simulation (runSh w.python w.workdir w.argv)] ∧ (run w).2 = .error .assertionError := by
  refine ⟨{ sample with argv := ["--title=for.nodes".toList] }, rfl, by simp [sample], fun _ => rfl, ?_, ?_⟩ <;> rfl

/-- C334 (partial): for a list of components, none of them called `name`, `code` or `facility`, exactly these names stand for facilities
of the instrument, each for that with its own name.  What is missing: the three names and the empty list, see `C334_empty_false`,
`C334_name_false` and `C334_facility_false`. -/
theorem C334_partial (names : List String) (h0 : names ≠ []) (h : ∀ n ∈ names, n ≠ "name" ∧ n ≠ "code" ∧ n ≠ "facility") :
    ∃ env, inventory names = .ok env ∧ ∀ m k, env m = some (.facility k) ↔ m ∈ names ∧ k = m := by
  obtain ⟨env, h1, h2, h3, h4, h5, -, -⟩ := turns_ok names imports (by decide) fun hf => (h _ hf).2.2 rfl
  obtain ⟨h6, h7⟩ := h5 h0
  obtain ⟨a, ha⟩ := Option.ne_none_iff_exists'.mp h6
  obtain ⟨b, hb⟩ := Option.ne_none_iff_exists'.mp h7
  refine ⟨fun m => if m = "name" then none else if m = "code" then none else env m, ?_, ?_⟩
  · unfold inventory
    rw [h1]
    dsimp only
    rw [show del env "code" = .ok (fun m => if m = "code" then none else env m) from by unfold del; rw [hb]]
    dsimp only
    unfold del
    dsimp only
    rw [if_neg (by decide), ha]
  · intro m k
    dsimp only
    by_cases hm : m = "name"
    · rw [if_pos hm]
      simp only [reduceCtorEq, false_iff, not_and]
      exact fun hmem => absurd hm (h m hmem).1
    by_cases hc : m = "code"
    · rw [if_neg hm, if_pos hc]
      simp only [reduceCtorEq, false_iff, not_and]
      exact fun hmem => absurd hc (h m hmem).2.1
    rw [if_neg hm, if_neg hc]
    by_cases hmem : m ∈ names
    · rw [h3 m hmem hm hc]
      simp [hmem, eq_comm]
    · rw [h4 m hmem hm hc]
      simp only [hmem, false_and, iff_false]
      unfold imports set
      split_ifs <;> simp

example : ["source", "sample", "monitor"] ≠ [] ∧ ∀ n ∈ ["source", "sample", "monitor"], n ≠ "name" ∧ n ≠ "code" ∧ n ≠ "facility" := by decide

/-- C334 is false for an instrument without components: the class cannot be made -/
theorem C334_empty_false : inventory [] = .error .nameError := by rfl

/-- C334 is false for components called `name` or `code`: they are no facilities of the instrument, without any error -/
theorem C334_name_false : ∀ n, n = "name" ∨ n = "code" → ∃ env, inventory ["source", n] = .ok env ∧ env n = none ∧ env "source" = some (.facility "source") := by
  rintro n (rfl | rfl)
  · exact ⟨_, rfl, by decide, by decide⟩
  · exact ⟨_, rfl, by decide, by decide⟩

/-- C334 is false for a component called `facility` that is not the last one: the class cannot be made -/
theorem C334_facility_false : inventory ["facility", "sample"] = .error .typeError := by rfl

end Verif.Builder
