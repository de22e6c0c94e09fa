import Verif.Lemmas.WorkDir
import Verif.Lemmas.Cache
/-!
Property theorems about parallel workers sharing a directory (C14) and about the
result cache (C15, C64).
-/

namespace Verif.WorkDir

/-- **C14** (negation) There are schedules in which a worker of a parallel run in
a fresh work directory refuses to run, and (with overwriting allowed) schedules
in which a worker deletes what another one has written. -/
theorem C14_workers_share_dir_false :
    (∃ sched, (run false init sched).pc 1 = .failed) ∧
    (∃ sched sched', (0, 0) ∈ (run true init sched).dir.getD [] ∧
      (0, 0) ∉ (run true init (sched ++ sched')).dir.getD [] ∧ 0 ∉ sched') :=
  ⟨⟨[0, 0, 1], rfl⟩, [0, 0], [1, 1, 1], by decide, by decide, by decide⟩

/-- **C14** What does hold: if every worker passes its directory check before any
worker writes output, then in every schedule of the rest no worker fails and all
outputs of all workers are there at the end.  Missing: nothing in the code
enforces that order. -/
theorem C14_workers_share_dir_partial (ov : Bool) (ws sched : List Nat) (hnd : ws.Nodup)
    (hs : ∀ i ∈ sched, i ∈ ws) :
    ∀ i ∈ ws, (run ov init (ws ++ sched)).pc i = .running (sched.count i) ∧
      ∀ k, k < sched.count i → (i, k) ∈ (run ov init (ws ++ sched)).dir.getD [] := by
  obtain ⟨-, h2, -⟩ := checks_ok ov ws init rfl hnd (fun _ _ => rfl)
  have hI : Inv ws (run ov init ws) := fun i hi => ⟨0, h2 i hi, fun j hj => absurd hj (Nat.not_lt_zero _)⟩
  obtain ⟨r1, r2⟩ := Inv.run ov ws sched _ hI hs
  have e : run ov init (ws ++ sched) = run ov (run ov init ws) sched := by simp [run]
  intro i hi
  have hp := r2 i 0 (h2 i hi)
  rw [Nat.zero_add] at hp
  refine ⟨by rw [e, hp], ?_⟩
  intro k hk
  obtain ⟨k', hk', ho⟩ := r1 i hi
  rw [hp] at hk'
  injection hk' with hk'
  rw [e]
  exact ho k (hk' ▸ hk)

example : (run true init ([0, 1, 2] ++ [1, 1, 0, 2, 1])).dir = some [(1, 2), (2, 0), (0, 0), (1, 1), (1, 0)] := by
  decide

end Verif.WorkDir

namespace Verif.Cache

/-- **C15** (negation) The cache confuses different parameter values: after caching
the result for one parameter value, asking for another value returns the first
result, whatever the hash function. -/
theorem C15_cache_key_false (md5 : Str → Str) :
    ∃ (f : List (Str × Str) → List Str → Str) (p1 p2 : List (Str × Str)),
      f p1 [] ≠ f p2 [] ∧
      let cache := (invoke md5 f [] false true p1 [] (fun _ => none)).2
      (invoke md5 f [] true false p2 [] cache).1 = f p1 [] := by
  refine ⟨fun p _ => p.flatMap Prod.snd, [("ncount".toList, "10".toList)], [("ncount".toList, "20".toList)],
    by decide, ?_⟩
  simp [invoke, cachePath, uniqueIdentifier, argStr, joinSp, sorted]

/-- **C15** What does hold: for the same parameter names and arguments that are
non-empty words, and a collision-free hash, two invocations share a cache entry
exactly when their arguments agree up to order; and identical invocations always
share the entry.  Missing: parameter values do not enter the key. -/
theorem C15_cache_key_partial (md5 : Str → Str) (hmd5 : Function.Injective md5) (cmd : List Str)
    (params params' : List (Str × Str)) (args args' : List Str)
    (hp : params.map Prod.fst = params'.map Prod.fst)
    (ha : ∀ a ∈ args, Word a) (ha' : ∀ a ∈ args', Word a) :
    cachePath md5 cmd params args = cachePath md5 cmd params' args' ↔ args.Perm args' := by
  constructor
  · intro h
    simp only [cachePath, List.append_cancel_left_eq, List.cons.injEq, and_true, uniqueIdentifier] at h
    have h := hmd5 h
    simp only [argStr, hp, List.append_cancel_left_eq, List.cons.injEq, true_and] at h
    have hs := joinSp_inj _ _ (fun a h => ha a ((sorted_perm args).mem_iff.mp h))
      (fun a h => ha' a ((sorted_perm args').mem_iff.mp h)) h
    exact (sorted_perm args).symm.trans (hs ▸ sorted_perm args')
  · intro h
    simp only [cachePath, uniqueIdentifier, argStr, hp, sorted_of_perm h]

example : cachePath id ["mcvine".toList] [("n".toList, "1".toList)] ["b".toList, "a".toList] =
    cachePath id ["mcvine".toList] [("n".toList, "1".toList)] ["a".toList, "b".toList] :=
  (C15_cache_key_partial id (fun _ _ h => h) _ _ _ _ _ rfl
    (by simp [Word])
    (by simp [Word])).mpr (List.Perm.swap _ _ _)

/-- **C15** One invocation: without `--use-cache` the command is run; with it the entry of the
cache is returned if there is one and the command is run otherwise; `--keep-in-cache` stores the
result of a command that was run, under its own path, and nothing else is changed. -/
theorem C15_invoke_partial {R : Type} (md5 : Str → Str) (f : List (Str × Str) → List Str → R)
    (cmd : List Str) (keep : Bool) (params : List (Str × Str)) (args : List Str)
    (cache : List Str → Option R) :
    (invoke md5 f cmd false keep params args cache).1 = f params args ∧
    (invoke md5 f cmd true keep params args cache).1 =
      (cache (cachePath md5 cmd params args)).getD (f params args) ∧
    (∀ use p, p ≠ cachePath md5 cmd params args →
      (invoke md5 f cmd use keep params args cache).2 p = cache p) ∧
    (∀ use, (invoke md5 f cmd use false params args cache).2 = cache) ∧
    (∀ use, (invoke md5 f cmd use true params args cache).2 (cachePath md5 cmd params args) =
      some (invoke md5 f cmd use true params args cache).1) := by
  refine ⟨rfl, ?_, ?_, ?_, ?_⟩
  · unfold invoke; cases h : cache (cachePath md5 cmd params args) <;> simp [h]
  · intro use p hp
    unfold invoke
    cases use <;> cases h : cache (cachePath md5 cmd params args) <;> cases keep <;> simp [h, hp]
  · intro use
    unfold invoke
    cases use <;> cases h : cache (cachePath md5 cmd params args) <;> simp [h]
  · intro use
    unfold invoke
    cases use <;> cases h : cache (cachePath md5 cmd params args) <;> simp [h]

/-- **C15** Histories: whatever invocations of one command with fixed parameters went before, with
any of the two flags, the result is what the command gives, provided it does not depend on the
order of its arguments, and the arguments are non-empty words. -/
theorem C15_history_partial {R : Type} (md5 : Str → Str) (hmd5 : Function.Injective md5)
    (f : List (Str × Str) → List Str → R) (cmd : List Str) (params : List (Str × Str))
    (hf : ∀ a b : List Str, a.Perm b → f params a = f params b)
    (hist : List (Bool × Bool × List Str)) (hw : ∀ h ∈ hist, ∀ a ∈ h.2.2, Word a)
    (use keep : Bool) (args : List Str) (ha : ∀ a ∈ args, Word a) :
    (invoke md5 f cmd use keep params args
      (hist.foldl (fun c h => (invoke md5 f cmd h.1 h.2.1 params h.2.2 c).2) fun _ => none)).1 =
      f params args := by
  have key : ∀ (hist : List (Bool × Bool × List Str)) (c : List Str → Option R),
      (∀ h ∈ hist, ∀ a ∈ h.2.2, Word a) →
      (∀ b, (∀ a ∈ b, Word a) → ∀ r, c (cachePath md5 cmd params b) = some r → r = f params b) →
      ∀ b, (∀ a ∈ b, Word a) → ∀ r,
        (hist.foldl (fun c h => (invoke md5 f cmd h.1 h.2.1 params h.2.2 c).2) c)
          (cachePath md5 cmd params b) = some r → r = f params b := by
    intro hist
    induction hist with
    | nil => intro c _ hc; exact hc
    | cons x l ih =>
      obtain ⟨u, k, a⟩ := x
      intro c hw hc
      refine ih _ (fun h hh => hw h (List.mem_cons_of_mem _ hh)) ?_
      intro b hb r hr
      simp only at hr
      have hwa : ∀ w ∈ a, Word w := hw (u, k, a) List.mem_cons_self
      by_cases hp : cachePath md5 cmd params b = cachePath md5 cmd params a
      · have hperm := (C15_cache_key_partial md5 hmd5 cmd params params b a rfl hb hwa).mp hp
        rw [hf b a hperm]
        rw [hp] at hr
        unfold invoke at hr
        cases hca : c (cachePath md5 cmd params a) with
        | none => cases u <;> cases k <;> simp [hca] at hr <;> exact hr.symm
        | some r0 =>
          have h0 := hc a hwa r0 hca
          cases u <;> cases k <;> simp [hca] at hr <;> simp_all
      · rw [(C15_invoke_partial md5 f cmd k params a c).2.2.1 u _ hp] at hr
        exact hc b hb r hr
  have hc := key hist (fun _ => none) hw (by simp) args ha
  obtain ⟨h1, h2, -⟩ := C15_invoke_partial md5 f cmd keep params args
    (hist.foldl (fun c h => (invoke md5 f cmd h.1 h.2.1 params h.2.2 c).2) fun _ => none)
  cases use with
  | false => exact h1
  | true =>
    rw [h2]
    cases h3 : (hist.foldl (fun c h => (invoke md5 f cmd h.1 h.2.1 params h.2.2 c).2) fun _ => none)
      (cachePath md5 cmd params args) with
    | none => rfl
    | some r => exact hc r h3

/-- a history that fills the cache and then uses it, for a command that counts its arguments -/
example : (invoke id (fun _ a => a.length) ["mcvine".toList] true false [] ["b".toList, "a".toList]
    ((invoke id (fun _ a => a.length) ["mcvine".toList] false true [] ["a".toList, "b".toList]
      fun _ => none).2)).1 = 2 :=
  C15_history_partial id (fun _ _ h => h) (fun _ a => a.length) _ []
    (fun _ _ h => h.length_eq) [(false, true, ["a".toList, "b".toList])] (by simp [Word]) true false
    ["b".toList, "a".toList] (by simp [Word])

/-- **C64** (negation) The command that is run to fill the cache is not the
requested one: the parameter values are missing from it. -/
theorem C64_rerun_command_false :
    ∃ p1 p2 : List (Str × Str), p1 ≠ p2 ∧ ∀ args, rerunArgs p1 args = rerunArgs p2 args :=
  ⟨[("--ncount".toList, "10".toList)], [("--ncount".toList, "20".toList)], by decide, fun _ => rfl⟩

/-- **C64** What does hold: without parameters, the command line contains the
arguments (in sorted order).  Missing: parameters. -/
theorem C64_rerun_command_partial (args args' : List Str) (ha : ∀ a ∈ args, Word a)
    (ha' : ∀ a ∈ args', Word a) (h : rerunArgs [] args = rerunArgs [] args') : args.Perm args' := by
  simp only [rerunArgs, argStr, List.map_nil, joinSp, List.nil_append, List.cons.injEq, true_and] at h
  have hs := joinSp_inj _ _ (fun a h => ha a ((sorted_perm args).mem_iff.mp h))
    (fun a h => ha' a ((sorted_perm args').mem_iff.mp h)) h
  exact (sorted_perm args).symm.trans (hs ▸ sorted_perm args')

example : rerunArgs [] ["b".toList, "a".toList] = " a b".toList := by decide

end Verif.Cache
