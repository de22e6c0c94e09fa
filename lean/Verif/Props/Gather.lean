import Verif.Lemmas.Gather
import Mathlib.Algebra.Group.Int.Defs
/-!
Properties of the files that the post-processing finds (C360, C361).
-/

namespace Verif.Gather

open Spec

/-- **C360** (partial): after a simulation into a directory in which nothing was, the post-processing adds the histograms and the
numbers of neutrons of all steps of all processes, each once, and nothing else. Missing: directories with characters that have a
meaning in patterns, see `C360_false` and `C360_other_false`, and directories of an older simulation, see `C360_stale_false`. -/
theorem C360_partial {H F : Type} [AddCommMonoid H] [AddCommMonoid F] (outdir : Path) (name : Name) (size : Nat)
    (ss : List (Step (Run.Hist H) F)) (d : Disk (Run.Hist H) F) (ho : ∀ n ∈ outdir, PlainName n) (hn : PlainName name)
    (hs : size ≠ 0) (hne : ss ≠ []) (h1 : Once ss) (hf : Fresh outdir d) :
    mergeHist (record outdir name size ss d) outdir name =
      .ok (⟨(ss.map (·.data.I)).sum, (ss.map (·.data.E2)).sum⟩, (ss.map (·.n)).sum) := by
  unfold mergeHist histMcsSum
  rw [record_eq]
  dsimp only
  rw [gather_written ho hn hs h1 (·.data) hf.1, gather_written ho samples_plain hs h1 (·.n) hf.2,
    histSum_eq _ _ (by simp) (by simpa using hne)]
  simp only [List.map_reverse, List.sum_reverse, List.map_map]
  rfl

/-- two processes with two steps, in a directory next to which there is another simulation -/
example : mergeHist (record ["home".toList, "out".toList] "IE.h5".toList 2
    [⟨0, 0, ⟨(3 : Int), 1⟩, (10 : Int)⟩, ⟨1, 0, ⟨4, 1⟩, 10⟩, ⟨0, 1, ⟨5, 2⟩, 7⟩, ⟨1, 1, ⟨0, 0⟩, 7⟩]
    ⟨[(["home".toList, "out2".toList, "rank0-step0".toList, "IE.h5".toList], ⟨100, 100⟩)], []⟩)
    ["home".toList, "out".toList] "IE.h5".toList = .ok (⟨12, 4⟩, 34) := by
  rw [C360_partial _ _ _ _ _ (by unfold PlainName; decide) (by unfold PlainName; decide) (by decide) (by simp)
    (by unfold Once; decide) (by unfold Fresh; refine ⟨?_, ?_⟩ <;> simp <;> decide)]
  rfl

/-- **C360** is false: a directory whose name has a pair of brackets is a pattern that does not fit itself. Whatever the simulation
wrote, nothing is found and the post-processing fails. -/
theorem C360_false {H F : Type} [AddCommMonoid H] [AddCommMonoid F] (name : Name) (size : Nat)
    (ss : List (Step (Run.Hist H) F)) :
    mergeHist (record ["out[1]".toList] name size ss ⟨[], []⟩) ["out[1]".toList] name = .error .attributeError := by
  have hb : nameFits "out[1]".toList "out[1]".toList = false := by decide
  have hg : ∀ {X : Type} (nm : Name) (val : Step (Run.Hist H) F → X),
      gather (ss.foldl (fun fs s => write fs (place ["out[1]".toList] nm size s) (val s)) []) ["out[1]".toList] nm = [] := by
    intro X nm val
    unfold gather
    rw [List.filter_eq_nil_iff]
    intro f hf hfit
    rcases foldl_write_mem _ val ss [] hf with ⟨s, _, e⟩ | h
    · rw [e] at hfit
      unfold place at hfit
      rw [List.singleton_append, List.singleton_append, pathFits, hb] at hfit
      simp at hfit
    · simp at h
  unfold mergeHist histMcsSum
  rw [record_eq]
  dsimp only
  rw [hg name (·.data), hg samplesName (·.n)]
  rfl

/-- **C360** is false in a worse way: if there also is a directory that fits the pattern, the histograms of that simulation are added
instead, without an error. -/
theorem C360_other_false : ∃ (other mine : List (Step (Run.Hist Int) Int)) (name : Name),
    (mine.map (·.data.I)).sum = 5 ∧ (mine.map (·.n)).sum = 10 ∧ (other.map (·.data.I)).sum = 70 ∧
    mergeHist (record ["out[1]".toList] name 1 mine (record ["out1".toList] name 1 other ⟨[], []⟩)) ["out[1]".toList] name =
      .ok (⟨70, 7⟩, 20) :=
  ⟨[⟨0, 0, ⟨70, 7⟩, 20⟩], [⟨0, 0, ⟨5, 1⟩, 10⟩], "IE.h5".toList, rfl, rfl, rfl, by rfl⟩

/-- **C360** is false for a second simulation with fewer steps into the same directory (`overwrite-datafiles`): the steps of the first
one that were not overwritten are added. -/
theorem C360_stale_false : ∃ (first second : List (Step (Run.Hist Int) Int)) (name : Name), PlainName name ∧ Once first ∧ Once second ∧
    (second.map (·.data.I)).sum = 5 ∧ (second.map (·.n)).sum = 10 ∧
    mergeHist (record ["out".toList] name 1 second (record ["out".toList] name 1 first ⟨[], []⟩)) ["out".toList] name =
      .ok (⟨45, 5⟩, 20) :=
  ⟨[⟨0, 0, ⟨30, 3⟩, 10⟩, ⟨0, 1, ⟨40, 4⟩, 10⟩], [⟨0, 0, ⟨5, 1⟩, 10⟩], "IE.h5".toList, by unfold PlainName; decide,
    by unfold Once; decide, by unfold Once; decide, rfl, rfl, by rfl⟩

/-- **C361** (partial): a storage whose path is a single name writes every step, and its post-processing merges the neutrons of all steps,
each once, and divides by all numbers of neutrons. Missing: other paths, see `C361_sub_false` and `C361_absolute_false`. -/
theorem C361_partial {C F : Type} [AddCommMonoid F] (overwrite : Bool) (outdir : Path) (name : Name) (size : Nat) (ss : List (Step C F))
    (fs : Fs C F) (ho : ∀ n ∈ outdir, PlainName n) (hn : PlainName name) (hs : size ≠ 0) (h1 : Once ss)
    (hf : Fresh outdir fs.disk) :
    ∃ fs' l, storeAll ⟨false, [name]⟩ overwrite outdir size ss fs = .ok fs' ∧
      mergeFiles fs'.disk outdir ⟨false, [name]⟩ = .ok (l, (ss.map (·.n)).sum) ∧ l.Perm (ss.map (·.data)) := by
  obtain ⟨dirs, hd⟩ := storeAll_single hs overwrite ss h1 fs (fun s _ => place_new hf.1 s)
  refine ⟨_, (ss.map (·.data)).reverse, hd, ?_, List.reverse_perm _⟩
  have hg := gather_written ho hn hs h1 (·.data) hf.1
  have hk := gather_written ho samples_plain hs h1 (·.n) hf.2
  have hl : (gather (record outdir name size ss fs.disk).data outdir name).length =
      (gather (record outdir name size ss fs.disk).numbers outdir samplesName).length := by
    rw [record_eq]
    have e1 := congrArg List.length hg
    have e2 := congrArg List.length hk
    simp only [List.length_map, List.length_reverse] at e1 e2
    exact e1.trans e2.symm
  unfold mergeFiles
  dsimp only [List.getLast?_singleton, Option.getD_some]
  rw [if_neg (not_not_intro hl), record_eq]
  dsimp only
  rw [hg, hk, foldr_sum, List.sum_reverse]

/-- two steps -/
example : ∃ fs' l, storeAll ⟨false, ["neutrons".toList]⟩ false ["out".toList] 1
      [⟨0, 0, [1, 2], (3 : Int)⟩, ⟨0, 1, [5], 4⟩] (⟨[["out".toList]], ⟨[], []⟩⟩ : Fs (List Nat) Int) = .ok fs' ∧
    mergeFiles fs'.disk ["out".toList] ⟨false, ["neutrons".toList]⟩ = .ok (l, 7) ∧ l.Perm [[1, 2], [5]] :=
  C361_partial false ["out".toList] "neutrons".toList 1 _ _ (by unfold PlainName; decide) (by unfold PlainName; decide) (by decide)
    (by unfold Once; decide) (by unfold Fresh; simp)

/-- **C361** is false for relative paths with a directory, although any relative path is allowed: the directory is not made, and the
first step fails. -/
theorem C361_sub_false {C F : Type} (overwrite : Bool) (outdir : Path) (sub name : Name) (size : Nat) (s : Step C F) (ss : List (Step C F)) :
    storeAll ⟨false, [sub, name]⟩ overwrite outdir size (s :: ss) ⟨[outdir], ⟨[], []⟩⟩ = .error .ioError := by
  have hl : (Target.file ⟨false, [sub, name]⟩ outdir size s).dropLast = outdir ++ [Run.stepDir size s.rank s.step, sub] := by
    have : Target.file ⟨false, [sub, name]⟩ outdir size s = (outdir ++ [Run.stepDir size s.rank s.step, sub]) ++ [name] := by
      simp [Target.file]
    rw [this, List.dropLast_concat]
  unfold storeAll storeStep
  dsimp only
  rw [hl, if_neg (by simp), if_pos]
  · rfl
  · intro h
    rcases List.mem_cons.1 h with h | h
    · simp at h
    · simp at h

/-- **C361** is false for absolute paths: with `overwrite-datafiles` every step replaces the file of the step before, and the
post-processing does not find the file; otherwise the second step fails. -/
theorem C361_absolute_false : ∃ (t : Target) (a b : Step (List Nat) Int) (fs fs' : Fs (List Nat) Int), t.absolute = true ∧
    ¬ (a.rank = b.rank ∧ a.step = b.step) ∧ a.data ≠ [] ∧
    storeAll t true ["out".toList] 1 [a, b] fs = .ok fs' ∧ fs'.disk.data = [(t.names, b.data)] ∧
    mergeFiles fs'.disk ["out".toList] t = .error .assertionError ∧
    storeAll t false ["out".toList] 1 [a, b] fs = .error .runtimeError :=
  ⟨⟨true, ["tmp".toList, "neutrons".toList]⟩, ⟨0, 0, [1, 2], 3⟩, ⟨0, 1, [5], 4⟩, ⟨[["tmp".toList], ["out".toList]], ⟨[], []⟩⟩, _,
    rfl, by decide, by decide, by rfl, by rfl, by rfl, by rfl⟩

end Verif.Gather
