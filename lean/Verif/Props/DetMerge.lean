import Verif.Lemmas.DetMerge
import Mathlib.Tactic.FieldSimp
import Mathlib.Tactic.NormNum
import Mathlib.Data.Rat.Defs
import Mathlib.Algebra.Field.Rat
/-!
Properties of the file of events of a detector system (C351).
-/

namespace Verif.DetMerge

open Launch (Text shell Plain PlainWord)
open Spec

variable {F : Type} [Field F] [DecidableEq F]

/-- **C351** (partial): after a simulation whose directory has a name without characters that mean something to a shell, the file of events has exactly the events of all steps, one file after the other, with
their weights divided by the sum of the numbers of samples; no other file of events is changed. Missing: other directories, see `C351_space_false`, and the option `overwrite_datafiles`, see
`C351_overwrite_false`. -/
theorem C351_partial (fs : Fs F) (files : List Text) (samples : List F) (outdir name : Text) (overwrite : Bool)
    (h : ∀ c ∈ outdir, Plain c) (hn : Builder.Quotable name) (hl : ∀ f ∈ files, '\n' ∉ f) (ho : inDir outdir name ∉ files)
    (hf : ∀ f ∈ files, (fs.events f).isSome) (hs : files.length = samples.length) (hne : files ≠ []) (h0 : samples.sum ≠ 0) :
    ∃ fs', mergeAndNormalize fs files samples outdir name overwrite = .ok fs' ∧ Merged fs fs' files (inDir outdir name) samples.sum ∧
      ∀ f, f ≠ inDir outdir name → fs'.events f = fs.events f := by
  obtain ⟨fs0, hfs0⟩ : ∃ fs0, fs0 = if overwrite then fs.remove (inDir outdir name) else fs := ⟨_, rfl⟩
  have he : ∀ f, f ≠ inDir outdir name → fs0.events f = fs.events f := by
    intro f hf'
    rw [hfs0]
    cases overwrite
    · rfl
    · simp [Fs.remove, hf']
  have hne' : ∀ f ∈ files, f ≠ inDir outdir name := fun f hf' e => ho (e ▸ hf')
  unfold mergeAndNormalize
  rw [if_neg (not_not_intro hs), if_neg hne]
  dsimp only
  rw [← hfs0, merge_plain fs0 files outdir name h hn hl ho (fun f hf' => by rw [he f (hne' f hf')]; exact hf f hf')]
  dsimp only
  unfold normalizeEventFile
  simp only [Fs.writeEvents, if_true]
  refine ⟨_, rfl, ⟨files.map fun f => (fs.events f).getD [], _, ?_, if_pos rfl, ?_⟩, ?_⟩
  · rw [List.forall₂_map_right_iff]
    exact List.forall₂_same.mpr fun f hf' => by
      obtain ⟨l, hl⟩ := Option.isSome_iff_exists.mp (hf f hf')
      rw [hl]; rfl
  · rw [List.flatMap_def, show files.map (fun f => (fs0.events f).getD []) = files.map fun f => (fs.events f).getD [] from
      List.map_congr_left fun f hf' => by rw [he f (hne' f hf')], List.forall₂_map_right_iff]
    refine List.forall₂_same.mpr fun e _ => ⟨rfl, rfl, ?_⟩
    unfold scale
    rw [if_neg h0]
    cases hp : e.p with
    | none => exact Or.inl ⟨rfl, rfl⟩
    | some w => exact Or.inr ⟨w, w / samples.sum, rfl, rfl, by field_simp⟩
  · intro f hf'
    simp only [if_neg hf']
    exact he f hf'

/-- two steps in the directory `out` -/
def steps : Fs ℚ := ⟨fun _ => none, fun f => if f = "out/rank0-step0/events.dat".toList then some [⟨3, 5, some 2⟩]
  else if f = "out/rank0-step1/events.dat".toList then some [⟨4, 5, some 6⟩, ⟨4, 6, some 8⟩] else none⟩

/-- the files of the two steps -/
def stepFiles : List Text := ["out/rank0-step0/events.dat".toList, "out/rank0-step1/events.dat".toList]

example : (∀ c ∈ "out".toList, Plain c) ∧ Builder.Quotable "events.dat".toList ∧ (∀ f ∈ stepFiles, '\n' ∉ f) ∧ inDir "out".toList "events.dat".toList ∉ stepFiles ∧
    (∀ f ∈ stepFiles, (steps.events f).isSome) ∧ stepFiles.length = [(10 : ℚ), 10].length ∧ stepFiles ≠ [] ∧ [(10 : ℚ), 10].sum ≠ 0 := by
  refine ⟨by decide, by unfold Builder.Quotable; decide, by decide, by decide, by decide, rfl, by decide, by norm_num⟩

/-- **C351** (of unequal numbers): if a step has no file of events, or no number of samples, nothing is written. -/
theorem C351_mismatch (fs : Fs F) (files : List Text) (samples : List F) (outdir name : Text) (overwrite : Bool) (hs : files.length ≠ samples.length) :
    mergeAndNormalize fs files samples outdir name overwrite = .error .valueError := if_pos hs

example : stepFiles.length ≠ [(10 : ℚ)].length := by decide

/-- **C351** is false of any directory with a space in its name: all events are lost, and there is no error. (`a` and `b` are what is before and after the space; there is no file `a`
and no list of files in the directory `b`.) -/
theorem C351_space_false (fs : Fs F) (files : List Text) (samples : List F) (a b name : Text) (ha : PlainWord a) (hb : ∀ c ∈ b, Plain c)
    (hn : Builder.Quotable name) (hs : files.length = samples.length) (hne : files ≠ []) (hfa : fs.text a = none) (hfb : fs.text (filelist b) = none) (overwrite : Bool) :
    ∃ fs', mergeAndNormalize fs files samples (a ++ ' ' :: b) name overwrite = .ok fs' ∧ fs'.events (inDir (a ++ ' ' :: b) name) = some [] := by
  obtain ⟨fs0, hfs0⟩ : ∃ fs0, fs0 = if overwrite then fs.remove (inDir (a ++ ' ' :: b) name) else fs := ⟨_, rfl⟩
  have ht : fs0.text = fs.text := by rw [hfs0]; cases overwrite <;> rfl
  have hq : Builder.Quotable (a ++ ' ' :: b) := by
    intro c hc
    rcases List.mem_append.mp hc with hc | hc
    · exact plain_quotable ha.2 c hc
    · rcases List.mem_cons.mp hc with rfl | hc
      · decide
      · exact plain_quotable hb c hc
  have hlist : filelist (a ++ ' ' :: b) = a ++ ' ' :: filelist b := by simp [filelist, inDir]
  have hw : shell (filelist (a ++ ' ' :: b)) = some [a, filelist b] := by
    rw [hlist]
    exact Launch.shell_append _ _ (Launch.shell_word _ (filelist_plain hb)) a false none _ (Launch.shell_word a ha)
  have hspace : ∀ w : Text, (∀ c ∈ w, Plain c) → w ≠ a ++ ' ' :: filelist b := by
    rintro w hw rfl
    exact absurd (hw ' ' (by simp)) (by decide)
  unfold mergeAndNormalize
  rw [if_neg (not_not_intro hs), if_neg hne]
  dsimp only
  rw [← hfs0]
  unfold mergeEventFiles
  rw [shell_cat _ _ hw, shell_out hq hn]
  dsimp only
  unfold pipe
  have hin : ([a, filelist b].flatMap fun w => ((fs0.writeText (filelist (a ++ ' ' :: b)) (listing files)).text w).getD []) = [] := by
    have h1 := hspace a ha.2
    have h2 := hspace (filelist b) (filelist_plain hb).2
    simp only [Fs.writeText, hlist, List.flatMap_cons, List.flatMap_nil, if_neg h1, if_neg h2, ht, hfa, hfb, Option.getD_none, List.append_nil]
  rw [hin]
  dsimp only
  rw [lines_nil]
  simp only [List.all_nil, if_true, List.flatMap_nil, normalizeEventFile, Fs.writeEvents, List.map_nil]
  exact ⟨_, rfl, if_pos rfl⟩

/-- the two steps in the directory `my out` -/
example : PlainWord "my".toList ∧ (∀ c ∈ "out".toList, Plain c) ∧ Builder.Quotable "events.dat".toList ∧ steps.text "my".toList = none ∧
    steps.text (filelist "out".toList) = none := by
  refine ⟨⟨by decide, by decide⟩, by decide, by unfold Builder.Quotable; decide, rfl, rfl⟩

/-- **C351** is false of the option `overwrite_datafiles`: without it an older file of events is overwritten all the same. -/
theorem C351_overwrite_false (fs : Fs F) (files : List Text) (samples : List F) (outdir name : Text)
    (h : ∀ c ∈ outdir, Plain c) (hn : Builder.Quotable name) (hl : ∀ f ∈ files, '\n' ∉ f) (ho : inDir outdir name ∉ files)
    (hf : ∀ f ∈ files, (fs.events f).isSome) (hs : files.length = samples.length) (hne : files ≠ []) (old : List (Ev F)) :
    ∃ fs', mergeAndNormalize (fs.writeEvents (inDir outdir name) old) files samples outdir name false = .ok fs' ∧
      ∃ l, fs'.events (inDir outdir name) = some l ∧ l.length = (files.map fun f => ((fs.events f).getD []).length).sum := by
  have hne' : ∀ f ∈ files, f ≠ inDir outdir name := fun f hf' e => ho (e ▸ hf')
  have he : ∀ f ∈ files, (fs.writeEvents (inDir outdir name) old).events f = fs.events f := by
    intro f hf'; simp [Fs.writeEvents, hne' f hf']
  unfold mergeAndNormalize
  rw [if_neg (not_not_intro hs), if_neg hne]
  dsimp only
  rw [if_neg (by decide), merge_plain _ files outdir name h hn hl ho (fun f hf' => by rw [he f hf']; exact hf f hf')]
  dsimp only
  unfold normalizeEventFile
  refine ⟨_, by rw [show (Fs.events (Fs.writeEvents _ (inDir outdir name) _) (inDir outdir name)) = some _ from if_pos rfl], _, if_pos rfl, ?_⟩
  rw [List.length_map, List.length_flatMap]
  congr 1
  exact List.map_congr_left fun f hf' => by rw [he f hf']

end Verif.DetMerge
