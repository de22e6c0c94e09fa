import Verif.Spec.DetMerge
import Verif.Lemmas.Builder
import Verif.Lemmas.Facility
/-!
Lemmas about the file of events of a detector system.
-/

namespace Verif.DetMerge

open Launch (Text shell Plain PlainWord)
open Spec

variable {F : Type}

theorem splitAll_listing (files : List Text) (h : ∀ f ∈ files, '\n' ∉ f) : Facility.splitAll '\n' (listing files) = files ++ [[]] := by
  induction files with
  | nil => rfl
  | cons f fs ih =>
    unfold listing
    have hf := h f List.mem_cons_self
    have ih := ih fun g hg => h g (List.mem_cons_of_mem _ hg)
    clear h
    induction f with
    | nil => simp [Facility.splitAll, ih]
    | cons c f ihf =>
      rw [List.mem_cons, not_or] at hf
      have := ihf hf.2
      rw [List.cons_append, Facility.splitAll, if_neg (fun e => hf.1 e.symm), this]
      rfl

theorem lines_listing (files : List Text) (h : ∀ f ∈ files, '\n' ∉ f) : lines (listing files) = files := by
  unfold lines
  rw [splitAll_listing files h]
  simp

theorem lines_nil : lines [] = [] := by decide

theorem shell_cat (w : Text) (ws : List Text) (h : shell w = some ws) : shell ("cat ".toList ++ w) = some ("cat".toList :: ws) := by
  have h1 : Launch.shellFrom false none "cat".toList = some ["cat".toList] := by decide
  have := Launch.shell_append w ws h "cat".toList false none _ h1
  simpa [shell] using this

theorem plain_quotable {w : Text} (h : ∀ c ∈ w, Plain c) : Builder.Quotable w := by
  intro c hc
  have := h c hc
  refine ⟨?_, ?_, ?_, ?_⟩ <;> rintro rfl <;> revert this <;> decide

theorem filelist_plain {outdir : Text} (h : ∀ c ∈ outdir, Plain c) : PlainWord (filelist outdir) := by
  refine ⟨by simp [filelist, inDir], ?_⟩
  intro c hc
  unfold filelist inDir at hc
  rcases List.mem_append.mp hc with hc | hc
  · exact h c hc
  · have : ∀ c ∈ '/' :: "eventfiles-to-merge.list".toList, Plain c := by decide
    exact this c hc

theorem inDir_quotable {outdir name : Text} (h : Builder.Quotable outdir) (hn : Builder.Quotable name) : Builder.Quotable (inDir outdir name) := by
  intro c hc
  unfold inDir at hc
  rcases List.mem_append.mp hc with hc | hc
  · exact h c hc
  · rcases List.mem_cons.mp hc with rfl | hc
    · decide
    · exact hn c hc

theorem shell_out {outdir name : Text} (h : Builder.Quotable outdir) (hn : Builder.Quotable name) :
    shell ('"' :: (inDir outdir name ++ ['"'])) = some [inDir outdir name] :=
  Builder.shell_quote' _ (inDir_quotable h hn)

theorem merge_plain (fs : Fs F) (files : List Text) (outdir name : Text) (h : ∀ c ∈ outdir, Plain c) (hn : Builder.Quotable name)
    (hl : ∀ f ∈ files, '\n' ∉ f) (ho : inDir outdir name ∉ files) (hf : ∀ f ∈ files, (fs.events f).isSome) :
    mergeEventFiles fs files outdir name =
      .ok (((fs.writeText (filelist outdir) (listing files)).writeEvents (inDir outdir name) []).writeEvents (inDir outdir name)
        (files.flatMap fun f => (fs.events f).getD [])) := by
  unfold mergeEventFiles
  rw [shell_cat _ _ (Launch.shell_word _ (filelist_plain h)), shell_out (plain_quotable h) hn]
  dsimp only
  unfold pipe
  have hin : ([filelist outdir].flatMap fun w => ((fs.writeText (filelist outdir) (listing files)).text w).getD []) = listing files := by
    simp [Fs.writeText]
  rw [hin]
  dsimp only
  rw [lines_listing files hl]
  have he : ∀ f ∈ files, ((fs.writeText (filelist outdir) (listing files)).writeEvents (inDir outdir name) []).events f = fs.events f := by
    intro f hf'
    have : f ≠ inDir outdir name := fun e => ho (e ▸ hf')
    simp [Fs.writeEvents, Fs.writeText, this]
  rw [if_pos (List.all_eq_true.mpr fun f hf' => by rw [he f hf']; exact hf f hf')]
  congr 2
  rw [List.flatMap_def, List.flatMap_def, List.map_congr_left fun f hf' => by rw [he f hf']]

end Verif.DetMerge
