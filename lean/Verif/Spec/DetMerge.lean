import Verif.Model.DetMerge
import Mathlib.Data.List.Forall2
/-!
What is expected of the file of events of a detector system.
-/

namespace Verif.DetMerge.Spec

open Launch (Text)

variable {F : Type} [Field F]

/-- an event whose weight was divided by the number of samples -/
def Weighted (n : F) (e e' : Ev F) : Prop :=
  e'.pixelID = e.pixelID ∧ e'.tofChannelNo = e.tofChannelNo ∧ ((e.p = none ∧ e'.p = none) ∨ ∃ w w', e.p = some w ∧ e'.p = some w' ∧ w' * n = w)

/-- the file of events has the events of all files, one file after the other, with the weights divided by the number of samples -/
def Merged (fs fs' : Fs F) (files : List Text) (out : Text) (n : F) : Prop :=
  ∃ ls l, List.Forall₂ (fun f l => fs.events f = some l) files ls ∧ fs'.events out = some l ∧ List.Forall₂ (Weighted n) ls.flatten l

end Verif.DetMerge.Spec
