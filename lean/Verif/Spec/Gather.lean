import Verif.Model.Gather
/-!
Words for the properties of the files that the post-processing finds (C360, C361).
-/

namespace Verif.Gather.Spec

/-- a name without characters that have a meaning in patterns; see `HistogramBasedMonitorMixin.py:61-62` -/
def PlainName (n : Name) : Prop := '*' ∉ n ∧ '?' ∉ n ∧ '[' ∉ n

/-- nothing is in the output directory yet; see `packages/mcni/python/mcni/pyre_support/Instrument.py:229-235` -/
def Fresh {C F : Type} (outdir : Path) (d : Disk C F) : Prop :=
  (∀ f ∈ d.data, ¬ outdir <+: f.1) ∧ ∀ f ∈ d.numbers, ¬ outdir <+: f.1

/-- every step of every process happens once; see `packages/mcni/python/mcni/pyre_support/Instrument.py:137-149` -/
def Once {C F : Type} (ss : List (Step C F)) : Prop :=
  ss.Pairwise fun a b => ¬ (a.rank = b.rank ∧ a.step = b.step)

end Verif.Gather.Spec
