import Verif.Model.TewSave
/-!
Words for the property of the histogram of a monitor (C363).
-/

namespace Verif.TewSave.Spec

/-- the boundaries of `n` equal channels from `lo` to `hi`; see `PSD_TEW_monitor.save.py:51-53` -/
def Equal (l : List ℝ) (lo hi : ℝ) (n : Nat) : Prop :=
  l.length = n + 1 ∧ ∀ i (h : i < l.length), l[i] = lo + (hi - lo) * i / n

end Verif.TewSave.Spec
