import Verif.Model.Proxy
import Verif.Spec.McMonitors
import Verif.Spec.McDetectors
/-!
What a user expects of the histograms written for a monitor, and of the parameters of a component.
-/

namespace Verif.Proxy
open McMon

noncomputable section

/-- `x` is in the bin of the width `d` around `a` -/
def At (a d x : ℝ) : Prop := a - d / 2 ≤ x ∧ x < a + d / 2

/-- the middle of bin `i` of `n` bins from `lo` to `hi` -/
def middle (lo hi : ℝ) (n i : Nat) : ℝ := lo + (i + 1 / 2) * ((hi - lo) / n)

/-- the histogram has `n` bins from `lo` to `hi`; at the middle of each is what came of the neutrons whose quantity `q` is in the bin
around it -/
def Shows (H : Histo) (lo hi : ℝ) (n : Nat) (q : Event ℝ → ℝ) (sel : Event ℝ → Prop) (es : List (Event ℝ)) : Prop :=
  H.axis.length = n ∧ ∀ i < n, ∃ x, H.axis[i]? = some x ∧ x = middle lo hi n i ∧
    H.I[i]? = some (tally (fun e => sel e ∧ At x ((hi - lo) / n) (q e)) es).p ∧
    H.E2[i]? = some (tally (fun e => sel e ∧ At x ((hi - lo) / n) (q e)) es).p2

/-- the same for two quantities -/
def Shows2 (H : Histo2) (lo hi : ℝ) (n : Nat) (q : Event ℝ → ℝ) (lo' hi' : ℝ) (m : Nat) (q' : Event ℝ → ℝ) (sel : Event ℝ → Prop)
    (es : List (Event ℝ)) : Prop :=
  (H.xs.length = n ∧ H.ys.length = m) ∧ ∀ i < n, ∀ j < m, ∃ x y, (H.xs[i]? = some x ∧ x = middle lo hi n i) ∧
    (H.ys[j]? = some y ∧ y = middle lo' hi' m j) ∧
    H.I i j = (tally (fun e => sel e ∧ At x ((hi - lo) / n) (q e) ∧ At y ((hi' - lo') / m) (q' e)) es).p ∧
    H.E2 i j = (tally (fun e => sel e ∧ At x ((hi - lo) / n) (q e) ∧ At y ((hi' - lo') / m) (q' e)) es).p2

/-- a way to round numbers with relative errors up to `u` -/
def Rounds (fl : ℝ → ℝ) (u : ℝ) : Prop := ∀ x, |fl x - x| ≤ u * |x|

/-- the value of a parameter: the one set last, else the one given when the component was made, else the default -/
def wanted (params kwds sets : Dict) (k : String) : Option Val :=
  ((params ++ kwds ++ sets).reverse.find? (·.1 == k)).map (·.2)

/-- the values given when a component is made: keywords, and one positional argument for the name -/
def given (args : List Val) (kwds : Dict) : Dict := kwds ++ args.map fun a => ("name", a)

/-- attributes set one after the other -/
def setAll (o : Obj) (sets : Dict) : Obj := sets.foldl (fun o x => o.set x.1 x.2) o

end
end Verif.Proxy
