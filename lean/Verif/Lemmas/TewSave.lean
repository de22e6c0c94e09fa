import Verif.Spec.TewSave
import Mathlib.Tactic.FieldSimp
import Mathlib.Tactic.Linarith
import Mathlib.Tactic.NormNum
import Mathlib.Algebra.Order.Floor.Ring
/-!
Lemmas about the histogram of a monitor.
-/

namespace Verif.TewSave
open Spec McMon

theorem ceil_tenth (n : Nat) : ⌈(n : ℝ) + 1 / 10⌉.toNat = n + 1 := by
  have : ⌈(n : ℝ) + 1 / 10⌉ = ((n + 1 : ℕ) : ℤ) := by
    rw [Int.ceil_eq_iff]
    push_cast
    constructor <;> linarith
  rw [this]
  rfl

theorem boundaries_eq {lo hi d : ℝ} {n : Nat} (hd : d ≠ 0) (h : hi = lo + n * d) :
    boundaries lo hi d = .ok ((List.range (n + 1)).map fun i : ℕ => lo + i * d) := by
  unfold boundaries arange quot
  have hq : (hi + d / 10 - lo) / d = (n : ℝ) + 1 / 10 := by
    rw [h]
    field_simp
    ring
  rw [if_neg hd]
  simp only [bind, Except.bind, pure, Except.pure]
  rw [hq, ceil_tenth]

theorem equal_range {lo hi d : ℝ} {n : Nat} (hn : 0 < n) (h : hi = lo + n * d) :
    Equal ((List.range (n + 1)).map fun i : ℕ => lo + i * d) lo hi n := by
  have hn' : (n : ℝ) ≠ 0 := by exact_mod_cast hn.ne'
  refine ⟨by simp, ?_⟩
  intro i hi'
  rw [List.getElem_map, List.getElem_range, h]
  field_simp
  ring

/-- the histogram for channels that are not empty -/
theorem getHistogram_eq (c : Core) (h : Hist) {lo hi db : ℝ} (hx : 0 < c.nx) (hy : 0 < c.ny) (hW : c.xwidth ≠ 0)
    (hH : c.yheight ≠ 0) (hr : c.range = .ok (lo, hi, db)) (hb : db ≠ 0) (hhi : hi = lo + c.nb * db) :
    getHistogram c h = .ok ⟨(List.range (c.nx + 1)).map fun i : ℕ => -c.xwidth / 2 + i * ((c.xwidth / 2 - -c.xwidth / 2) / c.nx),
      (List.range (c.ny + 1)).map fun i : ℕ => -c.yheight / 2 + i * ((c.yheight / 2 - -c.yheight / 2) / c.ny),
      (List.range (c.nb + 1)).map fun i : ℕ => lo + i * db,
      reshape c.ny c.nb fun n => (h.cell n).p, reshape c.ny c.nb fun n => (h.cell n).p2⟩ := by
  have hx' : (c.nx : ℝ) ≠ 0 := by exact_mod_cast hx.ne'
  have hy' : (c.ny : ℝ) ≠ 0 := by exact_mod_cast hy.ne'
  have ex : (c.xwidth / 2 - -c.xwidth / 2) / c.nx ≠ 0 := by
    apply div_ne_zero _ hx'
    intro e
    exact hW (by linarith)
  have ey : (c.yheight / 2 - -c.yheight / 2) / c.ny ≠ 0 := by
    apply div_ne_zero _ hy'
    intro e
    exact hH (by linarith)
  have bx := boundaries_eq (lo := -c.xwidth / 2) (hi := c.xwidth / 2) (n := c.nx) ex (by field_simp; ring)
  have by' := boundaries_eq (lo := -c.yheight / 2) (hi := c.yheight / 2) (n := c.ny) ey (by field_simp; ring)
  have bb := boundaries_eq hb hhi
  unfold getHistogram
  simp only [quot, if_neg hx', if_neg hy', hr, bind, Except.bind, bx, by', bb, List.length_map, List.length_range, ne_eq,
    not_true_eq_false, or_self, if_false, pure, Except.pure]

end Verif.TewSave
