import Verif.Spec.Table
import Mathlib.Tactic.Linarith
import Mathlib.Tactic.Ring
import Mathlib.Tactic.FieldSimp
import Mathlib.Tactic.NormNum
/-!
Lemmas about tables and interpolation.
-/

namespace Verif.Table

theorem Increasing.le {α : Type} [LinearOrder α] {f : Nat → α} {n : Nat} (h : Increasing f n) {i j : Nat}
    (hij : i ≤ j) (hj : j < n) : f i ≤ f j := by
  rcases Nat.lt_or_ge i j with h1 | h1
  · exact (h i j h1 hj).le
  · have : i = j := Nat.le_antisymm hij h1
    rw [this]

theorem searchLoop_spec {α : Type} [LinearOrder α] {x : α} {f : Nat → α} {n : Nat} (h : Increasing f n)
    (start fin : Nat) (h1 : start < fin) (h2 : fin < n) (h3 : f start < x) (h4 : x < f fin) :
    IsFirst f n x (searchLoop x f start fin) ∧ 0 < searchLoop x f start fin ∧ searchLoop x f start fin < n := by
  unfold searchLoop
  rw [if_pos h1]
  split
  · next he =>
    refine ⟨⟨h2.le, fun j hj => ?_, fun _ => h4.le⟩, by omega, h2⟩
    exact lt_of_le_of_lt (h.le (show j ≤ start by omega) (by omega)) h3
  · next he =>
    simp only
    have hm1 : start < (start + fin) / 2 := by omega
    have hm2 : (start + fin) / 2 < fin := by omega
    split
    · next hx =>
      refine ⟨⟨by omega, fun j hj => ?_, fun _ => hx.ge⟩, by omega, by omega⟩
      rw [← hx]; exact h j _ hj (by omega)
    · next hx =>
      split
      · next hlt => exact searchLoop_spec h _ _ hm2 h2 hlt h4
      · next hge => exact searchLoop_spec h _ _ hm1 (by omega) h3 (lt_of_le_of_ne (not_lt.1 hge) (Ne.symm hx))
termination_by fin - start

/-- what `search` returns -/
theorem search_spec {α : Type} [LinearOrder α] {x : α} {f : Nat → α} {n : Nat} (h : Increasing f n) (hn : 0 < n) :
    ∃ i, search x f n = .ok i ∧
      ((i = n ∧ f (n - 1) ≤ x) ∨ (x < f (n - 1) ∧ IsFirst f n x i ∧ i < n)) := by
  unfold search
  rw [if_neg (by omega)]
  split
  · next h1 => exact ⟨_, rfl, .inl ⟨by omega, h1⟩⟩
  · next h1 =>
    split
    · next h2 => exact ⟨_, rfl, .inr ⟨not_le.1 h1, ⟨by omega, fun j hj => by omega, fun _ => h2⟩, hn⟩⟩
    · next h2 =>
      have hn1 : n ≠ 1 := by
        rintro rfl
        exact h2 (not_le.1 h1).le
      obtain ⟨a, _, b⟩ := searchLoop_spec (x := x) h 0 (n - 1) (by omega) (by omega) (not_le.1 h2) (not_le.1 h1)
      exact ⟨_, rfl, .inr ⟨not_le.1 h1, a, b⟩⟩

theorem increasing_of_steps {es : Nat → ℝ} {n : Nat} (h : ∀ i < n - 1, es i < es (i + 1)) : Increasing es n := by
  intro i j hij
  induction j with
  | zero => omega
  | succ j ih =>
    intro hj
    rcases Nat.lt_or_ge i j with h1 | h1
    · exact (ih h1 (by omega)).trans (h j (by omega))
    · have : i = j := by omega
      rw [this]; exact h j (by omega)

theorem curveOk_some {es : Nat → ℝ} {n m : Nat} (h : curveOk es n m = .ok ()) :
    n = m ∧ 0 < n ∧ Increasing es n := by
  unfold curveOk at h
  split at h
  · simp at h
  · next h1 =>
    split at h
    · simp at h
    · next h2 =>
      split at h
      · next h3 => exact ⟨not_not.1 h1, Nat.pos_of_ne_zero h2, increasing_of_steps h3⟩
      · simp at h

/-! ### cells of an axis -/

theorem floor_cell {a : Axis} (hs : 0 < a.step) {x : ℝ} {i : Nat} (h : a.In x i) :
    0 ≤ (x - a.start) / a.step ∧ (x - a.start) / a.step < a.n ∧ ⌊(x - a.start) / a.step⌋₊ = i ∧
      (x - a.start) / a.step - ⌊(x - a.start) / a.step⌋₊ = (x - a.tick i) / a.step := by
  obtain ⟨h1, h2, h3⟩ := h
  unfold Axis.tick at h2 h3
  have e1 : (i : ℝ) ≤ (x - a.start) / a.step := by rw [le_div_iff₀ hs]; linarith
  have e2 : (x - a.start) / a.step < (i : ℝ) + 1 := by
    rw [div_lt_iff₀ hs]; push_cast at h3; linarith
  have e0 : (0 : ℝ) ≤ (x - a.start) / a.step := le_trans (Nat.cast_nonneg i) e1
  have e3 : ((i : ℝ) + 1) ≤ a.n := by exact_mod_cast h1
  have ef : ⌊(x - a.start) / a.step⌋₊ = i := (Nat.floor_eq_iff e0).2 ⟨e1, e2⟩
  refine ⟨e0, lt_of_lt_of_le e2 e3, ef, ?_⟩
  rw [ef, Axis.tick, eq_div_iff hs.ne', sub_mul, div_mul_cancel₀ _ hs.ne']; ring

theorem locate1_cell {a : Axis} (hs : 0 < a.step) {x : ℝ} {i : Nat} (h : a.In x i) :
    locate1 a x = .ok (i, (x - a.tick i) / a.step) := by
  obtain ⟨e0, e1, e2, e3⟩ := floor_cell hs h
  unfold locate1
  simp only
  rw [if_neg (by push Not; exact ⟨e0, e1⟩), e3, e2]

theorem locate3_cell {a : Axis} (hs : 0 < a.step) {x : ℝ} {i : Nat} (h : a.In x i) :
    locate3 a x = .ok (i, (x - a.tick i) / a.step) := by
  obtain ⟨e0, e1, e2, e3⟩ := floor_cell hs h
  unfold locate3
  simp only
  rw [if_neg (by push Not; exact ⟨e0, e1⟩), e3, e2]

theorem locateN_cell {a : Axis} (hs : 0 < a.step) {x : ℝ} {i : Nat} (h : a.In x i)
    (hend : x ≤ a.tick a.n - 1e-7 * a.step) :
    locateN a x = .ok (i, (x - a.tick i) / a.step) := by
  obtain ⟨e0, e1, e2, e3⟩ := floor_cell hs h
  have hout : ¬ ((x - a.start) / a.step < 0 ∨ (x - a.start) / a.step ≥ a.n) := by push Not; exact ⟨e0, e1⟩
  have hb : ¬ |(x - a.start) / a.step - a.n| < 1e-7 := by
    rw [abs_of_neg (by linarith), not_lt]
    have : (x - a.start) / a.step ≤ a.n - 1e-7 := by
      rw [div_le_iff₀ hs]; unfold Axis.tick at hend; linarith
    linarith
  unfold locateN
  simp only
  rw [if_neg (fun hh => hout hh.1), if_neg hout, if_neg hb, e3, e2]

theorem cell_fraction {a : Axis} (hs : 0 < a.step) {x : ℝ} {i : Nat} (h : a.In x i) :
    0 ≤ (x - a.tick i) / a.step ∧ (x - a.tick i) / a.step < 1 := by
  obtain ⟨_, h2, h3⟩ := h
  constructor
  · exact div_nonneg (by linarith) hs.le
  · rw [div_lt_one hs]; unfold Axis.tick at h3 ⊢; push_cast at h3; linarith

/-- cells cover the axis -/
theorem exists_cell {a : Axis} (hs : 0 < a.step) {x : ℝ} (h0 : a.start ≤ x) (h1 : x < a.tick a.n) :
    ∃ i, a.In x i := by
  have e0 : 0 ≤ (x - a.start) / a.step := div_nonneg (by linarith) hs.le
  refine ⟨⌊(x - a.start) / a.step⌋₊, ?_, ?_, ?_⟩
  · rw [Nat.floor_lt e0, div_lt_iff₀ hs]; unfold Axis.tick at h1; linarith
  · have := Nat.floor_le e0
    rw [le_div_iff₀ hs] at this
    unfold Axis.tick; linarith
  · have := Nat.lt_floor_add_one ((x - a.start) / a.step)
    rw [div_lt_iff₀ hs] at this
    unfold Axis.tick; push_cast; linarith

theorem interp1_between {y0 y1 x lo hi : ℝ} (hx0 : 0 ≤ x) (hx1 : x ≤ 1) (h0 : lo ≤ y0 ∧ y0 ≤ hi)
    (h1 : lo ≤ y1 ∧ y1 ≤ hi) : lo ≤ interp1 y0 y1 x ∧ interp1 y0 y1 x ≤ hi := by
  unfold interp1
  constructor
  · nlinarith [mul_nonneg hx0 (sub_nonneg.2 h1.1), mul_nonneg (sub_nonneg.2 hx1) (sub_nonneg.2 h0.1)]
  · nlinarith [mul_nonneg hx0 (sub_nonneg.2 h1.2), mul_nonneg (sub_nonneg.2 hx1) (sub_nonneg.2 h0.2)]

theorem interp2_eq (z00 z10 z01 z11 x y : ℝ) :
    interp2 z00 z10 z01 z11 x y = interp1 (interp1 z00 z10 x) (interp1 z01 z11 x) y := by
  unfold interp2 interp1; ring

theorem interp3_eq (u000 u100 u010 u001 u011 u101 u110 u111 x y z : ℝ) :
    interp3 u000 u100 u010 u001 u011 u101 u110 u111 x y z =
      interp1 (interp1 (interp1 u000 u100 x) (interp1 u010 u110 x) y)
        (interp1 (interp1 u001 u101 x) (interp1 u011 u111 x) y) z := by
  unfold interp3 interp1; ring

theorem value3_cell {ax ay az : Axis} (hx : 0 < ax.step) (hy : 0 < ay.step) (hz : 0 < az.step)
    {data : Nat → Nat → Nat → ℝ} {x y z : ℝ} {i j k : Nat} (h1 : ax.In x i) (h2 : ay.In y j) (h3 : az.In z k) :
    value3 ax ay az data x y z = .ok (interp3 (data i j k) (data (i + 1) j k) (data i (j + 1) k)
      (data i j (k + 1)) (data i (j + 1) (k + 1)) (data (i + 1) j (k + 1)) (data (i + 1) (j + 1) k)
      (data (i + 1) (j + 1) (k + 1)) ((x - ax.tick i) / ax.step) ((y - ay.tick j) / ay.step)
      ((z - az.tick k) / az.step)) := by
  unfold value3
  rw [locate3_cell hx h1, locate3_cell hy h2, locate3_cell hz h3]
  rfl

theorem tick_succ (a : Axis) (i : Nat) : a.tick (i + 1) = a.tick i + a.step := by
  unfold Axis.tick; push_cast; ring

end Verif.Table
