import Verif.Spec.Dos
import Verif.Lemmas.Table
import Verif.Lemmas.Kinem
import Mathlib.MeasureTheory.Integral.IntervalIntegral.FundThmCalculus
import Mathlib.Analysis.SpecialFunctions.Integrals.Basic
import Mathlib.Algebra.BigOperators.Intervals
import Mathlib.Tactic.FieldSimp
import Mathlib.Tactic.Linarith
/-!
Helper lemmas for densities of states.
-/

namespace Verif.Dos
open Table Kinem
open Finset (range)

theorem kelvin2meV_pos : 0 < kelvin2meV := by unfold kelvin2meV; norm_num

theorem bose_pos {E T : ℝ} (hE : 0 < E) (hT : 0 < T) :
    bose E T = some (1 / (Real.exp (E / kT T) - 1)) ∧ 0 < 1 / (Real.exp (E / kT T) - 1) := by
  have hk : 0 < T * kelvin2meV := mul_pos hT kelvin2meV_pos
  have h1 : 1 < Real.exp (E / (T * kelvin2meV)) := by rw [Real.one_lt_exp_iff]; positivity
  constructor
  · unfold bose
    simp only [if_neg (not_lt.2 hE.le), if_neg hk.ne']
    exact divD_ok (by linarith)
  · unfold kT; exact one_div_pos.2 (by linarith)

theorem computeSod_ok {e0 de : ℝ} {Z : List ℝ} {s : ℝ} (h : computeSod e0 de Z = .ok s) :
    20 ≤ Z.length ∧ slope (fun i => (e0 + de * i) * (e0 + de * i)) (fun i => Z.getD i 0) 20 = some s := by
  unfold computeSod at h
  split at h
  · cases h
  · next hl =>
    refine ⟨by omega, ?_⟩
    simp only at h
    split at h
    · cases h
    · next c hc =>
      split at h
      · cases h
      · cases h; exact hc

theorem linearDos_ok {e0 de : ℝ} {ne : Nat} {Z : List ℝ} {d : Density} (h : linearDos e0 de ne Z = .ok d) :
    0 ≤ e0 ∧ 0 < de ∧ ne = Z.length ∧ 20 ≤ ne ∧ Z.sum * de ≠ 0 ∧
      computeSod e0 de (Z.map (· / (Z.sum * de))) = .ok d.sod ∧
      d = ⟨e0, e0 + de * ((ne : ℝ) - 1), linearValue e0 de (e0 + de * ((ne : ℝ) - 1)) ne
        (Z.map (· / (Z.sum * de))), d.sod⟩ := by
  unfold linearDos at h
  simp only at h
  split at h
  · cases h
  next h1 =>
  split at h
  · cases h
  next h2 =>
  split at h
  · cases h
  next h3 =>
  split at h
  · cases h
  next h4 =>
  split at h
  · cases h
  next h5 =>
  split at h
  · cases h
  next h6 =>
  split at h
  · cases h
  next s hs =>
  cases h
  have hl := (computeSod_ok hs).1
  rw [List.length_map] at hl
  rw [not_not] at h1 h2
  refine ⟨not_lt.1 h5, ?_, h2, h2 ▸ hl, h6, hs, rfl⟩
  rcases (not_lt.1 h4).lt_or_eq with hh | hh
  · exact hh
  · rw [← hh] at h1; simp at h1

theorem getD_map_div (Z : List ℝ) (a : ℝ) (i : Nat) : (Z.map (· / a)).getD i 0 = Z.getD i 0 / a := by
  rw [List.getD_eq_getElem?_getD, List.getD_eq_getElem?_getD, List.getElem?_map]
  cases Z[i]? <;> simp

/-- the axis of the table -/
noncomputable def axisOf (e0 de : ℝ) (n : Nat) : Axis := ⟨e0, de, n - 1⟩

theorem axisOf_end {e0 de : ℝ} {n : Nat} (hn : 1 ≤ n) : (axisOf e0 de n).tick (axisOf e0 de n).n = e0 + de * ((n : ℝ) - 1) := by
  simp only [axisOf, Axis.tick]
  rw [Nat.cast_sub hn]; push_cast; ring

theorem at_cell {e0 de : ℝ} {ne : Nat} {Z : List ℝ} {d : Density} (h : linearDos e0 de ne Z = .ok d)
    {e : ℝ} {i : Nat} (hi : (axisOf e0 de ne).In e i) :
    d.at e = .ok (interp1 (Z.getD i 0 / (Z.sum * de)) (Z.getD (i + 1) 0 / (Z.sum * de))
      ((e - (axisOf e0 de ne).tick i) / de)) := by
  obtain ⟨h0, hd, hl, h20, ha, hs, he⟩ := linearDos_ok h
  have hstart : e0 ≤ e := by
    have h2 := hi.2.1
    simp only [axisOf, Axis.tick] at h2
    have : 0 ≤ (i : ℝ) * de := by positivity
    linarith
  have hend : e < e0 + de * ((ne : ℝ) - 1) := by
    rw [← axisOf_end (e0 := e0) (de := de) (show 1 ≤ ne by omega)]
    refine lt_of_lt_of_le hi.2.2 ?_
    have : i + 1 ≤ (axisOf e0 de ne).n := hi.1
    simp only [Axis.tick]
    have : ((i + 1 : ℕ) : ℝ) ≤ ((axisOf e0 de ne).n : ℝ) := by exact_mod_cast this
    have := mul_le_mul_of_nonneg_right this (show 0 ≤ (axisOf e0 de ne).step from hd.le)
    linarith
  rw [he]
  unfold Density.at
  simp only
  rw [if_neg (by push Not; exact ⟨hstart, hend.le⟩)]
  unfold linearValue
  rw [if_neg (by push Not; exact ⟨hstart, hend⟩)]
  unfold value1
  have := locate1_cell (a := axisOf e0 de ne) hd hi
  simp only [axisOf] at this ⊢
  rw [this]
  simp only [bind, Except.bind, getD_map_div]

theorem val_cell {e0 de : ℝ} {ne : Nat} {Z : List ℝ} {d : Density} (h : linearDos e0 de ne Z = .ok d)
    {e : ℝ} {i : Nat} (hi : (axisOf e0 de ne).In e i) :
    d.val e = interp1 (Z.getD i 0 / (Z.sum * de)) (Z.getD (i + 1) 0 / (Z.sum * de))
      ((e - (axisOf e0 de ne).tick i) / de) := by
  unfold Density.val; rw [at_cell h hi]

theorem at_outside {e0 de : ℝ} {ne : Nat} {Z : List ℝ} {d : Density} (h : linearDos e0 de ne Z = .ok d)
    {e : ℝ} (he : e < d.emin ∨ d.emax ≤ e) : d.at e = .ok 0 := by
  obtain ⟨h0, hd, hl, h20, ha, hs, hh⟩ := linearDos_ok h
  rw [hh] at he ⊢
  unfold Density.at
  simp only at he ⊢
  split
  · rfl
  · unfold linearValue; rw [if_pos he]

theorem sum_getD (Z : List ℝ) : ∑ i ∈ range Z.length, Z.getD i 0 = Z.sum := by
  induction Z with
  | nil => simp
  | cons a l ih =>
    rw [List.length_cons, Finset.sum_range_succ', List.sum_cons, ← ih]
    simp [add_comm]

theorem slope_some {x y : Nat → ℝ} {N : Nat} {c : ℝ} (h : slope x y N = some c) :
    c * ∑ i ∈ range N, x i * x i = ∑ i ∈ range N, x i * y i := by
  obtain ⟨h1, h2⟩ := divD_some h
  rw [h2, div_mul_cancel₀ _ h1]

theorem slope_best {x y : Nat → ℝ} {N : Nat} {c : ℝ} (h : slope x y N = some c) (c' : ℝ) :
    ∑ i ∈ range N, (y i - c * x i) ^ 2 ≤ ∑ i ∈ range N, (y i - c' * x i) ^ 2 := by
  have hs := slope_some h
  have e : ∀ k : ℝ, ∑ i ∈ range N, (y i - k * x i) ^ 2
      = ∑ i ∈ range N, y i * y i - 2 * k * (∑ i ∈ range N, x i * y i) + k * k * ∑ i ∈ range N, x i * x i := by
    intro k
    rw [Finset.mul_sum, Finset.mul_sum, ← Finset.sum_sub_distrib, ← Finset.sum_add_distrib]
    exact Finset.sum_congr rfl fun i _ => by ring
  have hx : 0 ≤ ∑ i ∈ range N, x i * x i := Finset.sum_nonneg fun i _ => mul_self_nonneg _
  rw [e, e, ← hs]
  nlinarith [mul_nonneg hx (mul_self_nonneg (c - c'))]

theorem integral_affine (a b s t : ℝ) (ht : t ≠ 0) :
    ∫ e in s..(s + t), interp1 a b ((e - s) / t) = t * (a + b) / 2 := by
  have e1 : ∀ e : ℝ, interp1 a b ((e - s) / t) = (a - s * (b - a) / t) + (b - a) / t * e := by
    intro e; unfold interp1; field_simp; ring
  simp only [e1]
  have hi : IntervalIntegrable (fun e : ℝ => (b - a) / t * e) MeasureTheory.volume s (s + t) :=
    (continuous_const.mul continuous_id).intervalIntegrable _ _
  rw [intervalIntegral.integral_add (by simp) hi,
    intervalIntegral.integral_const, intervalIntegral.integral_const_mul, integral_id]
  field_simp
  simp only [smul_eq_mul]
  field_simp
  ring

theorem tick_mono {a : Axis} (hs : 0 ≤ a.step) {i j : Nat} (h : i ≤ j) : a.tick i ≤ a.tick j := by
  simp only [Axis.tick]
  have : (i : ℝ) ≤ j := by exact_mod_cast h
  have := mul_le_mul_of_nonneg_right this hs
  linarith

/-! Debye-Waller factor -/

theorem dwTerm_some {T w : ℝ} (Z : ℝ → ℝ) (hT : 0 < T) (hw : 0 < w) :
    dwTerm Z T w = some (dwIntegrand Z T w) := by
  have hk : 0 < kT T := mul_pos hT kelvin2meV_pos
  unfold dwTerm
  rw [(bose_pos hw hT).1]
  simp only [bind, Option.bind, divD_ok hw.ne']
  congr 1
  unfold dwIntegrand coth
  have hx : 0 < w / (2 * kT T) := by positivity
  obtain ⟨x, hxe⟩ : ∃ x, x = w / (2 * kT T) := ⟨_, rfl⟩
  have e2 : w / kT T = x + x := by rw [hxe]; field_simp; norm_num
  rw [← hxe] at hx ⊢
  rw [e2, Real.exp_add, Real.cosh_eq, Real.sinh_eq, Real.exp_neg]
  have hE : 1 < Real.exp x := Real.one_lt_exp_iff.2 hx
  obtain ⟨y, hy⟩ : ∃ y, y = Real.exp x := ⟨_, rfl⟩
  rw [← hy] at hE ⊢
  have h1 : y * y - 1 ≠ 0 := by nlinarith
  have h2 : y - y⁻¹ ≠ 0 := by
    have : y⁻¹ < 1 := inv_lt_one_of_one_lt₀ hE
    linarith
  have hy0 : y ≠ 0 := by positivity
  have h3 : y ^ 2 - 1 ≠ 0 := by nlinarith
  field_simp
  ring

theorem coth_pos {x : ℝ} (h : 0 < x) : 0 < coth x := div_pos (Real.cosh_pos x) (Real.sinh_pos_iff.2 h)

theorem dwFactor_eq (dw mass : ℝ) : dwFactor dw mass = recoil mass * dw := by
  unfold dwFactor recoil
  ring

/-- the points used when the density of states starts at 0 -/
theorem used_zero {wmax : ℝ} (hw : 0 < wmax) {n : Nat} (hn : 1 ≤ n) :
    ((List.range n).filter fun i => ¬ dwPoint 0 wmax n i < wmax / n / 100)
      = (List.range n).filter fun i => i ≠ 0 := by
  apply List.filter_congr
  intro i hi
  have hn' : (1 : ℝ) ≤ n := by exact_mod_cast hn
  have hden : 0 < (n : ℝ) - 1 + 0.00000001 := by linarith
  simp only [decide_eq_decide, not_lt]
  unfold dwPoint
  constructor
  · rintro h rfl
    simp at h
    have : 0 < wmax / n / 100 := by positivity
    linarith
  · intro h
    have hi1 : (1 : ℝ) ≤ i := by exact_mod_cast Nat.one_le_iff_ne_zero.2 h
    have h1 : wmax / n ≤ (wmax - 0) / ((n : ℝ) - 1 + 0.00000001) := by
      rw [sub_zero]
      exact div_le_div_of_nonneg_left hw.le hden (by linarith)
    have h2 : 0 < wmax / n := by positivity
    nlinarith

theorem range_filter_ne (n : Nat) : (List.range n).filter (fun i => i ≠ 0) = List.range' 1 (n - 1) := by
  cases n with
  | zero => simp
  | succ n =>
    rw [List.range_eq_range', List.range'_succ, List.filter_cons_of_neg (by simp)]
    rw [List.filter_eq_self.2]
    · simp
    · intro a ha
      rw [List.mem_range'_1] at ha
      simp; omega

theorem sum_range' (f : Nat → ℝ) (n : Nat) : ((List.range' 1 n).map f).sum = ∑ i ∈ range n, f (i + 1) := by
  induction n with
  | zero => simp
  | succ n ih =>
    rw [List.range'_concat, List.map_append, List.sum_append, ih, Finset.sum_range_succ]
    simp [Nat.add_comm]

/-- the trapezoidal sum over the points `1 … m+2` with the extrapolated value at 0 -/
noncomputable def trapezoid (F : Nat → ℝ) (m : Nat) : ℝ :=
  (2 * F 1 - F 2) / 2 + ∑ i ∈ range (m + 1), F (i + 1) + F (m + 2) / 2

theorem trapezoid_nonneg {F : Nat → ℝ} {m : Nat} (h : ∀ i, 1 ≤ i → i ≤ m + 2 → 0 ≤ F i) : 0 ≤ trapezoid F m := by
  unfold trapezoid
  have h1 := h 1 le_rfl (by omega)
  have h2 := h 2 (by omega) (by omega)
  have h3 := h (m + 2) (by omega) le_rfl
  rw [Finset.sum_range_succ']
  cases m with
  | zero => simp; linarith
  | succ m =>
    rw [Finset.sum_range_succ']
    have : 0 ≤ ∑ k ∈ range m, F (k + 1 + 1 + 1) := Finset.sum_nonneg fun i hi => h _ (by omega) (by
      have := Finset.mem_range.1 hi; omega)
    simp only [zero_add] at *
    norm_num at *
    linarith

theorem dwCore_zero {wmax : ℝ} (hw : 0 < wmax) (Z : ℝ → ℝ) (m : Nat) (mass : ℝ) {T : ℝ} (hT : 0 < T) :
    dwCore 0 wmax Z (m + 3) mass T = .ok (recoil mass * (wmax / ((m : ℝ) + 2 + 0.00000001)) *
      trapezoid (fun i => dwIntegrand Z T (wmax / ((m : ℝ) + 2 + 0.00000001) * i)) m) := by
  have hden : (0 : ℝ) < (m : ℝ) + 2 + 0.00000001 := by positivity
  obtain ⟨dw, hdw⟩ : ∃ dw, dw = wmax / ((m : ℝ) + 2 + 0.00000001) := ⟨_, rfl⟩
  have hdw0 : 0 < dw := by rw [hdw]; positivity
  have e1 : (wmax - 0) / (((m + 3 : ℕ) : ℝ) - 1 + 0.00000001) = dw := by
    rw [hdw, sub_zero]; congr 1; push_cast; ring
  have ew : ∀ i : Nat, dwPoint 0 wmax (m + 3) i = dw * i := by
    intro i; unfold dwPoint; rw [e1, add_zero]
  have et : ∀ i : Nat, 1 ≤ i → dwTerm Z T (dw * i) = some (dwIntegrand Z T (dw * i)) := by
    intro i hi
    have : (1 : ℝ) ≤ i := by exact_mod_cast hi
    exact dwTerm_some Z hT (by positivity)
  have hu := used_zero hw (show 1 ≤ m + 3 by omega)
  rw [range_filter_ne] at hu
  unfold dwCore
  simp only
  rw [hu, e1]
  have hne : ¬ ∃ i ∈ List.range' 1 (m + 3 - 1), dwTerm Z T (dwPoint 0 wmax (m + 3) i) = none := by
    rintro ⟨i, hi, h⟩
    rw [List.mem_range'_1] at hi
    rw [ew, et i hi.1] at h
    cases h
  rw [if_neg hne]
  have hh : (List.range' 1 (m + 3 - 1)).head? = some 1 := by
    rw [show m + 3 - 1 = (m + 1) + 1 by omega, List.range'_succ]; rfl
  rw [hh]
  simp only
  rw [if_neg (by rw [not_not, List.mem_range'_1]; omega)]
  rw [show m + 3 - 1 = (m + 1) + 1 by omega, sum_range', Finset.sum_range_succ, dwFactor_eq, ← hdw]
  have hs : ∀ i ∈ range (m + 1), ((dwTerm Z T (dwPoint 0 wmax (m + 3) (i + 1))).getD 0
      * if i + 1 = m + 1 + 1 then (0.5 : ℝ) else 1) = dwIntegrand Z T (dw * ((i + 1 : ℕ) : ℝ)) := by
    intro i hi
    have := Finset.mem_range.1 hi
    rw [if_neg (by omega), ew, et _ (by omega)]
    simp
  rw [Finset.sum_congr rfl hs]
  rw [ew, ew, ew, et 1 le_rfl, et (1 + 1) (by omega), et (m + 1 + 1) (by omega)]
  unfold trapezoid
  simp only [Option.getD_some, if_true]
  congr 1
  simp only [show (1 : ℕ) + 1 = 2 by rfl]
  rw [add_zero, Nat.cast_one, mul_one]
  rw [mul_div_cancel_left₀ _ hdw0.ne']
  norm_num
  rw [show (m : ℝ) + 1 + 1 = m + 2 by ring]
  ring

end Verif.Dos
