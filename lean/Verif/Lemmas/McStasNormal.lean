import Verif.Lemmas.McStas
/-!
Helper lemmas for pairs of normally distributed random numbers.
-/

namespace Verif.McStas
open Solid Flight Homog Kinem MeasureTheory Set Sampling

/-- the observable of an accepted point, 0 outside of the disk -/
noncomputable def disk2 (F : ℝ × ℝ → ℝ) (p : ℝ × ℝ) : ℝ :=
  if p.1 * p.1 + p.2 * p.2 < 1 then F (p.1 * √(-2 * Real.log (p.1 * p.1 + p.2 * p.2) / (p.1 * p.1 + p.2 * p.2)),
    p.2 * √(-2 * Real.log (p.1 * p.1 + p.2 * p.2) / (p.1 * p.1 + p.2 * p.2))) else 0

theorem disk2_polar (F : ℝ × ℝ → ℝ) {r θ : ℝ} (hr : 0 < r) : r * disk2 F (r * Real.cos θ, r * Real.sin θ) =
    r * (if r < 1 then F (√(-4 * Real.log r) * Real.cos θ, √(-4 * Real.log r) * Real.sin θ) else 0) := by
  have e : r * Real.cos θ * (r * Real.cos θ) + r * Real.sin θ * (r * Real.sin θ) = r ^ 2 := by
    linear_combination r ^ 2 * Real.cos_sq_add_sin_sq θ
  unfold disk2
  simp only [e]
  congr 1
  by_cases h : r < 1
  · have hl := Real.log_neg hr h
    rw [if_pos (by nlinarith), if_pos h]
    rw [Real.log_pow, Real.sqrt_div (by push_cast; linarith), Real.sqrt_sq hr.le]
    push_cast
    rw [show -2 * (2 * Real.log r) = -4 * Real.log r by ring]
    congr 2 <;> field_simp
  · rw [if_neg (by nlinarith), if_neg h]

theorem disk2_measurable {F : ℝ × ℝ → ℝ} (hf : Measurable F) : Measurable (disk2 F) := by
  unfold disk2
  apply Measurable.ite
  · exact measurableSet_lt (by fun_prop) (by fun_prop)
  · exact hf.comp (by fun_prop)
  · exact measurable_const

theorem disk2_bound {F : ℝ × ℝ → ℝ} {C : ℝ} (hC : ∀ x, |F x| ≤ C) (p : ℝ × ℝ) : |disk2 F p| ≤ C := by
  unfold disk2
  split
  · exact hC _
  · rw [abs_zero]; exact (abs_nonneg _).trans (hC 0)

/-- the integral over the disk is the expectation with the normal distribution -/
theorem disk2_integral {F : ℝ × ℝ → ℝ} (hf : Measurable F) {C : ℝ} (hC : ∀ x, |F x| ≤ C) :
    ∫ p : ℝ × ℝ, disk2 F p = Real.pi * normalMean2 F := by
  have hC0 : 0 ≤ C := (abs_nonneg _).trans (hC 0)
  obtain ⟨μ, hμ⟩ : ∃ μ : Measure ℝ, μ = volume.restrict (Ioi 0) := ⟨_, rfl⟩
  obtain ⟨ν, hν⟩ : ∃ ν : Measure ℝ, ν = volume.restrict (Ioo (-Real.pi) Real.pi) := ⟨_, rfl⟩
  have hprod : μ.prod ν = (volume : Measure (ℝ × ℝ)).restrict polarCoord.target := by
    rw [hμ, hν, Measure.prod_restrict]; rfl
  have hfin : IsFiniteMeasure ν := by
    rw [hν]; exact ⟨by rw [Measure.restrict_apply_univ]; exact measure_Ioo_lt_top⟩
  have hsf : SFinite μ := by rw [hμ]; infer_instance
  -- both sides in polar coordinates
  have h1 : ∫ p : ℝ × ℝ, disk2 F p = ∫ q, q.1 * (if q.1 < 1 then F (√(-4 * Real.log q.1) * Real.cos q.2, √(-4 * Real.log q.1) * Real.sin q.2) else 0) ∂(μ.prod ν) := by
    rw [← integral_comp_polarCoord_symm, hprod]
    apply setIntegral_congr_fun polarCoord.open_target.measurableSet
    intro q hq
    exact disk2_polar F hq.1
  have h2 : ∫ p : ℝ × ℝ, F p * Real.exp (-p.1 ^ 2 / 2) * Real.exp (-p.2 ^ 2 / 2) =
      ∫ q, q.1 * (F (q.1 * Real.cos q.2, q.1 * Real.sin q.2) * Real.exp (-q.1 ^ 2 / 2)) ∂(μ.prod ν) := by
    rw [← integral_comp_polarCoord_symm, hprod]
    apply setIntegral_congr_fun polarCoord.open_target.measurableSet
    intro q hq
    simp only [polarCoord_symm_apply, smul_eq_mul]
    rw [mul_assoc (F _), ← Real.exp_add]
    congr 3
    linear_combination -q.1 ^ 2 / 2 * Real.cos_sq_add_sin_sq q.2
  have hdom : Integrable (fun q : ℝ × ℝ => (2 * C) * (q.1 * Real.exp (-(1 / 2) * q.1 ^ 2)) * 1) (μ.prod ν) := by
    apply Integrable.mul_prod (f := fun r : ℝ => (2 * C) * (r * Real.exp (-(1 / 2) * r ^ 2))) (g := fun _ => (1 : ℝ))
    · rw [hμ]
      exact ((integrable_mul_exp_neg_mul_sq (by norm_num)).const_mul _).restrict
    · exact integrable_const _
  have hpos : ∀ᵐ q ∂(μ.prod ν), 0 < q.1 := by
    rw [hprod]
    filter_upwards [ae_restrict_mem polarCoord.open_target.measurableSet] with q hq using hq.1
  have i1 : Integrable (fun q : ℝ × ℝ => q.1 * (if q.1 < 1 then F (√(-4 * Real.log q.1) * Real.cos q.2, √(-4 * Real.log q.1) * Real.sin q.2) else 0)) (μ.prod ν) := by
    refine hdom.mono' ?_ ?_
    · apply Measurable.aestronglyMeasurable
      apply measurable_fst.mul
      apply Measurable.ite
      · exact measurableSet_lt (by fun_prop) (by fun_prop)
      · exact hf.comp (by fun_prop)
      · exact measurable_const
    · filter_upwards [hpos] with q hq
      rw [Real.norm_eq_abs, abs_mul, abs_of_pos hq, mul_one]
      split
      · next h1 =>
        have e1 : (1 : ℝ) / 2 ≤ Real.exp (-(1 / 2) * q.1 ^ 2) := by
          have := Real.add_one_le_exp (-(1 / 2) * q.1 ^ 2)
          nlinarith
        have e2 := hC (√(-4 * Real.log q.1) * Real.cos q.2, √(-4 * Real.log q.1) * Real.sin q.2)
        calc q.1 * |F (√(-4 * Real.log q.1) * Real.cos q.2, √(-4 * Real.log q.1) * Real.sin q.2)| ≤ q.1 * C := by gcongr
          _ = 2 * C * (q.1 * (1 / 2)) := by ring
          _ ≤ _ := by gcongr
      · rw [abs_zero, mul_zero]; positivity
  have i2 : Integrable (fun q : ℝ × ℝ => q.1 * (F (q.1 * Real.cos q.2, q.1 * Real.sin q.2) * Real.exp (-q.1 ^ 2 / 2))) (μ.prod ν) := by
    refine hdom.mono' ?_ ?_
    · apply Measurable.aestronglyMeasurable
      apply measurable_fst.mul
      apply Measurable.mul
      · exact hf.comp (by fun_prop)
      · fun_prop
    · filter_upwards [hpos] with q hq
      rw [Real.norm_eq_abs, abs_mul, abs_of_pos hq, mul_one, abs_mul, abs_of_pos (Real.exp_pos _)]
      have e2 := hC (q.1 * Real.cos q.2, q.1 * Real.sin q.2)
      have e3 : -q.1 ^ 2 / 2 = -(1 / 2) * q.1 ^ 2 := by ring
      rw [e3]
      have e4 := Real.exp_pos (-(1 / 2) * q.1 ^ 2)
      calc q.1 * (|F (q.1 * Real.cos q.2, q.1 * Real.sin q.2)| * Real.exp (-(1 / 2) * q.1 ^ 2))
          ≤ q.1 * (C * Real.exp (-(1 / 2) * q.1 ^ 2)) := by gcongr
        _ = 1 * C * (q.1 * Real.exp (-(1 / 2) * q.1 ^ 2)) := by ring
        _ ≤ _ := by gcongr; norm_num
  have h3 : ∫ p : ℝ × ℝ, disk2 F p =
      1 / 2 * ∫ p : ℝ × ℝ, F p * Real.exp (-p.1 ^ 2 / 2) * Real.exp (-p.2 ^ 2 / 2) := by
    rw [h1, h2, integral_prod_symm _ i1, integral_prod_symm _ i2, ← integral_const_mul]
    congr 1
    funext θ
    rw [hμ]
    simp only
    rw [radial (fun s => F (s * Real.cos θ, s * Real.sin θ)), ← integral_const_mul]
    congr 1
    funext s
    ring
  rw [h3]
  unfold normalMean2
  rw [← integral_const_mul, ← integral_const_mul]
  congr 1
  funext p
  have h7 : √(2 * Real.pi) * √(2 * Real.pi) = 2 * Real.pi := Real.mul_self_sqrt (by positivity)
  have h8 : 0 < √(2 * Real.pi) := Real.sqrt_pos.2 (by positivity)
  field_simp
  rw [pow_two, h7]
  ring

theorem disk2_zero (F : ℝ × ℝ → ℝ) {p : ℝ × ℝ} (h : p.1 ∉ Ioo (-1 : ℝ) 1 ∨ p.2 ∉ Ioo (-1 : ℝ) 1) : disk2 F p = 0 := by
  unfold disk2
  rw [if_neg]
  intro hlt
  rcases h with h | h
  · exact h ⟨by nlinarith [mul_self_nonneg p.2], by nlinarith [mul_self_nonneg p.2]⟩
  · exact h ⟨by nlinarith [mul_self_nonneg p.1], by nlinarith [mul_self_nonneg p.1]⟩

theorem disk2_integrable {F : ℝ × ℝ → ℝ} (hf : Measurable F) {C : ℝ} (hC : ∀ x, |F x| ≤ C) :
    Integrable (disk2 F) ((volume : Measure ℝ).prod volume) := by
  have hsq : (disk2 F) = (Ioo (-1 : ℝ) 1 ×ˢ Ioo (-1 : ℝ) 1).indicator (disk2 F) := by
    funext p
    by_cases h : p ∈ Ioo (-1 : ℝ) 1 ×ˢ Ioo (-1 : ℝ) 1
    · rw [indicator_of_mem h]
    · rw [indicator_of_notMem h]
      apply disk2_zero
      by_contra hc
      push Not at hc
      exact h hc
  rw [hsq]
  rw [integrable_indicator_iff (measurableSet_Ioo.prod measurableSet_Ioo)]
  refine IntegrableOn.of_bound ?_ (disk2_measurable hf).aestronglyMeasurable C ?_
  · rw [Measure.prod_prod]
    exact ENNReal.mul_lt_top measure_Ioo_lt_top measure_Ioo_lt_top
  · exact Filter.Eventually.of_forall fun p => disk2_bound hC p

/-- expectation over a square around the disk -/
theorem mean2_disk2 {F : ℝ × ℝ → ℝ} (hf : Measurable F) {C : ℝ} (hC : ∀ x, |F x| ≤ C) (E : ℝ) :
    mean2 (fun u1 u2 => disk2 F (2 * u1 - 1, 2 * u2 - 1) + E) = 1 / 4 * (∫ p : ℝ × ℝ, disk2 F p) + E := by
  have hin : ∀ x : ℝ, Integrable fun y : ℝ => disk2 F (x, y) := by
    intro x
    have hsq : (fun y : ℝ => disk2 F (x, y)) = (Ioo (-1 : ℝ) 1).indicator fun y => disk2 F (x, y) := by
      funext y
      by_cases h : y ∈ Ioo (-1 : ℝ) 1
      · rw [indicator_of_mem h]
      · rw [indicator_of_notMem h]; exact disk2_zero F (Or.inr h)
    rw [hsq, integrable_indicator_iff measurableSet_Ioo]
    refine IntegrableOn.of_bound measure_Ioo_lt_top
      ((disk2_measurable hf).comp (measurable_const.prodMk measurable_id)).aestronglyMeasurable C ?_
    exact Filter.Eventually.of_forall fun y => disk2_bound hC _
  have hI := disk2_integrable hf hC
  unfold mean2
  have e1 : (fun u1 : ℝ => mean fun u2 => disk2 F (2 * u1 - 1, 2 * u2 - 1) + E) =
      fun u1 => (fun x => 1 / 2 * ∫ y, disk2 F (x, y)) (2 * u1 - 1) + E := by
    funext u1
    exact mean_double (hin _) (fun y hy => disk2_zero F (Or.inr hy)) E
  rw [e1, mean_double (g := fun x => 1 / 2 * ∫ y, disk2 F (x, y)) (hI.integral_prod_left.const_mul _), integral_const_mul,
    show (volume : Measure (ℝ × ℝ)) = (volume : Measure ℝ).prod volume from rfl, integral_prod _ hI]
  · ring
  · intro x hx
    rw [show (fun y => disk2 F (x, y)) = fun _ => 0 from funext fun y => disk2_zero F (Or.inl hx)]
    simp

theorem gauss_one : ∫ y : ℝ, Real.exp (-y ^ 2 / 2) / √(2 * Real.pi) = 1 := by
  have := normalMean_const 1
  unfold normalMean at this
  simpa using this

theorem gauss_int : Integrable fun x : ℝ => Real.exp (-x ^ 2 / 2) / √(2 * Real.pi) := by
  simpa using gauss_integrable (f := fun _ => 1) measurable_const (C := 1) (by simp)

theorem gauss2_integrable {F : ℝ × ℝ → ℝ} (hf : Measurable F) {C : ℝ} (hC : ∀ x, |F x| ≤ C) :
    Integrable fun p : ℝ × ℝ => F p * (Real.exp (-p.1 ^ 2 / 2) / √(2 * Real.pi)) * (Real.exp (-p.2 ^ 2 / 2) / √(2 * Real.pi)) := by
  have hg := (gauss_int.mul_prod gauss_int).bdd_mul (f := F) hf.aestronglyMeasurable (Filter.Eventually.of_forall fun x => hC x)
  refine hg.congr (Filter.Eventually.of_forall fun p => ?_)
  simp only
  ring

theorem normalMean2_mul (f g : ℝ → ℝ) : normalMean2 (fun p => f p.1 * g p.2) = normalMean f * normalMean g := by
  unfold normalMean2 normalMean
  rw [← integral_prod_mul]
  congr 1
  funext p
  ring

theorem normalMean2_sub {F : ℝ × ℝ → ℝ} (hf : Measurable F) {C : ℝ} (hC : ∀ x, |F x| ≤ C) (c : ℝ) :
    normalMean2 (fun x => F x - c) = normalMean2 F - c := by
  have hc : normalMean2 (fun _ => c) = c := by
    have := normalMean2_mul (fun _ => c) (fun _ => 1)
    rw [normalMean_const, normalMean_const] at this
    simpa using this
  conv_rhs => rw [← hc]
  unfold normalMean2
  rw [← integral_sub (gauss2_integrable hf hC) (gauss2_integrable measurable_const (C := |c|) fun _ => le_rfl)]
  congr 1
  funext x
  ring

/-- two calls of `randnorm` -/
noncomputable def two (st : NormState) (us : List ℝ) : Option (ℝ × ℝ) := do
  let (x, st, us) ← randnorm st us
  let (y, _, _) ← randnorm st us
  some (x, y)

theorem two_accept {st : NormState} (hst : st.phase = false) {u1 u2 : ℝ} (us : List ℝ)
    (hw : (2 * u1 - 1) * (2 * u1 - 1) + (2 * u2 - 1) * (2 * u2 - 1) < 1) (h2 : u2 ≠ 1 / 2) :
    two st (u1 :: u2 :: us) = some ((2 * u1 - 1) *
      √(-2 * Real.log ((2 * u1 - 1) * (2 * u1 - 1) + (2 * u2 - 1) * (2 * u2 - 1)) /
        ((2 * u1 - 1) * (2 * u1 - 1) + (2 * u2 - 1) * (2 * u2 - 1))), (2 * u2 - 1) *
      √(-2 * Real.log ((2 * u1 - 1) * (2 * u1 - 1) + (2 * u2 - 1) * (2 * u2 - 1)) /
        ((2 * u1 - 1) * (2 * u1 - 1) + (2 * u2 - 1) * (2 * u2 - 1)))) := by
  have hx : 2 * u2 - 1 ≠ 0 := fun hc => h2 (by linarith)
  have hpos : 0 < (2 * u1 - 1) * (2 * u1 - 1) + (2 * u2 - 1) * (2 * u2 - 1) := by
    have := mul_self_nonneg (2 * u1 - 1)
    have := mul_self_pos.2 hx
    linarith
  unfold two randnorm polar
  simp only
  rw [if_pos hst, if_neg (by rintro (h | h) <;> linarith)]
  rfl

theorem two_reject {st : NormState} (hst : st.phase = false) {u1 u2 : ℝ} (us : List ℝ)
    (hw : ¬ (2 * u1 - 1) * (2 * u1 - 1) + (2 * u2 - 1) * (2 * u2 - 1) < 1) : two st (u1 :: u2 :: us) = two st us := by
  unfold two randnorm
  rw [polar]
  simp only
  rw [if_pos hst, if_pos hst, if_pos (.inl (not_lt.1 hw))]

theorem two_step {st : NormState} (hst : st.phase = false) {F : ℝ × ℝ → ℝ} (hf : Measurable F) {C : ℝ} (hC : ∀ x, |F x| ≤ C)
    (n : Nat) : meanN (2 * (n + 1)) (fun us => observe F (two st us)) =
      Real.pi / 4 * normalMean2 F + (1 - Real.pi / 4) * meanN (2 * n) (fun us => observe F (two st us)) := by
  obtain ⟨E, hE⟩ : ∃ E, E = meanN (2 * n) (fun us => observe F (two st us)) := ⟨_, rfl⟩
  rw [← hE]
  have hfE : Measurable fun x => F x - E := hf.sub_const E
  have hCE : ∀ x, |F x - E| ≤ C + |E| := fun x => (abs_sub _ _).trans (by linarith [hC x])
  have key := mean2_disk2 hfE hCE E
  rw [disk2_integral hfE hCE, normalMean2_sub hf hC] at key
  have : meanN (2 * (n + 1)) (fun us => observe F (two st us)) =
      mean2 (fun u1 u2 => disk2 (fun x => F x - E) (2 * u1 - 1, 2 * u2 - 1) + E) := by
    show mean (fun u1 => mean fun u2 => meanN (2 * n) fun us => observe F (two st (u1 :: u2 :: us))) = _
    unfold mean2
    congr 1
    funext u1
    unfold mean
    apply intervalIntegral.integral_congr_ae
    have hne : ∀ᵐ u2 : ℝ, u2 ≠ 1 / 2 := by
      rw [ae_iff]; simp
    filter_upwards [hne] with u2 h2 _
    unfold disk2
    simp only
    by_cases hw : (2 * u1 - 1) * (2 * u1 - 1) + (2 * u2 - 1) * (2 * u2 - 1) < 1
    · rw [if_pos hw]
      simp only [two_accept hst _ hw h2, observe]
      rw [meanN_const]
      ring
    · rw [if_neg hw, zero_add, hE]
      congr 1
      funext us
      rw [two_reject hst us hw]
  rw [this, key]
  ring

end Verif.McStas
