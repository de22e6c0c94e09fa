import Verif.Spec.Sampling
import Verif.Lemmas.Powder
import Verif.Lemmas.Bragg
import Mathlib.Analysis.SpecialFunctions.PolarCoord
import Mathlib.Analysis.SpecialFunctions.Gaussian.GaussianIntegral
import Mathlib.MeasureTheory.Function.JacobianOneDim
/-!
Helper lemmas for distributions.
-/

namespace Verif.Sampling
open Solid Flight Homog Kinem Bragg MeasureTheory Set

/-! ### The normal distribution -/

/-- the observable of an accepted point, 0 outside of the disk -/
noncomputable def disk (f : ℝ → ℝ) (p : ℝ × ℝ) : ℝ :=
  if p.1 * p.1 + p.2 * p.2 < 1 then f (p.1 * √(-2 * Real.log (p.1 * p.1 + p.2 * p.2) / (p.1 * p.1 + p.2 * p.2))) else 0

theorem radial (F : ℝ → ℝ) :
    ∫ r in Ioi (0 : ℝ), r * (if r < 1 then F (√(-4 * Real.log r)) else 0) =
      ∫ s in Ioi (0 : ℝ), s / 2 * Real.exp (-s ^ 2 / 2) * F s := by
  have himg : (fun s : ℝ => Real.exp (-s ^ 2 / 4)) '' Ioi 0 = Ioo 0 1 := by
    ext r
    constructor
    · rintro ⟨s, hs, rfl⟩
      exact ⟨Real.exp_pos _, by
        rw [Real.exp_lt_one_iff]; have := sq_pos_of_pos (mem_Ioi.1 hs); linarith⟩
    · rintro ⟨h0, h1⟩
      have hl := Real.log_neg h0 h1
      refine ⟨√(-4 * Real.log r), mem_Ioi.2 (Real.sqrt_pos.2 (by linarith)), ?_⟩
      simp only
      rw [Real.sq_sqrt (by linarith), show -(-4 * Real.log r) / 4 = Real.log r by ring, Real.exp_log h0]
  have hder : ∀ s ∈ Ioi (0 : ℝ), HasDerivWithinAt (fun s : ℝ => Real.exp (-s ^ 2 / 4))
      (Real.exp (-s ^ 2 / 4) * (-(2 * s) / 4)) (Ioi 0) s := by
    intro s _
    have h1 : HasDerivAt (fun s : ℝ => -s ^ 2 / 4) (-(2 * s) / 4) s := by
      have := ((hasDerivAt_pow 2 s).fun_neg).div_const 4
      simpa using this
    exact h1.exp.hasDerivWithinAt
  have hinj : InjOn (fun s : ℝ => Real.exp (-s ^ 2 / 4)) (Ioi 0) := by
    intro a ha b hb h
    simp only [Real.exp_eq_exp] at h
    have : a ^ 2 = b ^ 2 := by linarith
    exact (pow_left_inj₀ (mem_Ioi.1 ha).le (mem_Ioi.1 hb).le two_ne_zero).1 this
  have h1 : ∫ r in Ioi (0 : ℝ), r * (if r < 1 then F (√(-4 * Real.log r)) else 0) =
      ∫ r in Ioo (0 : ℝ) 1, r * F (√(-4 * Real.log r)) := by
    rw [← integral_indicator measurableSet_Ioi, ← integral_indicator measurableSet_Ioo]
    congr 1
    funext r
    by_cases h0 : 0 < r
    · by_cases h1 : r < 1
      · rw [indicator_of_mem (mem_Ioi.2 h0), indicator_of_mem (mem_Ioo.2 ⟨h0, h1⟩), if_pos h1]
      · rw [indicator_of_mem (mem_Ioi.2 h0), indicator_of_notMem (fun h => h1 h.2), if_neg h1, mul_zero]
    · rw [indicator_of_notMem (by simpa using h0), indicator_of_notMem (fun h => h0 h.1)]
  rw [h1, ← himg, integral_image_eq_integral_abs_deriv_smul measurableSet_Ioi hder hinj]
  apply setIntegral_congr_fun measurableSet_Ioi
  intro s hs
  have hs' := mem_Ioi.1 hs
  simp only [smul_eq_mul, Real.log_exp]
  rw [show -4 * (-s ^ 2 / 4) = s ^ 2 by ring, Real.sqrt_sq hs'.le, abs_mul, abs_of_pos (Real.exp_pos _),
    show -(2 * s) / 4 = -(s / 2) by ring, abs_neg, abs_of_pos (by positivity),
    show -s ^ 2 / 2 = -s ^ 2 / 4 + -s ^ 2 / 4 by ring, Real.exp_add]
  ring

theorem disk_polar (f : ℝ → ℝ) {r θ : ℝ} (hr : 0 < r) : r * disk f (r * Real.cos θ, r * Real.sin θ) =
    r * (if r < 1 then f (√(-4 * Real.log r) * Real.cos θ) else 0) := by
  have e : r * Real.cos θ * (r * Real.cos θ) + r * Real.sin θ * (r * Real.sin θ) = r ^ 2 := by
    linear_combination r ^ 2 * Real.cos_sq_add_sin_sq θ
  unfold disk
  simp only [e]
  congr 1
  by_cases h : r < 1
  · have hl := Real.log_neg hr h
    rw [if_pos (by nlinarith), if_pos h]
    congr 1
    rw [Real.log_pow, Real.sqrt_div (by push_cast; linarith), Real.sqrt_sq hr.le]
    push_cast
    rw [show -2 * (2 * Real.log r) = -4 * Real.log r by ring]
    field_simp
  · rw [if_neg (by nlinarith), if_neg h]

theorem disk_measurable {f : ℝ → ℝ} (hf : Measurable f) : Measurable (disk f) := by
  unfold disk
  apply Measurable.ite
  · exact measurableSet_lt (by fun_prop) (by fun_prop)
  · exact hf.comp (by fun_prop)
  · exact measurable_const

theorem disk_bound {f : ℝ → ℝ} {C : ℝ} (hC : ∀ x, |f x| ≤ C) (p : ℝ × ℝ) : |disk f p| ≤ C := by
  unfold disk
  split
  · exact hC _
  · rw [abs_zero]; exact (abs_nonneg _).trans (hC 0)

/-- the integral over the disk is the expectation with the normal distribution -/
theorem disk_integral {f : ℝ → ℝ} (hf : Measurable f) {C : ℝ} (hC : ∀ x, |f x| ≤ C) :
    ∫ p : ℝ × ℝ, disk f p = Real.pi * normalMean f := by
  have hC0 : 0 ≤ C := (abs_nonneg _).trans (hC 0)
  obtain ⟨μ, hμ⟩ : ∃ μ : Measure ℝ, μ = volume.restrict (Ioi 0) := ⟨_, rfl⟩
  obtain ⟨ν, hν⟩ : ∃ ν : Measure ℝ, ν = volume.restrict (Ioo (-Real.pi) Real.pi) := ⟨_, rfl⟩
  have hprod : μ.prod ν = (volume : Measure (ℝ × ℝ)).restrict polarCoord.target := by
    rw [hμ, hν, Measure.prod_restrict]; rfl
  have hfin : IsFiniteMeasure ν := by
    rw [hν]; exact ⟨by rw [Measure.restrict_apply_univ]; exact measure_Ioo_lt_top⟩
  have hsf : SFinite μ := by rw [hμ]; infer_instance
  -- both sides in polar coordinates
  have h1 : ∫ p : ℝ × ℝ, disk f p = ∫ q, q.1 * (if q.1 < 1 then f (√(-4 * Real.log q.1) * Real.cos q.2) else 0) ∂(μ.prod ν) := by
    rw [← integral_comp_polarCoord_symm, hprod]
    apply setIntegral_congr_fun polarCoord.open_target.measurableSet
    intro q hq
    exact disk_polar f hq.1
  have h2 : ∫ p : ℝ × ℝ, f p.1 * Real.exp (-p.1 ^ 2 / 2) * Real.exp (-p.2 ^ 2 / 2) =
      ∫ q, q.1 * (f (q.1 * Real.cos q.2) * Real.exp (-q.1 ^ 2 / 2)) ∂(μ.prod ν) := by
    rw [← integral_comp_polarCoord_symm, hprod]
    apply setIntegral_congr_fun polarCoord.open_target.measurableSet
    intro q hq
    simp only [polarCoord_symm_apply, smul_eq_mul]
    rw [mul_assoc (f _), ← Real.exp_add]
    congr 3
    linear_combination -q.1 ^ 2 / 2 * Real.cos_sq_add_sin_sq q.2
  have hdom : Integrable (fun q : ℝ × ℝ => (2 * C) * (q.1 * Real.exp (-(1 / 2) * q.1 ^ 2)) * 1) (μ.prod ν) := by
    apply Integrable.mul_prod (f := fun r : ℝ => (2 * C) * (r * Real.exp (-(1 / 2) * r ^ 2))) (g := fun _ => (1 : ℝ))
    · rw [hμ]
      exact ((integrable_mul_exp_neg_mul_sq (by norm_num)).const_mul _).restrict
    · exact integrable_const _
  have hpos : ∀ᵐ q ∂(μ.prod ν), 0 < q.1 := by
    rw [hprod]
    filter_upwards [ae_restrict_mem polarCoord.open_target.measurableSet] with q hq using hq.1
  have i1 : Integrable (fun q : ℝ × ℝ => q.1 * (if q.1 < 1 then f (√(-4 * Real.log q.1) * Real.cos q.2) else 0)) (μ.prod ν) := by
    refine hdom.mono' ?_ ?_
    · apply Measurable.aestronglyMeasurable
      apply measurable_fst.mul
      apply Measurable.ite
      · exact measurableSet_lt (by fun_prop) (by fun_prop)
      · exact hf.comp (by fun_prop)
      · exact measurable_const
    · filter_upwards [hpos] with q hq
      rw [Real.norm_eq_abs, abs_mul, abs_of_pos hq, mul_one]
      split
      · next h1 =>
        have e1 : (1 : ℝ) / 2 ≤ Real.exp (-(1 / 2) * q.1 ^ 2) := by
          have := Real.add_one_le_exp (-(1 / 2) * q.1 ^ 2)
          nlinarith
        have e2 := hC (√(-4 * Real.log q.1) * Real.cos q.2)
        calc q.1 * |f (√(-4 * Real.log q.1) * Real.cos q.2)| ≤ q.1 * C := by gcongr
          _ = 2 * C * (q.1 * (1 / 2)) := by ring
          _ ≤ _ := by gcongr
      · rw [abs_zero, mul_zero]; positivity
  have i2 : Integrable (fun q : ℝ × ℝ => q.1 * (f (q.1 * Real.cos q.2) * Real.exp (-q.1 ^ 2 / 2))) (μ.prod ν) := by
    refine hdom.mono' ?_ ?_
    · apply Measurable.aestronglyMeasurable
      apply measurable_fst.mul
      apply Measurable.mul
      · exact hf.comp (by fun_prop)
      · fun_prop
    · filter_upwards [hpos] with q hq
      rw [Real.norm_eq_abs, abs_mul, abs_of_pos hq, mul_one, abs_mul, abs_of_pos (Real.exp_pos _)]
      have e2 := hC (q.1 * Real.cos q.2)
      have e3 : -q.1 ^ 2 / 2 = -(1 / 2) * q.1 ^ 2 := by ring
      rw [e3]
      have e4 := Real.exp_pos (-(1 / 2) * q.1 ^ 2)
      calc q.1 * (|f (q.1 * Real.cos q.2)| * Real.exp (-(1 / 2) * q.1 ^ 2))
          ≤ q.1 * (C * Real.exp (-(1 / 2) * q.1 ^ 2)) := by gcongr
        _ = 1 * C * (q.1 * Real.exp (-(1 / 2) * q.1 ^ 2)) := by ring
        _ ≤ _ := by gcongr; norm_num
  have h3 : ∫ p : ℝ × ℝ, disk f p =
      1 / 2 * ∫ p : ℝ × ℝ, f p.1 * Real.exp (-p.1 ^ 2 / 2) * Real.exp (-p.2 ^ 2 / 2) := by
    rw [h1, h2, integral_prod_symm _ i1, integral_prod_symm _ i2, ← integral_const_mul]
    congr 1
    funext θ
    rw [hμ]
    simp only
    rw [radial (fun s => f (s * Real.cos θ)), ← integral_const_mul]
    congr 1
    funext s
    ring
  rw [h3]
  have h4 := integral_prod_mul (μ := (volume : Measure ℝ)) (ν := (volume : Measure ℝ))
    (fun x => f x * Real.exp (-x ^ 2 / 2)) (fun y => Real.exp (-y ^ 2 / 2))
  have h5 : ∫ y : ℝ, Real.exp (-y ^ 2 / 2) = √(2 * Real.pi) := by
    have := integral_gaussian (1 / 2)
    rw [show Real.pi / (1 / 2) = 2 * Real.pi by ring] at this
    rw [← this]
    congr 1
    funext y
    congr 1
    ring
  rw [show (volume : Measure (ℝ × ℝ)) = (volume : Measure ℝ).prod volume from rfl, h4, h5]
  unfold normalMean
  have h6 : ∫ x : ℝ, f x * (Real.exp (-x ^ 2 / 2) / √(2 * Real.pi)) =
      (∫ x : ℝ, f x * Real.exp (-x ^ 2 / 2)) / √(2 * Real.pi) := by
    rw [← integral_div]
    congr 1
    funext x
    ring
  rw [h6]
  have h7 : √(2 * Real.pi) * √(2 * Real.pi) = 2 * Real.pi := Real.mul_self_sqrt (by positivity)
  have h8 : 0 < √(2 * Real.pi) := Real.sqrt_pos.2 (by positivity)
  obtain ⟨I, hI⟩ : ∃ I, I = ∫ x : ℝ, f x * Real.exp (-x ^ 2 / 2) := ⟨_, rfl⟩
  rw [← hI]
  field_simp
  linear_combination I * h7

theorem disk_zero (f : ℝ → ℝ) {p : ℝ × ℝ} (h : p.1 ∉ Ioo (-1 : ℝ) 1 ∨ p.2 ∉ Ioo (-1 : ℝ) 1) : disk f p = 0 := by
  unfold disk
  rw [if_neg]
  intro hlt
  rcases h with h | h
  · exact h ⟨by nlinarith [mul_self_nonneg p.2], by nlinarith [mul_self_nonneg p.2]⟩
  · exact h ⟨by nlinarith [mul_self_nonneg p.1], by nlinarith [mul_self_nonneg p.1]⟩

theorem disk_integrable {f : ℝ → ℝ} (hf : Measurable f) {C : ℝ} (hC : ∀ x, |f x| ≤ C) :
    Integrable (disk f) ((volume : Measure ℝ).prod volume) := by
  have hsq : (disk f) = (Ioo (-1 : ℝ) 1 ×ˢ Ioo (-1 : ℝ) 1).indicator (disk f) := by
    funext p
    by_cases h : p ∈ Ioo (-1 : ℝ) 1 ×ˢ Ioo (-1 : ℝ) 1
    · rw [indicator_of_mem h]
    · rw [indicator_of_notMem h]
      apply disk_zero
      by_contra hc
      push Not at hc
      exact h hc
  rw [hsq]
  rw [integrable_indicator_iff (measurableSet_Ioo.prod measurableSet_Ioo)]
  refine IntegrableOn.of_bound ?_ (disk_measurable hf).aestronglyMeasurable C ?_
  · rw [Measure.prod_prod]
    exact ENNReal.mul_lt_top measure_Ioo_lt_top measure_Ioo_lt_top
  · exact Filter.Eventually.of_forall fun p => disk_bound hC p

theorem mean_double {g : ℝ → ℝ} (hg : Integrable g) (h0 : ∀ x, x ∉ Ioo (-1 : ℝ) 1 → g x = 0) (E : ℝ) :
    mean (fun u => g (2 * u - 1) + E) = 1 / 2 * (∫ x, g x) + E := by
  unfold mean
  rw [intervalIntegral.integral_comp_mul_sub (fun x => g x + E) two_ne_zero,
    intervalIntegral.integral_add hg.intervalIntegrable (by simp), intervalIntegral.integral_const,
    intervalIntegral.integral_of_le (by norm_num),
    setIntegral_eq_integral_of_forall_compl_eq_zero]
  · simp only [smul_eq_mul]; ring
  · intro x hx
    apply h0
    intro hc
    apply hx
    constructor
    · linarith [hc.1]
    · linarith [hc.2]

/-- expectation over a square around the disk -/
theorem mean2_disk {f : ℝ → ℝ} (hf : Measurable f) {C : ℝ} (hC : ∀ x, |f x| ≤ C) (E : ℝ) :
    mean2 (fun u1 u2 => disk f (2 * u1 - 1, 2 * u2 - 1) + E) = 1 / 4 * (∫ p : ℝ × ℝ, disk f p) + E := by
  have hin : ∀ x : ℝ, Integrable fun y : ℝ => disk f (x, y) := by
    intro x
    have hsq : (fun y : ℝ => disk f (x, y)) = (Ioo (-1 : ℝ) 1).indicator fun y => disk f (x, y) := by
      funext y
      by_cases h : y ∈ Ioo (-1 : ℝ) 1
      · rw [indicator_of_mem h]
      · rw [indicator_of_notMem h]; exact disk_zero f (Or.inr h)
    rw [hsq, integrable_indicator_iff measurableSet_Ioo]
    refine IntegrableOn.of_bound measure_Ioo_lt_top
      ((disk_measurable hf).comp (measurable_const.prodMk measurable_id)).aestronglyMeasurable C ?_
    exact Filter.Eventually.of_forall fun y => disk_bound hC _
  have hI := disk_integrable hf hC
  unfold mean2
  have e1 : (fun u1 : ℝ => mean fun u2 => disk f (2 * u1 - 1, 2 * u2 - 1) + E) =
      fun u1 => (fun x => 1 / 2 * ∫ y, disk f (x, y)) (2 * u1 - 1) + E := by
    funext u1
    exact mean_double (hin _) (fun y hy => disk_zero f (Or.inr hy)) E
  rw [e1, mean_double (g := fun x => 1 / 2 * ∫ y, disk f (x, y)) (hI.integral_prod_left.const_mul _), integral_const_mul,
    show (volume : Measure (ℝ × ℝ)) = (volume : Measure ℝ).prod volume from rfl, integral_prod _ hI]
  · ring
  · intro x hx
    rw [show (fun y => disk f (x, y)) = fun _ => 0 from funext fun y => disk_zero f (Or.inl hx)]
    simp

theorem gauss_integrable {f : ℝ → ℝ} (hf : Measurable f) {C : ℝ} (hC : ∀ x, |f x| ≤ C) :
    Integrable fun x : ℝ => f x * (Real.exp (-x ^ 2 / 2) / √(2 * Real.pi)) := by
  have hg : Integrable fun x : ℝ => Real.exp (-x ^ 2 / 2) / √(2 * Real.pi) := by
    have := (integrable_exp_neg_mul_sq (b := 1 / 2) (by norm_num)).div_const (√(2 * Real.pi))
    refine this.congr (Filter.Eventually.of_forall fun x => ?_)
    simp only
    congr 2
    ring
  exact hg.bdd_mul hf.aestronglyMeasurable (Filter.Eventually.of_forall fun x => hC x)

theorem normalMean_const (c : ℝ) : normalMean (fun _ => c) = c := by
  unfold normalMean
  rw [integral_const_mul, integral_div]
  have h5 : ∫ y : ℝ, Real.exp (-y ^ 2 / 2) = √(2 * Real.pi) := by
    have := integral_gaussian (1 / 2)
    rw [show Real.pi / (1 / 2) = 2 * Real.pi by ring] at this
    rw [← this]
    congr 1
    funext y
    congr 1
    ring
  have h8 : 0 < √(2 * Real.pi) := Real.sqrt_pos.2 (by positivity)
  rw [h5, div_self h8.ne', mul_one]

theorem normalMean_sub {f : ℝ → ℝ} (hf : Measurable f) {C : ℝ} (hC : ∀ x, |f x| ≤ C) (c : ℝ) :
    normalMean (fun x => f x - c) = normalMean f - c := by
  conv_rhs => rw [← normalMean_const c]
  unfold normalMean
  rw [← integral_sub (gauss_integrable hf hC) (gauss_integrable measurable_const (C := |c|) fun _ => le_rfl)]
  congr 1
  funext x
  ring

theorem normalRand_accept {u1 u2 : ℝ} (us : List ℝ) (hw : (2 * u1 - 1) * (2 * u1 - 1) + (2 * u2 - 1) * (2 * u2 - 1) < 1)
    (h2 : u2 ≠ 1 / 2) : normalRand (u1 :: u2 :: us) = some ((2 * u1 - 1) *
      √(-2 * Real.log ((2 * u1 - 1) * (2 * u1 - 1) + (2 * u2 - 1) * (2 * u2 - 1)) /
        ((2 * u1 - 1) * (2 * u1 - 1) + (2 * u2 - 1) * (2 * u2 - 1)))) := by
  have hx : 2 * u2 - 1 ≠ 0 := fun hc => h2 (by linarith)
  have hpos : 0 < (2 * u1 - 1) * (2 * u1 - 1) + (2 * u2 - 1) * (2 * u2 - 1) := by
    have := mul_self_nonneg (2 * u1 - 1)
    have := mul_self_pos.2 hx
    linarith
  have hlog := Real.log_neg hpos hw
  unfold normalRand
  simp only [if_neg (not_le.2 hw), ge_iff_le, divD_ok hpos.ne', Option.bind_eq_bind, Option.bind_some]
  rw [sqrtD_ok (div_nonneg (by linarith) hpos.le)]
  rfl

theorem normal_step {f : ℝ → ℝ} (hf : Measurable f) {C : ℝ} (hC : ∀ x, |f x| ≤ C) (n : Nat) :
    meanN (2 * (n + 1)) (fun us => observe f (normalRand us)) =
      Real.pi / 4 * normalMean f + (1 - Real.pi / 4) * meanN (2 * n) (fun us => observe f (normalRand us)) := by
  obtain ⟨E, hE⟩ : ∃ E, E = meanN (2 * n) (fun us => observe f (normalRand us)) := ⟨_, rfl⟩
  rw [← hE]
  have hfE : Measurable fun x => f x - E := hf.sub_const E
  have hCE : ∀ x, |f x - E| ≤ C + |E| := fun x => (abs_sub _ _).trans (by linarith [hC x])
  have key := mean2_disk hfE hCE E
  rw [disk_integral hfE hCE, normalMean_sub hf hC] at key
  have : meanN (2 * (n + 1)) (fun us => observe f (normalRand us)) =
      mean2 (fun u1 u2 => disk (fun x => f x - E) (2 * u1 - 1, 2 * u2 - 1) + E) := by
    show mean (fun u1 => mean fun u2 => meanN (2 * n) fun us => observe f (normalRand (u1 :: u2 :: us))) = _
    unfold mean2
    congr 1
    funext u1
    unfold mean
    apply intervalIntegral.integral_congr_ae
    have hne : ∀ᵐ u2 : ℝ, u2 ≠ 1 / 2 := by
      rw [ae_iff]; simp
    filter_upwards [hne] with u2 h2 _
    unfold disk
    simp only
    by_cases hw : (2 * u1 - 1) * (2 * u1 - 1) + (2 * u2 - 1) * (2 * u2 - 1) < 1
    · rw [if_pos hw]
      simp only [normalRand_accept _ hw h2, observe]
      rw [meanN_const]
      ring
    · rw [if_neg hw, zero_add, hE]
      congr 1
      funext us
      rw [normalRand]
      simp only [ge_iff_le, if_pos (not_lt.1 hw)]
  rw [this, key]
  ring


/-! ### The Lorentz distribution -/

theorem tan_image : Real.tan '' Ioo (-(Real.pi / 2)) (Real.pi / 2) = univ := Real.image_tan_Ioo

theorem lorentz_mean (f : ℝ → ℝ) : mean (fun u => f (lorentzRand u)) = lorentzMean f := by
  have hder : ∀ x ∈ Ioo (-(Real.pi / 2)) (Real.pi / 2),
      HasDerivWithinAt Real.tan (1 / Real.cos x ^ 2) (Ioo (-(Real.pi / 2)) (Real.pi / 2)) x := by
    intro x hx
    exact (Real.hasDerivAt_tan (Real.cos_pos_of_mem_Ioo hx).ne').hasDerivWithinAt
  have key := integral_image_eq_integral_abs_deriv_smul measurableSet_Ioo hder Real.injOn_tan
    (fun x : ℝ => f x / (Real.pi * (1 + x ^ 2)))
  rw [tan_image, setIntegral_univ] at key
  unfold lorentzMean
  rw [key, setIntegral_congr_fun (g := fun x => (fun x => f (Real.tan x)) x / Real.pi) measurableSet_Ioo]
  · rw [integral_div, ← integral_Ioc_eq_integral_Ioo, ← intervalIntegral.integral_of_le (by linarith [Real.pi_pos])]
    unfold mean lorentzRand
    have e : (fun u : ℝ => f (Real.tan (Real.pi * (u - 0.5)))) = fun u => (fun x => f (Real.tan x)) (Real.pi * u - Real.pi / 2) := by
      funext u
      simp only
      congr 2
      norm_num
      ring
    rw [e, intervalIntegral.integral_comp_mul_sub (fun x => f (Real.tan x)) Real.pi_ne_zero, smul_eq_mul,
      show Real.pi * 0 - Real.pi / 2 = -(Real.pi / 2) by ring, show Real.pi * 1 - Real.pi / 2 = Real.pi / 2 by ring]
    ring
  · intro x hx
    have hc := Real.cos_pos_of_mem_Ioo hx
    simp only [smul_eq_mul]
    have h1 : 1 + Real.tan x ^ 2 = 1 / Real.cos x ^ 2 := by
      rw [Real.tan_eq_sin_div_cos]
      field_simp
      linarith [Real.cos_sq_add_sin_sq x]
    rw [h1, abs_of_pos (by positivity)]
    field_simp

/-! ### Directions -/

/-- the vector that the target direction is turned to -/
noncomputable def sideOf (t : V3 ℝ) : V3 ℝ := if t.x = 0 ∧ t.z = 0 then ⟨1, 0, 0⟩ else ⟨-t.z, 0, t.x⟩

theorem sideOf_spec {t : V3 ℝ} : t.dot (sideOf t) = 0 ∧ sideOf t ≠ 0 := by
  unfold sideOf
  split
  · next h =>
    refine ⟨by simp [V3.dot, h.1], fun hc => ?_⟩
    have := congrArg V3.x hc
    norm_num at this
  · next h =>
    refine ⟨by simp only [V3.dot]; ring, fun hc => h ?_⟩
    have h1 := congrArg V3.x hc
    have h2 := congrArg V3.z hc
    simp only [V3.zero_x, V3.zero_z, neg_eq_zero] at h1 h2
    exact ⟨h2, h1⟩

theorem rotate_eq {v c e : V3 ℝ} (a : ℝ) {eps : ℝ} (h0 : 0 < eps) (hv : v ≠ 0) (hc : Kinem.normalize c = some e) :
    Powder.rotate v c a eps =
      some (if |1 - |v.dot e| / length v| < eps then v else Powder.rodrigues e a v) := by
  obtain ⟨hl, he, he1, hle⟩ := normalize_some hc
  have hc0 : c ≠ 0 := by
    rintro rfl
    rw [length_eq] at hl
    simp [V3.dot] at hl
  have hlen : length (v.dot e • e) = |v.dot e| := by
    rw [length_smul', length_eq, he1, Real.sqrt_one, mul_one]
  by_cases hn : |1 - |v.dot e| / length v| < eps
  · rw [if_pos hn]
    unfold Powder.rotate
    simp only [hc, Option.bind_eq_bind, Option.bind_some, hlen]
    rw [divD_ok (length_pos hv).ne', Option.bind_some, if_pos hn]
  · rw [if_neg hn]
    obtain ⟨w, hw⟩ := Powder.rotate_ok (a := a) h0 hv hc0
    obtain ⟨e', he', _, h | h⟩ := Powder.rotate_some hw
    · rw [hc] at he'
      rw [hw, h, Option.some.inj he']
    · rw [hc] at he'
      rw [← Option.some.inj he', hlen] at h
      exact absurd h.2 hn

/-- first axis across the target direction -/
noncomputable def acrossA (t : V3 ℝ) : V3 ℝ := (length t / length (sideOf t)) • sideOf t
/-- second axis across the target direction -/
noncomputable def acrossB (t : V3 ℝ) : V3 ℝ := (1 / length (sideOf t)) • t.cross (sideOf t)

theorem across_spec (t : V3 ℝ) : Across t (acrossA t) (acrossB t) := by
  obtain ⟨h1, h2⟩ := sideOf_spec (t := t)
  have hl := length_pos h2
  have hl2 := length_mul_self (sideOf t)
  have ht := length_mul_self t
  unfold acrossA acrossB
  obtain ⟨n, hn⟩ : ∃ n, n = sideOf t := ⟨_, rfl⟩
  rw [← hn] at h1 hl hl2 ⊢
  obtain ⟨L, hL⟩ : ∃ L, L = length n := ⟨_, rfl⟩
  obtain ⟨T, hT⟩ : ∃ T, T = length t := ⟨_, rfl⟩
  rw [← hL] at hl hl2 ⊢
  rw [← hT] at ht ⊢
  simp only [V3.dot] at h1 hl2 ht
  refine ⟨?_, ?_, ?_, ?_, ?_⟩ <;> simp only [V3.dot, V3.cross, V3.smul_x, V3.smul_y, V3.smul_z]
  · linear_combination T / L * h1
  · ring
  · ring
  · field_simp
    linear_combination -(T ^ 2) * hl2 + L ^ 2 * ht
  · field_simp
    linear_combination (-(t.x * n.x + t.y * n.y + t.z * n.z)) * h1 - (t.x * t.x + t.y * t.y + t.z * t.z) * hl2

theorem towards_eq {t : V3 ℝ} (ht : t ≠ 0) (radius : ℝ) {u1 : ℝ} (h0 : 0 ≤ u1) (h1 : u1 ≤ 1) (u2 : ℝ) :
    towards t radius u1 u2 = some
      (if abs (1 - |random u1 (edge t radius) 1|) < 1e-7 then around t (acrossA t) (acrossB t) (random u1 (edge t radius) 1) 0
        else around t (acrossA t) (acrossB t) (random u1 (edge t radius) 1) (2 * Real.pi * u2),
      2 * Real.pi * (1 - edge t radius)) := by
  have hT := length_pos ht
  have hT2 := length_mul_self t
  have hdot : 0 < t.dot t := by rw [← hT2]; positivity
  have hsum : 0 < radius * radius + t.dot t := by nlinarith [mul_self_nonneg radius]
  have hc0 : √(t.dot t / (radius * radius + t.dot t)) = length t / √(t.dot t + radius ^ 2) := by
    rw [Real.sqrt_div hdot.le, length_eq, add_comm (radius * radius), pow_two]
  have hedge : (if radius < 0 then √(t.dot t / (radius * radius + t.dot t)) * -1
      else √(t.dot t / (radius * radius + t.dot t))) = edge t radius := by
    unfold edge
    rw [hc0]
    split <;> ring
  have hr : |edge t radius| ≤ 1 := by
    unfold edge
    rw [abs_mul, ← hc0, abs_of_nonneg (Real.sqrt_nonneg _)]
    have : √(t.dot t / (radius * radius + t.dot t)) ≤ 1 := by
      rw [Real.sqrt_le_iff, one_pow, div_le_one hsum]
      refine ⟨zero_le_one, ?_⟩
      nlinarith [mul_self_nonneg radius]
    split <;> simpa using this
  obtain ⟨c, hc⟩ : ∃ c, c = random u1 (edge t radius) 1 := ⟨_, rfl⟩
  have hc1 : -1 ≤ c ∧ c ≤ 1 := by
    rw [hc, random_eq]
    obtain ⟨a, b⟩ := abs_le.1 hr
    constructor <;> nlinarith
  obtain ⟨n1, n2⟩ := sideOf_spec (t := t)
  have hN := length_pos n2
  have hN2 := length_mul_self (sideOf t)
  have hcr : (t.cross (sideOf t)).dot (t.cross (sideOf t)) = (length t * length (sideOf t)) ^ 2 := by
    have : (length t * length (sideOf t)) ^ 2 = t.dot t * (sideOf t).dot (sideOf t) := by rw [← hT2, ← hN2]; ring
    rw [this]
    simp only [V3.dot, V3.cross] at n1 ⊢
    linear_combination (-(t.x * (sideOf t).x + t.y * (sideOf t).y + t.z * (sideOf t).z)) * n1
  have hcl : length (t.cross (sideOf t)) = length t * length (sideOf t) := by
    rw [length_eq, hcr, Real.sqrt_sq (by positivity)]
  have hcne : t.cross (sideOf t) ≠ 0 := by
    intro h
    rw [h, length_eq] at hcl
    simp only [V3.dot, V3.zero_x, V3.zero_y, V3.zero_z, mul_zero, add_zero, Real.sqrt_zero] at hcl
    exact absurd hcl.symm (by positivity)
  obtain ⟨e1, he1⟩ := normalize_ok hcne
  obtain ⟨_, he1e, he11, he1l⟩ := normalize_some he1
  obtain ⟨e2, he2⟩ := normalize_ok ht
  obtain ⟨_, he2e, he21, he2l⟩ := normalize_some he2
  have ht1 : t.dot e1 = 0 := by
    rw [he1e]; simp only [V3.dot, V3.cross, V3.smul_x, V3.smul_y, V3.smul_z]; ring
  -- the first rotation
  have r1 : Powder.rotate t (t.cross (sideOf t)) (Real.arccos c) 1e-7 =
      some (around t (acrossA t) (acrossB t) c 0) := by
    rw [rotate_eq _ (by norm_num) ht he1, if_neg, Option.some.injEq]
    · unfold Powder.rodrigues around acrossA
      rw [Real.cos_arccos hc1.1 hc1.2, Real.sin_arccos, show e1.dot t = 0 by rw [← ht1]; simp only [V3.dot]; ring,
        Real.cos_zero, Real.sin_zero]
      have : e1.cross t = (length t / length (sideOf t)) • sideOf t := by
        rw [he1e, hcl]
        simp only [V3.dot] at n1 hT2
        ext <;> simp only [V3.cross, V3.smul_x, V3.smul_y, V3.smul_z] <;> field_simp
        · linear_combination (-(sideOf t).x) * hT2 - t.x * n1
        · linear_combination (-(sideOf t).y) * hT2 - t.y * n1
        · linear_combination (-(sideOf t).z) * hT2 - t.z * n1
      rw [this]
      ext <;> simp only [V3.add_x, V3.add_y, V3.add_z, V3.smul_x, V3.smul_y, V3.smul_z] <;> ring
    · rw [ht1, abs_zero, zero_div, sub_zero, abs_one]; norm_num
  have hac := across_spec t
  obtain ⟨d1, hd1⟩ : ∃ d1, d1 = around t (acrossA t) (acrossB t) c 0 := ⟨_, rfl⟩
  have hs : √(1 - c ^ 2) * √(1 - c ^ 2) = 1 - c ^ 2 := Real.mul_self_sqrt (by nlinarith)
  have hd1d : d1.dot d1 = t.dot t := by
    obtain ⟨a1, a2, a3, a4, a5⟩ := hac
    rw [hd1]
    unfold around
    rw [Real.cos_zero, Real.sin_zero]
    simp only [V3.dot, V3.add_x, V3.add_y, V3.add_z, V3.smul_x, V3.smul_y, V3.smul_z] at a1 a4 ⊢
    linear_combination (2 * c * √(1 - c ^ 2)) * a1 + (√(1 - c ^ 2) * √(1 - c ^ 2)) * a4 +
      (t.x * t.x + t.y * t.y + t.z * t.z) * hs
  have hd1l : length d1 = length t := by rw [length_eq, hd1d, ← length_eq]
  have hd1n : d1 ≠ 0 := by
    rintro h
    rw [h, length_eq] at hd1l
    simp only [V3.dot, V3.zero_x, V3.zero_y, V3.zero_z, mul_zero, add_zero, Real.sqrt_zero] at hd1l
    linarith
  have hd1t : d1.dot t = c * t.dot t := by
    obtain ⟨a1, a2, a3, a4, a5⟩ := hac
    rw [hd1]
    unfold around
    rw [Real.cos_zero, Real.sin_zero]
    simp only [V3.dot, V3.add_x, V3.add_y, V3.add_z, V3.smul_x, V3.smul_y, V3.smul_z] at a1 a4 ⊢
    linear_combination (√(1 - c ^ 2)) * a1
  have hd1e : d1.dot e2 = c * length t := by
    have : d1.dot e2 = (1 / length t) * d1.dot t := by
      rw [he2e]; simp only [V3.dot, V3.smul_x, V3.smul_y, V3.smul_z]; ring
    rw [this, hd1t, ← hT2]
    field_simp
  have hratio : |d1.dot e2| / length d1 = |c| := by
    rw [hd1e, hd1l, abs_mul, abs_of_pos hT]
    field_simp
  -- the second rotation
  have r2 : Powder.rotate d1 t (2 * Real.pi * u2) 1e-7 =
      some (if abs (1 - |c|) < 1e-7 then d1 else around t (acrossA t) (acrossB t) c (2 * Real.pi * u2)) := by
    rw [rotate_eq _ (by norm_num) hd1n he2, hratio, Option.some.injEq]
    congr 1
    unfold Powder.rodrigues
    have x1 : e2.cross d1 = √(1 - c ^ 2) • acrossB t := by
      rw [hd1, he2e]
      unfold around acrossA acrossB
      rw [Real.cos_zero, Real.sin_zero]
      ext <;> simp only [V3.cross, V3.add_x, V3.add_y, V3.add_z, V3.smul_x, V3.smul_y, V3.smul_z] <;> field_simp <;> ring
    have x2 : e2.dot d1 = c * length t := by rw [← hd1e]; simp only [V3.dot]; ring
    rw [x1, x2, hd1]
    obtain ⟨φ, hφ⟩ : ∃ φ, φ = 2 * Real.pi * u2 := ⟨_, rfl⟩
    rw [← hφ]
    have x3 : (( 1 - Real.cos φ) * (c * length t)) • e2 = ((1 - Real.cos φ) * c) • t := by
      conv_rhs => rw [← he2l]
      ext <;> simp only [V3.smul_x, V3.smul_y, V3.smul_z] <;> ring
    rw [x3]
    unfold around
    rw [Real.cos_zero, Real.sin_zero]
    ext <;> simp only [V3.add_x, V3.add_y, V3.add_z, V3.smul_x, V3.smul_y, V3.smul_z] <;> ring
  have hphi : random u2 0 (2 * Real.pi) = 2 * Real.pi * u2 := by rw [random_eq]; ring
  unfold towards
  simp only [Option.bind_eq_bind, divD_ok hsum.ne', Option.bind_some, sqrtD_ok (div_nonneg hdot.le hsum.le), hedge, ← hc,
    acosD, if_pos hc1, hphi]
  change ((Powder.rotate t (t.cross (sideOf t)) (Real.arccos c) 1e-7).bind fun d1 =>
    (Powder.rotate d1 t (2 * Real.pi * u2) 1e-7).bind fun d2 => some (d2, 2 * Real.pi * (1 - edge t radius))) = _
  rw [r1, Option.bind_some, ← hd1, r2]
  rfl

theorem edge_range {t : V3 ℝ} (ht : t ≠ 0) (radius : ℝ) : |edge t radius| ≤ 1 := by
  have hT := length_pos ht
  unfold edge
  rw [abs_mul, abs_of_nonneg (div_nonneg hT.le (Real.sqrt_nonneg _))]
  have : length t / √(t.dot t + radius ^ 2) ≤ 1 := by
    rw [length_eq]
    exact div_le_one_of_le₀ (Real.sqrt_le_sqrt (by nlinarith)) (Real.sqrt_nonneg _)
  split <;> simpa using this

theorem cone_range {t : V3 ℝ} (ht : t ≠ 0) (radius : ℝ) {u1 : ℝ} (h0 : 0 ≤ u1) (h1 : u1 ≤ 1) :
    |random u1 (edge t radius) 1| ≤ 1 := by
  rw [random_eq]
  obtain ⟨a, b⟩ := abs_le.1 (edge_range ht radius)
  rw [abs_le]
  constructor <;> nlinarith

theorem around_spec {t a b : V3 ℝ} (hab : Across t a b) {c : ℝ} (hc : |c| ≤ 1) (φ : ℝ) :
    (around t a b c φ).dot (around t a b c φ) = t.dot t ∧ (around t a b c φ).dot t = c * t.dot t := by
  obtain ⟨a1, a2, a3, a4, a5⟩ := hab
  have hs : √(1 - c ^ 2) * √(1 - c ^ 2) = 1 - c ^ 2 :=
    Real.mul_self_sqrt (by have := abs_le.1 hc; nlinarith [this.1, this.2])
  have hcs := Real.cos_sq_add_sin_sq φ
  unfold around
  generalize √(1 - c ^ 2) = s at hs ⊢
  generalize Real.cos φ = C at hcs ⊢
  generalize Real.sin φ = S at hcs ⊢
  simp only [V3.dot, V3.add_x, V3.add_y, V3.add_z, V3.smul_x, V3.smul_y, V3.smul_z] at a1 a2 a3 a4 a5 ⊢
  constructor
  · linear_combination 2 * c * s * C * a1 + 2 * c * s * S * a2 + 2 * s ^ 2 * C * S * a3 + s ^ 2 * C ^ 2 * a4 +
      s ^ 2 * S ^ 2 * a5 + s ^ 2 * (t.x * t.x + t.y * t.y + t.z * t.z) * hcs + (t.x * t.x + t.y * t.y + t.z * t.z) * hs
  · linear_combination s * C * a1 + s * S * a2

end Verif.Sampling
