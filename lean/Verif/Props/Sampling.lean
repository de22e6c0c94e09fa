import Verif.Lemmas.Sampling
import Mathlib.Analysis.SpecialFunctions.Integrals.Basic
import Mathlib.Analysis.SpecificLimits.Basic
/-!
Property theorems C138, C139, C140: random numbers and directions with a given distribution.
-/

namespace Verif.Sampling
open Solid Flight Homog Kinem Bragg MeasureTheory Set

/-- C138: the observables of `normal_distrib_rand` have the expectation of the normal distribution.  With `n` rounds of the
loop the probability to get a number at all is `1 - (1 - π/4)^n`. -/
theorem C138_normal {f : ℝ → ℝ} (hf : Measurable f) {C : ℝ} (hC : ∀ x, |f x| ≤ C) (n : Nat) :
    meanN (2 * n) (fun us => observe f (normalRand us)) = (1 - (1 - Real.pi / 4) ^ n) * normalMean f := by
  induction n with
  | zero => simp [meanN, normalRand, observe]
  | succ n ih => rw [normal_step hf hC, ih]; ring

/-- example: the cosine is measurable and bounded, so its expectation is known -/
example : meanN (2 * 3) (fun us => observe Real.cos (normalRand us)) =
    (1 - (1 - Real.pi / 4) ^ 3) * normalMean Real.cos :=
  C138_normal Real.measurable_cos (C := 1) Real.abs_cos_le_one 3

/-- C138: the loop ends almost surely, and then the distribution is the normal one -/
theorem C138_limit {f : ℝ → ℝ} (hf : Measurable f) {C : ℝ} (hC : ∀ x, |f x| ≤ C) :
    Filter.Tendsto (fun n => meanN (2 * n) (fun us => observe f (normalRand us))) Filter.atTop (nhds (normalMean f)) ∧
    normalMean (fun _ => 1) = 1 := by
  refine ⟨?_, normalMean_const 1⟩
  simp only [C138_normal hf hC]
  have h1 : Real.pi ≤ 4 := Real.pi_le_four
  have h2 := Real.pi_pos
  have := tendsto_pow_atTop_nhds_zero_of_abs_lt_one (r := 1 - Real.pi / 4) (by rw [abs_lt]; constructor <;> linarith)
  simpa using (this.const_sub 1).mul_const (normalMean f)

/-- example: the probability that the number is below 1 -/
example : Measurable (fun x : ℝ => if x < 1 then (1 : ℝ) else 0) ∧ ∀ x : ℝ, |if x < 1 then (1 : ℝ) else 0| ≤ 1 := by
  refine ⟨Measurable.ite measurableSet_Iio measurable_const measurable_const, fun x => ?_⟩
  split <;> norm_num

/-- example: a point of the disk is accepted in the first round -/
example : ∃ x, normalRand [3 / 4, 3 / 4] = some x := by
  rw [normalRand_accept [] (by norm_num) (by norm_num)]
  exact ⟨_, rfl⟩

/-- C139: `lorentzian_distrib_rand` has the Lorentz distribution -/
theorem C139_lorentz (f : ℝ → ℝ) : mean (fun u => f (lorentzRand u)) = lorentzMean f := lorentz_mean f

/-- example: the median is 0 and a quarter of the numbers is above 1 -/
example : lorentzRand (1 / 2) = 0 ∧ lorentzRand (3 / 4) = 1 := by
  unfold lorentzRand
  constructor
  · norm_num
  · rw [show Real.pi * (3 / 4 - 0.5) = Real.pi / 4 by norm_num; ring]
    exact Real.tan_pi_div_four

/-- C140: the direction always has the length of the target vector, and its angle to the target vector is that of a
uniformly distributed point of the cap; the solid angle is that of the cap -/
theorem C140_cone {t : V3 ℝ} (ht : t ≠ 0) (radius : ℝ) {u1 : ℝ} (h0 : 0 ≤ u1) (h1 : u1 ≤ 1) (u2 : ℝ) :
    ∃ d, towards t radius u1 u2 = some (d, 2 * Real.pi * (1 - edge t radius)) ∧ d.dot d = t.dot t ∧
      d.dot t = (edge t radius + u1 * (1 - edge t radius)) * t.dot t := by
  refine ⟨_, towards_eq ht radius h0 h1 u2, ?_⟩
  have hab := across_spec t
  rw [← random_eq]
  have hr : |random u1 (edge t radius) 1| ≤ 1 := cone_range ht radius h0 h1
  split
  · exact around_spec hab hr 0
  · exact around_spec hab hr _

/-- example: a target straight ahead -/
example : (⟨0, 0, 3⟩ : V3 ℝ) ≠ 0 ∧ edge ⟨0, 0, 3⟩ 4 = 3 / 5 := by
  constructor
  · intro h; have := congrArg V3.z h; norm_num at this
  · unfold edge
    rw [length_eq]
    simp only [V3.dot]
    rw [show (0 * 0 + 0 * 0 + 3 * 3 : ℝ) = 3 ^ 2 by norm_num, Real.sqrt_sq (by norm_num),
      show (3 ^ 2 + 4 ^ 2 : ℝ) = 5 ^ 2 by norm_num, Real.sqrt_sq (by norm_num)]
    norm_num

/-- C140, partial: the directions are uniformly distributed in the cap.  Missing: a cone with a cosine of more than 1 - 1e-7
around the target vector, see `C140_narrow_false`. -/
theorem C140_uniform_partial {t : V3 ℝ} (ht : t ≠ 0) (radius : ℝ) : ∃ a b, Across t a b ∧ ∀ f : V3 ℝ → ℝ,
    (∀ d : V3 ℝ, abs (1 - |d.dot t| / t.dot t) < 1e-7 → f d = 0) →
    2 * Real.pi * (1 - edge t radius) * mean2 (fun u1 u2 => observe (fun r => f r.1) (towards t radius u1 u2)) =
      capIntegral t a b (edge t radius) f := by
  refine ⟨_, _, across_spec t, fun f hf => ?_⟩
  have hab := across_spec t
  have hdot : 0 < t.dot t := by rw [← length_mul_self]; have := length_pos ht; positivity
  unfold capIntegral mean2
  rw [← mean_affine, ← mean_mul]
  apply mean_congr
  intro u1 h0 h1
  have hr : |random u1 (edge t radius) 1| ≤ 1 := cone_range ht radius h0.le h1.le
  rw [← mean_affine, mul_comm (2 * Real.pi), mul_assoc, ← mean_mul]
  congr 1
  apply mean_congr
  intro u2 _ _
  show _ * observe _ (towards t radius u1 u2) = _
  rw [towards_eq ht radius h0.le h1.le, ← random_eq]
  simp only [observe]
  rw [show 0 + u2 * (2 * Real.pi - 0) = 2 * Real.pi * u2 by ring, sub_zero]
  congr 1
  split
  · next h =>
    have near : ∀ φ, f (around t (acrossA t) (acrossB t) (random u1 (edge t radius) 1) φ) = 0 := by
      intro φ
      apply hf
      rw [(around_spec hab hr φ).2, abs_mul, abs_of_pos hdot, mul_div_cancel_right₀ _ hdot.ne']
      exact h
    rw [near, near]
  · rfl

/-- example: an observable that is 0 near the axis -/
example : ∃ f : V3 ℝ → ℝ, (∀ d : V3 ℝ, abs (1 - |d.dot ⟨0, 0, 1⟩| / V3.dot (⟨0, 0, 1⟩ : V3 ℝ) ⟨0, 0, 1⟩) < 1e-7 → f d = 0) ∧
    f ⟨0.6, 0, 0.8⟩ = 1 := by
  classical
  refine ⟨fun d => if abs (1 - |d.z|) < 1e-7 then 0 else 1, fun d h => ?_, ?_⟩
  · simp only [V3.dot, mul_zero, mul_one, zero_add, div_one] at h
    simp only
    rw [if_pos h]
  · simp only
    rw [if_neg]
    norm_num [abs_of_pos]

/-- C140 is false for narrow cones: all directions lie in a half plane, so the second moment across it is 0 -/
theorem C140_narrow_false : ∃ (t : V3 ℝ) (radius : ℝ), t ≠ 0 ∧ 0 < radius ∧
    (∀ u1 u2, 0 ≤ u1 → u1 ≤ 1 → ∃ d om, towards t radius u1 u2 = some (d, om) ∧ d.y = 0 ∧ d.x ≤ 0) ∧
    mean2 (fun u1 u2 => observe (fun r => r.1.y ^ 2) (towards t radius u1 u2)) = 0 ∧
    ∀ a b, Across t a b → 0 < capIntegral t a b (edge t radius) (fun d => d.y ^ 2) := by
  have ht : (⟨0, 0, 1⟩ : V3 ℝ) ≠ 0 := by intro h; have := congrArg V3.z h; norm_num at this
  have hl : length (⟨0, 0, 1⟩ : V3 ℝ) = 1 := by rw [length_eq]; simp [V3.dot]
  obtain ⟨c0, hc0⟩ : ∃ c0, c0 = edge ⟨0, 0, 1⟩ (1 / 10000) := ⟨_, rfl⟩
  have he : c0 = 1 / √(1 + (1 / 10000) ^ 2) := by
    rw [hc0]; unfold edge; rw [hl, if_neg (by norm_num)]; simp [V3.dot]
  have hsq := Real.sq_sqrt (show (0 : ℝ) ≤ 1 + (1 / 10000) ^ 2 by norm_num)
  have hs1 : 1 < √(1 + (1 / 10000 : ℝ) ^ 2) := by
    rw [Real.lt_sqrt (by norm_num)]; norm_num
  have hs2 : √(1 + (1 / 10000 : ℝ) ^ 2) < 1 + 1e-8 := by
    rw [Real.sqrt_lt' (by norm_num)]; norm_num
  have hc1 : c0 < 1 := by rw [he, div_lt_one (by linarith)]; exact hs1
  have hc2 : 1 - 1e-8 < c0 := by
    rw [he, lt_div_iff₀ (by linarith)]
    nlinarith
  have hall : ∀ u1 u2, 0 ≤ u1 → u1 ≤ 1 →
      ∃ d om, towards ⟨0, 0, 1⟩ (1 / 10000) u1 u2 = some (d, om) ∧ d.y = 0 ∧ d.x ≤ 0 := by
    intro u1 u2 h0 h1
    refine ⟨_, _, towards_eq ht _ h0 h1 u2, ?_⟩
    rw [← hc0]
    have hr : 1 - 1e-8 < random u1 c0 1 ∧ random u1 c0 1 ≤ 1 := by
      rw [random_eq]; constructor <;> nlinarith
    rw [if_pos (by rw [abs_of_pos (a := random u1 c0 1) (by norm_num at hr ⊢; linarith)]; rw [abs_lt]; norm_num at hr ⊢; constructor <;> linarith)]
    have hsd : sideOf (⟨0, 0, 1⟩ : V3 ℝ) = ⟨-1, 0, 0⟩ := by unfold sideOf; simp
    have hsl : length (⟨-1, 0, 0⟩ : V3 ℝ) = 1 := by rw [length_eq]; simp [V3.dot]
    unfold around acrossA acrossB
    rw [hsd, hsl, hl, Real.cos_zero, Real.sin_zero]
    simp only [V3.add_x, V3.add_y, V3.smul_x, V3.smul_y]
    constructor
    · ring
    · have := Real.sqrt_nonneg (1 - random u1 c0 1 ^ 2)
      linarith
  refine ⟨⟨0, 0, 1⟩, 1 / 10000, ht, by norm_num, hall, ?_, ?_⟩
  · unfold mean2
    rw [mean_congr (g := fun _ => 0), mean_const]
    intro u1 h0 h1
    rw [mean_congr (g := fun _ => 0), mean_const]
    intro u2 _ _
    obtain ⟨d, om, hd, hy, _⟩ := hall u1 u2 h0.le h1.le
    show observe _ (towards ⟨0, 0, 1⟩ (1 / 10000) u1 u2) = 0
    rw [hd]
    simp only [observe, hy]
    norm_num
  · intro a b hab
    rw [← hc0]
    obtain ⟨a1, a2, a3, a4, a5⟩ := hab
    simp only [V3.dot, mul_zero, mul_one, zero_add] at a1 a2 a3 a4 a5
    rw [a1] at a3 a4
    rw [a2] at a5
    have hab1 : a.y ^ 2 + b.y ^ 2 = 1 := by
      linear_combination -(a.x * b.x - a.y * b.y) * a3 + (1 - b.y ^ 2) * a4 + a.x ^ 2 * a5
    have hin : ∀ c ∈ uIcc c0 1, (∫ φ in (0 : ℝ)..2 * Real.pi, (around ⟨0, 0, 1⟩ a b c φ).y ^ 2) =
        Real.pi * (1 - c ^ 2) := by
      intro c hc
      rw [uIcc_of_le hc1.le] at hc
      have hs : √(1 - c ^ 2) ^ 2 = 1 - c ^ 2 := Real.sq_sqrt (by norm_num at hc2; nlinarith [hc.1, hc.2])
      have : ∀ φ, (around ⟨0, 0, 1⟩ a b c φ).y ^ 2 = (1 - c ^ 2) * (a.y ^ 2 * Real.cos φ ^ 2 +
          2 * a.y * b.y * (Real.sin φ * Real.cos φ) + b.y ^ 2 * Real.sin φ ^ 2) := by
        intro φ
        rw [← hs]
        unfold around
        simp only [V3.add_y, V3.smul_y]
        ring
      simp only [this]
      rw [intervalIntegral.integral_const_mul, intervalIntegral.integral_add, intervalIntegral.integral_add,
        intervalIntegral.integral_const_mul, intervalIntegral.integral_const_mul, intervalIntegral.integral_const_mul,
        integral_cos_sq, integral_sin_sq, integral_sin_mul_cos₁]
      · simp only [Real.cos_two_pi, Real.sin_two_pi, Real.cos_zero, Real.sin_zero]
        linear_combination (1 - c ^ 2) * Real.pi * hab1
      all_goals apply Continuous.intervalIntegrable; fun_prop
    unfold capIntegral
    rw [intervalIntegral.integral_congr hin, intervalIntegral.integral_const_mul, intervalIntegral.integral_sub (by simp)
      (by apply Continuous.intervalIntegrable; fun_prop), intervalIntegral.integral_const, integral_pow]
    apply mul_pos Real.pi_pos
    norm_num
    norm_num at hc2
    nlinarith [mul_pos (sub_pos.2 hc1) (sub_pos.2 hc1)]

end Verif.Sampling
