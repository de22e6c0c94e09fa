import Verif.Lemmas.Broad
import Verif.Props.Sampling
/-!
Helper lemmas for scattering by spheres.
-/

namespace Verif.Broad
open Solid Flight Homog Kinem Sampling MeasureTheory Set

theorem edge_tan {t : V3 ℝ} (ht : t ≠ 0) {a : ℝ} (ha : (0 < a ∧ a < Real.pi / 2) ∨ (Real.pi / 2 < a ∧ a < Real.pi)) :
    edge t (Real.tan a * length t) = Real.cos a := by
  have hl := length_pos ht
  have hc : Real.cos a ≠ 0 := by
    rcases ha with h | h
    · exact (Real.cos_pos_of_mem_Ioo ⟨by linarith, h.2⟩).ne'
    · exact (Real.cos_neg_of_pi_div_two_lt_of_lt h.1 (by linarith)).ne
  have hs : √(t.dot t + (Real.tan a * length t) ^ 2) = length t / |Real.cos a| := by
    rw [← length_mul_self, show length t * length t + (Real.tan a * length t) ^ 2 = (length t / Real.cos a) ^ 2 by
      rw [Real.tan_eq_sin_div_cos]
      field_simp
      linear_combination Real.cos_sq_add_sin_sq a, Real.sqrt_sq_eq_abs, abs_div, abs_of_pos hl]
  unfold edge
  rw [hs, div_div_eq_mul_div, mul_div_right_comm, div_self hl.ne', one_mul]
  rcases ha with h | h
  · have h1 := Real.tan_pos_of_pos_of_lt_pi_div_two h.1 h.2
    have h2 := Real.cos_pos_of_mem_Ioo (x := a) ⟨by linarith, h.2⟩
    rw [if_neg (not_lt.2 (by positivity)), one_mul, abs_of_pos h2]
  · have h2 := Real.cos_neg_of_pi_div_two_lt_of_lt h.1 (by linarith)
    have h1 : Real.tan a < 0 := by
      rw [Real.tan_eq_sin_div_cos]
      exact div_neg_of_pos_of_neg (Real.sin_pos_of_pos_of_lt_pi (by linarith [Real.pi_pos]) h.2) h2
    rw [if_pos (mul_neg_of_neg_of_pos h1 hl), abs_of_neg h2]
    ring

theorem proper_angle {k : Spheres} (hk : Proper k) :
    (0 < k.angle ∧ k.angle < Real.pi / 2) ∨ (Real.pi / 2 < k.angle ∧ k.angle < Real.pi) := by
  have hp := Real.pi_pos
  unfold Spheres.angle
  rcases hk with h | h
  · left; constructor <;> nlinarith [h.1, h.2]
  · right; constructor <;> nlinarith [h.1, h.2]

theorem proper_cos {k : Spheres} (hk : Proper k) : Real.cos k.angle < 1 ∧ -1 < Real.cos k.angle := by
  have hp := Real.pi_pos
  have h : 0 < k.angle ∧ k.angle < Real.pi := by
    rcases proper_angle hk with h | h
    · exact ⟨h.1, by linarith⟩
    · exact ⟨by linarith, h.2⟩
  constructor
  · have := Real.cos_lt_cos_of_nonneg_of_le_pi le_rfl h.2.le h.1
    rwa [Real.cos_zero] at this
  · have := Real.cos_lt_cos_of_nonneg_of_le_pi h.1.le le_rfl h.2
    rwa [Real.cos_pi] at this

theorem spheres_eq {k : Spheres} (hk : Proper k) (hR : 0 < k.R) {ev : Ev} (hv : ev.v ≠ 0) {u1 c : ℝ} (h0 : 0 ≤ u1)
    (h1 : u1 < 1) (hc : c = Real.cos k.angle + u1 * (1 - Real.cos k.angle)) (u2 : ℝ) :
    ∃ ev', k.S u1 u2 ev = some ev' ∧ SamePlace ev ev' ∧ energy ev'.v = energy ev.v ∧
      (wave ev'.v).dot (wave ev.v) = c * kOf ev.v ^ 2 ∧ momentum ev ev' = kOf ev.v * √(2 * (1 - c)) ∧
      ev'.p = ev.p * (k.solid / (4 * Real.pi) * (2 / (9 * Real.pi) * k.R ^ 2 * kOf ev.v ^ 2 *
        formFactor (momentum ev ev' * k.R) ^ 2)) := by
  have hv2 := v2k_pos
  have hki := kOf_pos hv
  have hkl : length (v2k • ev.v) = kOf ev.v := by rw [Bragg.length_smul', abs_of_pos hv2, kOf_eq]
  have ht : v2k • ev.v ≠ 0 := by
    intro h
    have := congrArg length h
    rw [hkl, length_eq] at this
    simp [V3.dot] at this
    exact hki.ne' this
  have hdd : (v2k • ev.v).dot (v2k • ev.v) = kOf ev.v ^ 2 := by rw [← length_mul_self, hkl, sq]
  obtain ⟨d, e1, e2, e3⟩ := C140_cone ht (Real.tan k.angle * length (v2k • ev.v)) h0 h1.le u2
  rw [edge_tan ht (proper_angle hk), hkl] at e1
  rw [edge_tan ht (proper_angle hk), ← hc, hdd] at e3
  rw [hdd] at e2
  obtain ⟨hc1, hc2⟩ := proper_cos hk
  have hcl : c < 1 := by rw [hc]; nlinarith
  have hw : wave (k2v • d) = d := by
    unfold wave
    rw [show v2k • k2v • d = (v2k * k2v) • d by ext <;> simp [mul_assoc], v2k_mul]
    ext <;> simp
  have hqq : (v2k • ev.v - d).dot (v2k • ev.v - d) = kOf ev.v ^ 2 * (2 * (1 - c)) := by
    have : (v2k • ev.v - d).dot (v2k • ev.v - d) = (v2k • ev.v).dot (v2k • ev.v) + d.dot d - 2 * d.dot (v2k • ev.v) := by
      simp only [V3.dot, V3.sub_x, V3.sub_y, V3.sub_z]; ring
    rw [this, hdd, e2, e3]; ring
  have hq : length (v2k • ev.v - d) = kOf ev.v * √(2 * (1 - c)) := by
    rw [length_eq, hqq, Real.sqrt_mul (sq_nonneg _), Real.sqrt_sq hki.le]
  have hqR : kOf ev.v * √(2 * (1 - c)) * k.R ≠ 0 := by
    have : 0 < √(2 * (1 - c)) := Real.sqrt_pos.2 (by linarith)
    positivity
  have hmom : ∀ p, momentum ev ⟨ev.r, k2v • d, ev.s1, ev.s2, ev.t, p⟩ = kOf ev.v * √(2 * (1 - c)) := by
    intro p
    unfold momentum
    simp only [hw]
    rw [show wave ev.v = v2k • ev.v from rfl, hqq, Real.sqrt_mul (sq_nonneg _), Real.sqrt_sq hki.le]
  have hS : k.S u1 u2 ev = some ⟨ev.r, k2v • d, ev.s1, ev.s2, ev.t, ev.p * (k.solid / 4 / Real.pi *
      (2 / 9 / Real.pi * k.R * k.R * kOf ev.v * kOf ev.v * formFactor (kOf ev.v * √(2 * (1 - c)) * k.R) *
        formFactor (kOf ev.v * √(2 * (1 - c)) * k.R)))⟩ := by
    unfold Spheres.S
    simp only [kOf_eq, e1, Option.bind_eq_bind, Option.bind_some, hq, divD_ok hqR]
    congr 4
    all_goals unfold formFactor; rw [div_div, div_div]; ring_nf
  refine ⟨_, hS, ⟨rfl, rfl, rfl, rfl⟩, ?_, ?_, hmom _, ?_⟩
  · unfold energy
    have h3 : (k2v • d).dot (k2v • d) = k2v ^ 2 * d.dot d := by
      simp only [V3.dot, V3.smul_x, V3.smul_y, V3.smul_z]; ring
    have h4 : kOf ev.v ^ 2 = v2k ^ 2 * ev.v.dot ev.v := by
      rw [← hdd]; simp only [V3.dot, V3.smul_x, V3.smul_y, V3.smul_z]; ring
    simp only
    rw [h3, e2, h4]
    linear_combination vsq2e * ev.v.dot ev.v * (v2k * k2v + 1) * v2k_mul
  · simp only [hw]
    exact e3
  · rw [hmom]
    simp only
    have := Real.pi_ne_zero
    field_simp

theorem solid_eq (k : Spheres) : k.solid = 2 * Real.pi * (1 - Real.cos k.angle) := rfl

/-- the expectation is the integral over the cap, divided by `4π` -/
theorem spheres_mean {k : Spheres} (hk : Proper k) (hR : 0 < k.R) {ev : Ev} (hv : ev.v ≠ 0) (G : ℝ → ℝ) :
    k.coefficient ev * mean2 (fun u1 u2 => weighQ G ev (k.S u1 u2 ev)) =
      ev.p * spheresTruth k G (kOf ev.v) (Real.cos k.angle) / (4 * Real.pi) := by
  have hp := Real.pi_pos
  have hki := kOf_pos hv
  unfold spheresTruth mean2
  rw [← mean_affine, ← mean_mul, mul_div_right_comm, ← mean_mul]
  apply mean_congr
  intro u1 h0 h1
  show k.coefficient ev * mean (fun u2 => weighQ G ev (k.S u1 u2 ev)) = _
  have : mean (fun u2 => weighQ G ev (k.S u1 u2 ev)) = mean fun _ => ev.p * (k.solid / (4 * Real.pi) *
      (2 / (9 * Real.pi) * k.R ^ 2 * kOf ev.v ^ 2 * formFactor (kOf ev.v *
        √(2 * (1 - (Real.cos k.angle + u1 * (1 - Real.cos k.angle)))) * k.R) ^ 2)) *
        G (kOf ev.v * √(2 * (1 - (Real.cos k.angle + u1 * (1 - Real.cos k.angle))))) := by
    apply mean_congr
    intro u2 _ _
    obtain ⟨ev', e1, -, -, -, e5, e6⟩ := spheres_eq hk hR hv h0.le h1 rfl u2
    show weighQ G ev (k.S u1 u2 ev) = _
    rw [e1]
    unfold weighQ
    simp only
    rw [e6, e5]
  rw [this, mean_const, solid_eq]
  unfold Spheres.coefficient density
  simp only [kOf_eq]
  field_simp
  ring

/-! ### The total cross section -/

noncomputable def j1 (x : ℝ) : ℝ := (Real.sin x - x * Real.cos x) / x ^ 2

theorem j1_bound (x : ℝ) : |j1 x| ≤ |x| := by
  unfold j1
  by_cases hx : x = 0
  · simp [hx]
  · have hx' := abs_pos.2 hx
    rw [abs_div, abs_of_nonneg (sq_nonneg x), ← sq_abs x, div_le_iff₀ (by positivity)]
    have h1 := Real.abs_sub_sin_le x
    have h2 : |x * (1 - Real.cos x)| ≤ |x| ^ 3 / 2 := by
      rw [abs_mul, abs_of_nonneg (sub_nonneg.2 (Real.cos_le_one x))]
      have := Real.one_sub_sq_div_two_le_cos (x := x)
      rw [← sq_abs x] at this
      nlinarith
    have h3 : Real.sin x - x * Real.cos x = x * (1 - Real.cos x) - (x - Real.sin x) := by ring
    rw [h3]
    have := abs_sub (x * (1 - Real.cos x)) (x - Real.sin x)
    have : 0 < |x| ^ 3 := by positivity
    nlinarith

theorem j1_continuous : Continuous j1 := by
  rw [continuous_iff_continuousAt]
  intro x
  by_cases hx : x = 0
  · subst hx
    have h0 : j1 0 = 0 := by simp [j1]
    unfold ContinuousAt
    rw [h0]
    apply squeeze_zero_norm (a := fun x : ℝ => |x|) (fun x => by rw [Real.norm_eq_abs]; exact j1_bound x)
    simpa using (continuous_abs.tendsto (0 : ℝ))
  · unfold j1
    exact ContinuousAt.div (by fun_prop) (by fun_prop) (pow_ne_zero 2 hx)

noncomputable def prim (x : ℝ) : ℝ := 1 - Real.sinc x ^ 2 - j1 x ^ 2

theorem prim_continuous : Continuous prim := by
  have := j1_continuous
  have := Real.continuous_sinc
  unfold prim
  fun_prop

theorem prim_deriv {x : ℝ} (hx : 0 < x) :
    HasDerivAt prim (4 * (Real.sin x - x * Real.cos x) ^ 2 / x ^ 5) x := by
  have h1 : HasDerivAt (fun x => 1 - (Real.sin x / x) ^ 2 - j1 x ^ 2) (4 * (Real.sin x - x * Real.cos x) ^ 2 / x ^ 5) x := by
    have a := (Real.hasDerivAt_sin x).div (hasDerivAt_id x) hx.ne'
    have b := ((Real.hasDerivAt_sin x).sub ((hasDerivAt_id x).mul (Real.hasDerivAt_cos x))).div (hasDerivAt_pow 2 x)
      (pow_ne_zero 2 hx.ne')
    have := ((a.pow 2).const_sub 1).sub (b.pow 2)
    refine this.congr_deriv ?_
    simp only [id, Pi.sub_apply, Pi.mul_apply, Pi.div_apply, Nat.add_one_sub_one, pow_one, Nat.cast_ofNat]
    field_simp
    ring
  refine h1.congr_of_eventuallyEq ?_
  filter_upwards [eventually_ne_nhds hx.ne'] with y hy
  unfold prim
  rw [Real.sinc_of_ne_zero hy]

theorem prim_eq {x : ℝ} (hx : 0 < x) : prim x = 1 - besselSq x := by
  unfold prim besselSq j1
  rw [Real.sinc_of_ne_zero hx.ne']
  ring

theorem besselSq_pos {x : ℝ} (hx : 0 < x) : 0 < besselSq x := by
  unfold besselSq
  by_cases hs : Real.sin x = 0
  · have hc : Real.cos x ≠ 0 := by
      intro hc
      have := Real.sin_sq_add_cos_sq x
      rw [hs, hc] at this
      norm_num at this
    rw [hs]
    have : (0 - x * Real.cos x) / x ^ 2 ≠ 0 := by
      rw [zero_sub]
      exact div_ne_zero (neg_ne_zero.2 (mul_ne_zero hx.ne' hc)) (by positivity)
    positivity
  · positivity

theorem besselSq_le {x : ℝ} (hx : 0 < x) : besselSq x ≤ 1 / x ^ 2 + (1 + x) ^ 2 / x ^ 4 := by
  unfold besselSq
  rw [div_pow, div_pow, ← pow_mul]
  have h1 := Real.sin_sq_le_one x
  have h2 : |Real.sin x - x * Real.cos x| ≤ 1 + x := by
    have a := abs_sub (Real.sin x) (x * Real.cos x)
    have b := Real.abs_sin_le_one x
    have c := Real.abs_cos_le_one x
    rw [abs_mul, abs_of_pos hx] at a
    nlinarith
  have h3 : (Real.sin x - x * Real.cos x) ^ 2 ≤ (1 + x) ^ 2 := by
    rw [← sq_abs]; gcongr
  gcongr

theorem total_deriv {k : Spheres} (hR : 0 < k.R) {K c : ℝ} (hK : 0 < K) (hc : c < 1) :
    HasDerivAt (fun c => -(3 / 2 * k.phi * k.deltaRho ^ 2 * (2 * Real.pi / K) ^ 2 * k.R) * prim (K * √(2 * (1 - c)) * k.R))
      (2 * Real.pi * (density k (K * √(2 * (1 - c))) * 1)) c := by
  have h2 : 0 < 2 * (1 - c) := by linarith
  have hs := Real.sqrt_pos.2 h2
  have hsq := Real.sq_sqrt h2.le
  have hin : HasDerivAt (fun c => 2 * (1 - c)) (-2) c := by
    have := ((hasDerivAt_id c).const_sub 1).const_mul 2
    simpa using this
  have a := ((hin.sqrt h2.ne').const_mul K).mul_const k.R
  have hx : 0 < K * √(2 * (1 - c)) * k.R := by positivity
  have b := ((prim_deriv hx).comp c a).const_mul (-(3 / 2 * k.phi * k.deltaRho ^ 2 * (2 * Real.pi / K) ^ 2 * k.R))
  refine b.congr_deriv ?_
  unfold density formFactor
  generalize √(2 * (1 - c)) = s at *
  field_simp

theorem total_cap {k : Spheres} (hR : 0 < k.R) (hp : 0 ≤ k.phi) {K c0 : ℝ} (hK : 0 < K) (hc : c0 < 1) :
    spheresTruth k (fun _ => 1) K c0 =
      3 / 2 * k.phi * k.deltaRho ^ 2 * (2 * Real.pi / K) ^ 2 * k.R * (1 - besselSq (K * √(2 * (1 - c0)) * k.R)) := by
  have hcont : Continuous fun c =>
      -(3 / 2 * k.phi * k.deltaRho ^ 2 * (2 * Real.pi / K) ^ 2 * k.R) * prim (K * √(2 * (1 - c)) * k.R) := by
    have := prim_continuous
    fun_prop
  have hder : ∀ c ∈ Ioo c0 1, HasDerivAt
      (fun c => -(3 / 2 * k.phi * k.deltaRho ^ 2 * (2 * Real.pi / K) ^ 2 * k.R) * prim (K * √(2 * (1 - c)) * k.R))
      (2 * Real.pi * (density k (K * √(2 * (1 - c))) * 1)) c := fun c h => total_deriv hR hK h.2
  have hx : 0 < K * √(2 * (1 - c0)) * k.R := by
    have : 0 < √(2 * (1 - c0)) := Real.sqrt_pos.2 (by linarith)
    positivity
  unfold spheresTruth
  rw [intervalIntegral.integral_eq_sub_of_hasDerivAt_of_le hc.le hcont.continuousOn hder, prim_eq hx]
  · have : prim (K * √(2 * (1 - 1)) * k.R) = 0 := by simp [prim, j1]
    rw [this]
    ring
  · apply intervalIntegral.intervalIntegrable_deriv_of_nonneg hcont.continuousOn
    · rw [min_eq_left hc.le, max_eq_right hc.le]; exact hder
    · intro c _
      unfold density
      have := Real.pi_pos
      positivity

theorem coefficient_eq (k : Spheres) (ev : Ev) :
    k.coefficient ev = 3 / 2 * k.phi * k.deltaRho ^ 2 * (2 * Real.pi / kOf ev.v) ^ 2 * k.R := by
  unfold Spheres.coefficient
  simp only [kOf_eq]
  ring

end Verif.Broad
