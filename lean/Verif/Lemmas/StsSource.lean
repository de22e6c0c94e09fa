import Verif.Spec.StsSource
import Mathlib.Analysis.SpecialFunctions.Trigonometric.ArctanDeriv
import Mathlib.Analysis.SpecialFunctions.Integrals.Basic
import Mathlib.Analysis.Calculus.MeanValue
import Mathlib.Tactic.Linarith
import Mathlib.Tactic.FieldSimp
import Mathlib.Tactic.Positivity
import Mathlib.Tactic.LinearCombination
/-!
Lemmas about the moderators of the second target station.
-/

namespace Verif.StsSource
open Real

theorem off_zero {c : Par} {f : File} (h : offangle c f = 0) : off c f = 0 := by
  rw [off, h, mul_zero]

theorem width_pos {c : Par} {f : File} (h : 0 < f.PWidth) : 0 < xwidth c f ∧ xwidth c f ≤ f.PWidth := by
  unfold xwidth
  split_ifs with hc
  · exact ⟨h, le_rfl⟩
  · push Not at hc
    exact ⟨hc.2, hc.1⟩

theorem height_pos {c : Par} {f : File} (h : 0 < f.PHeight) : 0 < yheight c f ∧ yheight c f ≤ f.PHeight := by
  unfold yheight
  split_ifs with hc
  · exact ⟨h, le_rfl⟩
  · push Not at hc
    exact ⟨hc.2, hc.1⟩

theorem radius_pos {c : Par} {f : File} (h : 0 < f.TRadius) : 0 < radius c f ∧ radius c f ≤ f.TRadius := by
  unfold radius
  split_ifs with hc
  · exact ⟨h, le_rfl⟩
  · push Not at hc
    exact ⟨hc.2, hc.1⟩

theorem centred {u w : ℝ} (h0 : 0 ≤ u) (h1 : u ≤ 1) (hw : 0 ≤ w) : |(u - 0.5) * w| ≤ w / 2 := by
  rw [abs_le]
  constructor <;> norm_num <;> nlinarith

/-- the angle to the edges of a cylinder that is not turned -/
theorem edge_angle {R w : ℝ} (hR : 0 < R) (hw : 0 ≤ w) (hwR : w ≤ 2 * R) :
    let φ := 2 * arcsin (√((√(R * R - (w / 2) ^ 2) - R) * (√(R * R - (w / 2) ^ 2) - R) + w * w / 4) / 2 / R)
    0 ≤ φ ∧ φ ≤ π / 2 ∧ sin φ = w / (2 * R) := by
  intro φ
  have hs0 : 0 ≤ R * R - (w / 2) ^ 2 := by nlinarith
  have hs : √(R * R - (w / 2) ^ 2) ^ 2 = R * R - (w / 2) ^ 2 := sq_sqrt hs0
  have hsn : 0 ≤ √(R * R - (w / 2) ^ 2) := sqrt_nonneg _
  obtain ⟨s, es⟩ : ∃ s, s = √(R * R - (w / 2) ^ 2) := ⟨_, rfl⟩
  obtain ⟨q, eq⟩ : ∃ q, q = √((s - R) * (s - R) + w * w / 4) / 2 / R := ⟨_, rfl⟩
  have eφ : φ = 2 * arcsin q := by rw [eq, es]
  rw [← es] at hs hsn
  have hsR : s ≤ R := by nlinarith
  have hq0 : 0 ≤ q := by rw [eq]; positivity
  have hq2 : q ^ 2 = (R - s) / (2 * R) := by
    rw [eq, div_pow, div_pow, sq_sqrt (by nlinarith)]
    field_simp
    nlinarith
  have hq1 : q ≤ 1 := by
    have : q ^ 2 ≤ 1 := by
      rw [hq2, div_le_one (by positivity)]
      linarith
    nlinarith
  have ha0 : 0 ≤ arcsin q := arcsin_nonneg.2 hq0
  have ha1 : arcsin q ≤ π / 2 := arcsin_le_pi_div_two q
  have hcos : cos φ = s / R := by
    have hsin := sin_arcsin (by linarith : -1 ≤ q) hq1
    rw [eφ, cos_two_mul', hsin]
    have h1 := sin_sq_add_cos_sq (arcsin q)
    rw [hsin] at h1
    have h2 : cos (arcsin q) ^ 2 = 1 - q ^ 2 := by linarith
    rw [h2, hq2]
    field_simp
    ring
  have hφ0 : 0 ≤ φ := by rw [eφ]; linarith
  have hφπ : φ ≤ π := by rw [eφ]; linarith
  have hφ1 : φ ≤ π / 2 := by
    by_contra hc
    push Not at hc
    have := cos_neg_of_pi_div_two_lt_of_lt hc (by linarith [pi_pos])
    rw [hcos] at this
    exact absurd this (not_lt.2 (div_nonneg hsn hR.le))
  refine ⟨hφ0, hφ1, ?_⟩
  have h1 := sin_sq_add_cos_sq φ
  have h2 : sin φ ^ 2 = (w / (2 * R)) ^ 2 := by
    have : cos φ ^ 2 = (R * R - (w / 2) ^ 2) / R ^ 2 := by rw [hcos, div_pow, hs]
    rw [this] at h1
    have e : (R * R - (w / 2) ^ 2) / R ^ 2 = 1 - (w / (2 * R)) ^ 2 := by
      field_simp
    rw [e] at h1
    linarith
  exact (pow_left_inj₀ (sin_nonneg_of_nonneg_of_le_pi hφ0 hφπ) (by positivity) two_ne_zero).1 h2

theorem sin_between {a φ : ℝ} (h : φ ≤ π / 2) (h1 : -φ ≤ a) (h2 : a ≤ φ) : |sin a| ≤ sin φ := by
  rw [abs_le]
  constructor
  · rw [← sin_neg]
    exact sin_le_sin_of_le_of_le_pi_div_two (by linarith) (by linarith) h1
  · exact sin_le_sin_of_le_of_le_pi_div_two (by linarith) h h2

theorem turned_edges {c : Par} {f : File} (ho : offangle c f = 0) (hR : 0 < f.MRadius0) (w1 : 0 ≤ xwidth c f) (hw : xwidth c f ≤ 2 * f.MRadius0) :
    0 ≤ cylphi1 c f ∧ cylphi1 c f ≤ π / 2 ∧ sin (cylphi1 c f) = xwidth c f / (2 * f.MRadius0) := by
  have ho' := off_zero ho
  have k := edge_angle hR w1 hw
  have e1 : cylphi1 c f = 2 * arcsin (√((√(f.MRadius0 * f.MRadius0 - (xwidth c f / 2) ^ 2) - f.MRadius0) *
      (√(f.MRadius0 * f.MRadius0 - (xwidth c f / 2) ^ 2) - f.MRadius0) + xwidth c f * xwidth c f / 4) / 2 / f.MRadius0) := by
    simp only [cylphi1, cylphi, cylx, cylz, ho', sin_zero, cos_zero, mul_zero, sub_zero, mul_one, ← sub_eq_add_neg]
  rw [e1]
  exact k

theorem not_turned {c : Par} {f : File} (hT : f.TRadius = 0) (hd : ¬ c.dmode = true) (ho : offangle c f = 0) (hR : 0 < f.MRadius0)
    (w1 : 0 ≤ xwidth c f) (hw : xwidth c f ≤ 2 * f.MRadius0) {u1 u2 : ℝ} :
    (place c f u1 u2).x = f.MRadius0 * sin (-cylphi1 c f + u2 * (cylphi1 c f + cylphi1 c f)) := by
  have ho' := off_zero ho
  have e2 : cylphi2 c f = cylphi1 c f := by
    have hn : (-xwidth c f / 2 - 0) ^ 2 = (xwidth c f / 2 - 0) ^ 2 := by ring
    simp only [cylphi2, cylphi1, cylphi, cylx, ho', sin_zero, mul_zero]
    rw [hn]
  unfold place
  rw [if_neg (not_not_intro hT), if_neg hd]
  simp only [e2, cylx, ho', sin_zero, mul_zero, zero_add, add_zero]

/-! ### solid angles -/

theorem solid_eq (a b c d : ℝ) : solidAngle a b c d = (b - a) * (sin d - sin c) := by
  unfold solidAngle
  rw [intervalIntegral.integral_const, integral_cos, smul_eq_mul]

theorem sin_arctan_deriv (y : ℝ) : HasDerivAt (fun y => sin (arctan y)) (cos (arctan y) * (1 / (1 + y ^ 2))) y :=
  (hasDerivAt_sin (arctan y)).comp y (hasDerivAt_arctan y)

theorem between_sq {a b c m : ℝ} (ha : |a| ≤ m) (hb : |b| ≤ m) (h1 : a < c) (h2 : c < b) : c ^ 2 ≤ m ^ 2 := by
  rw [abs_le] at ha hb
  nlinarith

theorem arctan_diff {a b m : ℝ} (hab : a < b) (ha : |a| ≤ m) (hb : |b| ≤ m) :
    (b - a) / (1 + m ^ 2) ≤ arctan b - arctan a ∧ arctan b - arctan a ≤ b - a := by
  obtain ⟨c, ⟨h1, h2⟩, h3⟩ := exists_hasDerivAt_eq_slope arctan (fun y => 1 / (1 + y ^ 2)) hab continuous_arctan.continuousOn
    fun x _ => hasDerivAt_arctan x
  have hba : 0 < b - a := sub_pos.2 hab
  rw [eq_div_iff hba.ne'] at h3
  have hc := between_sq ha hb h1 h2
  rw [← h3]
  constructor
  · rw [div_eq_mul_one_div, mul_comm]
    exact mul_le_mul_of_nonneg_right (one_div_le_one_div_of_le (by positivity) (by linarith)) hba.le
  · have : 1 / (1 + c ^ 2) ≤ 1 := by
      rw [div_le_one (by positivity)]
      nlinarith [sq_nonneg c]
    nlinarith

theorem cos_arctan_bounds (c : ℝ) : 1 / (1 + c ^ 2) ≤ cos (arctan c) ∧ cos (arctan c) ≤ 1 := by
  refine ⟨?_, cos_le_one _⟩
  rw [cos_arctan]
  apply one_div_le_one_div_of_le (by positivity)
  have h : (1 : ℝ) ≤ 1 + c ^ 2 := by nlinarith [sq_nonneg c]
  rw [sqrt_le_left (by positivity)]
  nlinarith

theorem sin_arctan_diff {a b m : ℝ} (hab : a < b) (ha : |a| ≤ m) (hb : |b| ≤ m) :
    (b - a) / (1 + m ^ 2) ^ 2 ≤ sin (arctan b) - sin (arctan a) ∧ sin (arctan b) - sin (arctan a) ≤ b - a := by
  obtain ⟨c, ⟨h1, h2⟩, h3⟩ := exists_hasDerivAt_eq_slope (fun y => sin (arctan y)) (fun y => cos (arctan y) * (1 / (1 + y ^ 2))) hab
    (continuous_sin.comp continuous_arctan).continuousOn fun x _ => sin_arctan_deriv x
  have hba : 0 < b - a := sub_pos.2 hab
  rw [eq_div_iff hba.ne'] at h3
  have hc := between_sq ha hb h1 h2
  obtain ⟨k1, k2⟩ := cos_arctan_bounds c
  have hp : (0 : ℝ) < 1 + c ^ 2 := by positivity
  have hi : 0 < 1 / (1 + c ^ 2) := by positivity
  rw [← h3]
  constructor
  · rw [div_eq_mul_one_div, mul_comm]
    apply mul_le_mul_of_nonneg_right _ hba.le
    have e : 1 / (1 + m ^ 2) ^ 2 = 1 / (1 + m ^ 2) * (1 / (1 + m ^ 2)) := by field_simp
    have hm : 1 / (1 + m ^ 2) ≤ 1 / (1 + c ^ 2) := one_div_le_one_div_of_le hp (by linarith)
    rw [e]
    exact mul_le_mul (hm.trans k1) hm (by positivity) (by linarith)
  · have h1' : 1 / (1 + c ^ 2) ≤ 1 := by
      rw [div_le_one hp]
      nlinarith [sq_nonneg c]
    have : cos (arctan c) * (1 / (1 + c ^ 2)) ≤ 1 := by nlinarith
    nlinarith

end Verif.StsSource
