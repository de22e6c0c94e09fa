import Verif.Spec.McSource
import Verif.Lemmas.Kinem
import Verif.Lemmas.McStas
import Mathlib.MeasureTheory.Integral.IntervalIntegral.IntegrationByParts
import Mathlib.Analysis.SpecialFunctions.Integrals.Basic
import Mathlib.Tactic.Linarith
import Mathlib.Tactic.FieldSimp
import Mathlib.Tactic.Ring
import Mathlib.Tactic.NormNum
import Mathlib.Tactic.Positivity
/-! Lemmas for the sources of McStas. -/

namespace Verif.McSource
open McStas Kinem McGuide McConst Homog Solid Flight
noncomputable section
open Classical

lemma solid_pos_root {dist : ℝ} (h : 0 < dist) (a b : ℝ) : 0 < √(a ^ 2 + b ^ 2 + dist ^ 2) := Real.sqrt_pos.2 (by positivity)

lemma target_eq {dist xw yh : ℝ} (hd : 0 < dist) (hx : 0 < xw) (hy : 0 < yh) (u1 u2 : ℝ) :
    target dist xw yh u1 u2 = some (-(xw * (2 * u1 - 1) / 2), -(yh * (2 * u2 - 1) / 2),
      xw * yh * solid dist 0 0 (-(xw * (2 * u1 - 1) / 2)) (-(yh * (2 * u2 - 1) / 2))) := by
  have e1 : √(dist * dist) = dist := Real.sqrt_mul_self hd.le
  have hs := solid_pos_root hd (xw * (2 * u1 - 1) / 2) (yh * (2 * u2 - 1) / 2)
  have e2 : √(xw * (2 * u1 - 1) / 2 * (xw * (2 * u1 - 1) / 2) + yh * (2 * u2 - 1) / 2 * (yh * (2 * u2 - 1) / 2) + dist * dist) =
      √((xw * (2 * u1 - 1) / 2) ^ 2 + (yh * (2 * u2 - 1) / 2) ^ 2 + dist ^ 2) := by congr 1; ring
  unfold target targetRect
  rw [if_neg (by simp [hx.ne', hy.ne'])]
  simp only [rotApply, rotTranspose, M3.one, V3.cross, mul_zero, zero_mul, add_zero, zero_add, sub_zero, zero_sub, mul_one, neg_mul_neg, e1,
    one_mul]
  simp only [divD, hd.ne', if_false, Option.bind_eq_bind, Option.bind_some, zero_div, mul_zero, neg_div, div_self hd.ne', mul_neg, neg_mul, neg_neg,
    mul_one, add_zero, zero_add, neg_zero, e1, e2]
  rw [if_neg (by positivity)]
  simp only [Option.bind_some, Option.map_some, solid, sub_zero, neg_sq]
  congr 3
  ring

lemma aim_eq {x y dist xf yf v : ℝ} (hd : 0 < dist) : aim x y dist xf yf v =
    some ((v / √((xf - x) ^ 2 + (yf - y) ^ 2 + dist ^ 2)) • (⟨xf - x, yf - y, dist⟩ : V3 ℝ)) := by
  have hs := solid_pos_root hd (xf - x) (yf - y)
  have e2 : √((xf - x) * (xf - x) + (yf - y) * (yf - y) + dist * dist) = √((xf - x) ^ 2 + (yf - y) ^ 2 + dist ^ 2) := by congr 1; ring
  unfold aim
  simp only [e2, divD, hs.ne', if_false, Option.bind_eq_bind, Option.bind_some]
  congr 1
  ext <;> simp <;> ring

lemma length_smul (c : ℝ) (v : V3 ℝ) : length (c • v) = |c| * length v := by
  rw [length_eq, length_eq, ← Real.sqrt_sq_eq_abs, ← Real.sqrt_mul (sq_nonneg c)]
  congr 1
  simp only [V3.dot, V3.smul_x, V3.smul_y, V3.smul_z]
  ring

lemma aim_length {x y dist xf yf v : ℝ} (hd : 0 < dist) (hv : 0 ≤ v) :
    length ((v / √((xf - x) ^ 2 + (yf - y) ^ 2 + dist ^ 2)) • (⟨xf - x, yf - y, dist⟩ : V3 ℝ)) = v := by
  have hs := solid_pos_root hd (xf - x) (yf - y)
  have e : length (⟨xf - x, yf - y, dist⟩ : V3 ℝ) = √((xf - x) ^ 2 + (yf - y) ^ 2 + dist ^ 2) := by
    rw [length_eq]
    congr 1
    simp only [V3.dot]
    ring
  rw [length_smul, e, abs_of_nonneg (div_nonneg hv hs.le)]
  field_simp

lemma aim_through {x y dist xf yf v : ℝ} (hd : 0 < dist) (hv : 0 < v) (e : Event ℝ) (hr : e.r = ⟨x, y, 0⟩)
    (hve : e.v = (v / √((xf - x) ^ 2 + (yf - y) ^ 2 + dist ^ 2)) • (⟨xf - x, yf - y, dist⟩ : V3 ℝ)) : Through dist xf yf e := by
  have hs := solid_pos_root hd (xf - x) (yf - y)
  refine ⟨√((xf - x) ^ 2 + (yf - y) ^ 2 + dist ^ 2) / v, by positivity, ?_⟩
  rw [hr, hve]
  ext <;> simp <;> field_simp <;> ring

lemma in_rect {xw yh u1 u2 : ℝ} (hx : 0 < xw) (hy : 0 < yh) (h1 : 0 ≤ u1) (h2 : u1 ≤ 1) (h3 : 0 ≤ u2) (h4 : u2 ≤ 1) :
    InRect xw yh (-(xw * (2 * u1 - 1) / 2)) (-(yh * (2 * u2 - 1) / 2)) := by
  constructor <;> rw [abs_le] <;> constructor <;> nlinarith

lemma on_disk {R u1 u2 : ℝ} (h3 : 0 ≤ u2) (h4 : u2 ≤ 1) : (onDisk R u1 u2).1 ^ 2 + (onDisk R u1 u2).2 ^ 2 ≤ R ^ 2 := by
  unfold onDisk
  have := Real.sq_sqrt h3
  have h5 := Real.sin_sq_add_cos_sq (2 * Real.pi * u1)
  have e : (√u2 * R * Real.cos (2 * Real.pi * u1)) ^ 2 + (√u2 * R * Real.sin (2 * Real.pi * u1)) ^ 2 =
      √u2 ^ 2 * R ^ 2 * (Real.sin (2 * Real.pi * u1) ^ 2 + Real.cos (2 * Real.pi * u1) ^ 2) := by ring
  simp only
  rw [e, h5, this]
  nlinarith [sq_nonneg R]

/-- the mean over the square root of a random number -/
lemma mean_sqrt {g : ℝ → ℝ} (hg : Continuous g) (R : ℝ) (hR : 0 < R) :
    mean (fun u => g (√u * R)) = 2 / R ^ 2 * ∫ r in (0 : ℝ)..R, g r * r := by
  have h1 : ∫ s in (0 : ℝ)..1, g (√(s ^ 2) * R) * (2 * s) = ∫ u in (0 : ℝ)..1, g (√u * R) := by
    have := intervalIntegral.integral_comp_mul_deriv (a := 0) (b := 1) (f := fun s : ℝ => s ^ 2) (f' := fun s => 2 * s)
      (g := fun u => g (√u * R)) (fun x _ => by simpa using hasDerivAt_pow 2 x) (by fun_prop) (by fun_prop)
    simpa [Function.comp_def] using this
  have h2 : ∫ s in (0 : ℝ)..1, g (√(s ^ 2) * R) * (2 * s) = ∫ s in (0 : ℝ)..1, (2 / R) * (g (s * R) * (s * R)) := by
    apply intervalIntegral.integral_congr
    intro s hs
    rw [Set.uIcc_of_le zero_le_one] at hs
    simp only
    rw [Real.sqrt_sq hs.1]
    field_simp
  have h3 : ∫ s in (0 : ℝ)..1, (g (s * R) * (s * R)) = R⁻¹ * ∫ r in (0 : ℝ)..R, g r * r := by
    have := intervalIntegral.integral_comp_mul_right (a := 0) (b := 1) (fun r => g r * r) hR.ne'
    simpa using this
  unfold mean
  rw [← h1, h2, intervalIntegral.integral_const_mul, h3]
  field_simp

lemma mean_angle {g : ℝ → ℝ} : mean (fun u => g (2 * Real.pi * u)) = 1 / (2 * Real.pi) * ∫ x in (0 : ℝ)..2 * Real.pi, g x := by
  have := intervalIntegral.integral_comp_mul_left (a := 0) (b := 1) g (c := 2 * Real.pi) (by positivity)
  unfold mean
  rw [this]
  simp

lemma mean_pm (w : ℝ) (g : ℝ → ℝ) : mean (fun u => w * g (-(w * (2 * u - 1) / 2))) = ∫ X in (-(w / 2))..(w / 2), g X := by
  have := mean_affine (w / 2) (-(w / 2)) (fun x => -g x)
  rw [intervalIntegral.integral_neg, ← intervalIntegral.integral_symm] at this
  rw [← this]
  congr 1
  funext u
  rw [show w / 2 + u * (-(w / 2) - w / 2) = -(w * (2 * u - 1) / 2) by ring]
  ring

lemma maxwell_eq {T l : ℝ} : maxwell T l = 2 * (949 / T) ^ 2 * Real.exp (-(949 / T / l ^ 2)) / l ^ 5 := by
  unfold maxwell
  simp only
  rw [show -(949 / T) / (l * l) = -(949 / T / l ^ 2) by ring]
  ring

lemma maxwell_deriv (T : ℝ) {l : ℝ} (hl : l ≠ 0) : HasDerivAt (maxwellBelow T) (maxwell T l) l := by
  have h1 : HasDerivAt (fun l : ℝ => 949 / T / l ^ 2) (-(2 * (949 / T)) / l ^ 3) l := by
    have h := (hasDerivAt_const l (949 / T)).div (hasDerivAt_pow 2 l) (pow_ne_zero 2 hl)
    refine HasDerivAt.congr_deriv (f := fun l : ℝ => 949 / T / l ^ 2) h ?_
    simp only [zero_mul, zero_sub, Nat.cast_ofNat, Nat.reduceSub, pow_one]
    rw [div_eq_div_iff (by positivity) (by positivity)]
    ring
  have h2 := ((hasDerivAt_const l (1 : ℝ)).add h1).mul h1.neg.exp
  rw [maxwell_eq]
  refine HasDerivAt.congr_deriv (f := maxwellBelow T) h2 ?_
  simp only [Pi.add_apply, Pi.neg_apply]
  field_simp
  ring

lemma maxwell_integrable (T : ℝ) {a b : ℝ} (ha : 0 < a) (hb : 0 < b) : IntervalIntegrable (maxwell T) MeasureTheory.volume a b := by
  have hne : ∀ x ∈ Set.uIcc a b, x ≠ 0 := by
    intro x hx h0
    rw [h0] at hx
    have := (Set.mem_uIcc.1 hx)
    rcases this with h | h <;> linarith [h.1, h.2]
  apply ContinuousOn.intervalIntegrable
  have : maxwell T = fun l => 2 * (949 / T) ^ 2 * Real.exp (-(949 / T / l ^ 2)) / l ^ 5 := by
    funext l; exact maxwell_eq
  rw [this]
  apply ContinuousOn.div
  · apply ContinuousOn.mul continuousOn_const
    apply Real.continuous_exp.comp_continuousOn
    apply ContinuousOn.neg
    apply ContinuousOn.div continuousOn_const (by fun_prop)
    intro x hx
    exact pow_ne_zero 2 (hne x hx)
  · fun_prop
  · intro x hx
    exact pow_ne_zero 5 (hne x hx)

lemma maxwell_integral (T : ℝ) {a b : ℝ} (ha : 0 < a) (hb : 0 < b) :
    ∫ l in a..b, maxwell T l = maxwellBelow T b - maxwellBelow T a := by
  have hne : ∀ x ∈ Set.uIcc a b, x ≠ 0 := by
    intro x hx h0
    rw [h0] at hx
    have := (Set.mem_uIcc.1 hx)
    rcases this with h | h <;> linarith [h.1, h.2]
  exact intervalIntegral.integral_eq_sub_of_hasDerivAt (fun x hx => maxwell_deriv T (hne x hx)) (maxwell_integrable T ha hb)

end
end Verif.McSource
