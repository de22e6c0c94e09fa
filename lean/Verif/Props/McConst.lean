import Verif.Model.McConst
import Mathlib.Tactic.Linarith
import Mathlib.Tactic.FieldSimp
import Mathlib.Tactic.Ring
import Mathlib.Tactic.NormNum
import Mathlib.Tactic.Positivity
/-! The units of the McStas components and of the other components. -/

namespace Verif.McConst
open Kinem McGuide
noncomputable section

/-- C186 (partial): the conversions of McStas are the inverse of each other up to 1e-5, and agree with those of the other components: the
energy (of `v2E`) of a neutron with the velocity that McStas gives for a wave vector differs by less than 4e-4 of the energy of that wave vector,
the energy of a neutron with the velocity that McStas gives for an energy by less than 1e-5.  Missing: equality (`C186_false`). -/
theorem C186_partial (k E : ℝ) (hE : 0 ≤ E) :
    |V2K * (K2V * k) - k| ≤ 1e-7 * |k| ∧ |VS2E * (SE2V * √E) ^ 2 - E| ≤ 1e-5 * E ∧
    |v2E (K2V * k) - k2E k| ≤ 4e-4 * k2E k ∧ |v2E (SE2V * √E) - E| ≤ 1e-5 * E ∧ ∀ v, |VS2E * v ^ 2 - v2E v| ≤ 1e-5 * v2E v := by
  have hs : √E ^ 2 = E := Real.sq_sqrt hE
  have hv : (5.227e-6 : ℝ) ≤ vsq2e ∧ vsq2e ≤ 5.22705e-6 := by
    unfold vsq2e
    constructor <;> norm_num
  have hk : (629.62 : ℝ) ≤ k2v ∧ k2v ≤ 629.622 := by
    unfold k2v
    constructor <;> norm_num
  refine ⟨?_, ?_, ?_, ?_, fun v => ?_⟩
  · unfold V2K K2V
    rw [show (1.58801e-3 : ℝ) * (629.719 * k) - k = (1.58801e-3 * 629.719 - 1) * k by ring, abs_mul]
    apply mul_le_mul_of_nonneg_right _ (abs_nonneg k)
    rw [abs_le]; norm_num
  · unfold VS2E SE2V
    rw [mul_pow, hs, show (5.227e-6 : ℝ) * (437.3949 ^ 2 * E) - E = (5.227e-6 * 437.3949 ^ 2 - 1) * E by ring, abs_mul, abs_of_nonneg hE]
    apply mul_le_mul_of_nonneg_right _ hE
    rw [abs_le]; norm_num
  · unfold v2E k2E ksquare2E vsquare2E K2V
    rw [show (629.719 * k * (629.719 * k) * vsq2e - k2v * k2v * (k * k) * vsq2e : ℝ) = (629.719 ^ 2 - k2v ^ 2) * (k ^ 2 * vsq2e) by ring,
      show (4e-4 * (k2v * k2v * (k * k) * vsq2e) : ℝ) = 4e-4 * k2v ^ 2 * (k ^ 2 * vsq2e) by ring, abs_mul,
      abs_of_nonneg (mul_nonneg (sq_nonneg k) (by linarith [hv.1]) : 0 ≤ k ^ 2 * vsq2e)]
    apply mul_le_mul_of_nonneg_right _ (mul_nonneg (sq_nonneg k) (by linarith [hv.1]))
    rw [abs_le]
    constructor <;> nlinarith [hk.1, hk.2]
  · unfold v2E SE2V
    rw [show (437.3949 * √E * (437.3949 * √E) * vsq2e - E : ℝ) = 437.3949 ^ 2 * vsq2e * √E ^ 2 - E by ring, hs,
      show (437.3949 ^ 2 * vsq2e * E - E : ℝ) = (437.3949 ^ 2 * vsq2e - 1) * E by ring, abs_mul, abs_of_nonneg hE]
    apply mul_le_mul_of_nonneg_right _ hE
    rw [abs_le]
    constructor <;> nlinarith [hv.1, hv.2]
  · unfold v2E VS2E
    rw [show (5.227e-6 * v ^ 2 - v * v * vsq2e : ℝ) = (5.227e-6 - vsq2e) * v ^ 2 by ring,
      show (1e-5 * (v * v * vsq2e) : ℝ) = 1e-5 * vsq2e * v ^ 2 by ring, abs_mul, abs_of_nonneg (sq_nonneg v)]
    apply mul_le_mul_of_nonneg_right _ (sq_nonneg v)
    rw [abs_le]
    constructor <;> nlinarith [hv.1, hv.2]

example : (0 : ℝ) ≤ 25 := by norm_num

/-- C186 is false as an equality: the energy of a neutron made by McStas for a wave vector is by more than 3e-4 too large -/
theorem C186_false (k : ℝ) (hk : k ≠ 0) : v2E (K2V * k) > (1 + 3e-4) * k2E k := by
  have hv : (0 : ℝ) < vsq2e := by unfold vsq2e; positivity
  have hk2 : (629.62 : ℝ) ≤ k2v ∧ k2v ≤ 629.622 := by
    unfold k2v
    constructor <;> norm_num
  unfold v2E k2E ksquare2E vsquare2E K2V
  have hp : 0 < k ^ 2 * vsq2e := by positivity
  have : (0 : ℝ) < (629.719 ^ 2 - (1 + 3e-4) * k2v ^ 2) * (k ^ 2 * vsq2e) := by
    apply mul_pos _ hp
    nlinarith [hk2.1, hk2.2]
  nlinarith

example : (2 : ℝ) ≠ 0 := by norm_num

end
end Verif.McConst
