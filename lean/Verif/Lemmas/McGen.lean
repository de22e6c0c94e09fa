import Verif.Spec.McGen
import Verif.Lemmas.McSource
import Verif.Lemmas.Frames
import Mathlib.Analysis.Real.Pi.Bounds
/-!
Lemmas for `Source_gen`.
-/

namespace Verif.McGen
open McStas Kinem McGuide McConst McSource Homog Solid Flight
noncomputable section
open Classical

lemma below_eq {a : ℝ} (ha : a ≠ 0) (l : ℝ) : below a l = maxwellBelow (949 / a) l := by
  unfold below maxwellBelow
  rw [show (949 : ℝ) / (949 / a) = a by field_simp]

/-- one Maxwell spectrum of the source -/
def one (I T l : ℝ) : ℝ := if 0 < T ∧ 0 < I then I * maxwell (949 / lambda02 T) l else 0

lemma lambda02_eq {T : ℝ} (hT : 0 < T) :
    lambda02 T = 1e20 * (hbar * hbar * 4 * Real.pi * Real.pi / 2 / mneutron / kB) / T := by
  unfold lambda02 lambdaT
  have h0 : 0 ≤ hbar * hbar * 4.0 * Real.pi * Real.pi / 2.0 / mneutron / kB / T := by
    have := Real.pi_pos
    unfold hbar mneutron kB
    positivity
  rw [mul_mul_mul_comm, Real.mul_self_sqrt h0]
  norm_num
  ring

lemma lambda02_pos {T : ℝ} (hT : 0 < T) : 0 < lambda02 T := by
  rw [lambda02_eq hT]
  have := Real.pi_pos
  unfold hbar mneutron kB
  positivity

lemma lambda02_near {T : ℝ} (hT : 0 < T) : |lambda02 T - 949 / T| ≤ 949 / T / 1000 := by
  rw [lambda02_eq hT]
  have h1 := Real.pi_gt_d4
  have h2 := Real.pi_lt_d4
  have key : |1e20 * (hbar * hbar * 4 * Real.pi * Real.pi / 2 / mneutron / kB) - 949| ≤ 949 / 1000 := by
    have e : 1e20 * (hbar * hbar * 4 * Real.pi * Real.pi / 2 / mneutron / kB) =
        1e20 * (hbar * hbar * 4 / 2 / mneutron / kB) * (Real.pi * Real.pi) := by ring
    rw [e]
    have l : 3.1415 * 3.1415 ≤ Real.pi * Real.pi := by nlinarith
    have u : Real.pi * Real.pi ≤ 3.1416 * 3.1416 := by nlinarith
    unfold hbar mneutron kB
    rw [abs_le]
    constructor <;> norm_num at l u ⊢ <;> linarith
  rw [← sub_div, abs_div, abs_of_pos hT, show (949 : ℝ) / T / 1000 = 949 / 1000 / T by ring]
  exact div_le_div_of_nonneg_right key hT.le

lemma one_term {I T : ℝ} (hT : 0 < T) {l : ℝ} (hl : 0 < l) :
    I * L2P T / (l * l * (l * l) * l) * Real.exp (-lambda02 T / (l * l)) = I * maxwell (949 / lambda02 T) l := by
  have h := lambda02_pos hT
  rw [maxwell_eq, show (949 : ℝ) / (949 / lambda02 T) = lambda02 T by field_simp]
  unfold L2P
  rw [show -lambda02 T / (l * l) = -(lambda02 T / l ^ 2) by ring]
  field_simp

lemma spectrum_eq (c : Gen) (hf : c.flux = none) (hT : 0 < c.T1) (hI : 0 < c.I1) {l : ℝ} (hl : 0 < l) :
    c.spectrum l = one c.I1 c.T1 l + one c.I2 c.T2 l + one c.I3 c.T3 l := by
  unfold Gen.spectrum one
  rw [hf]
  by_cases h2 : 0 < c.T2 ∧ 0 < c.I2 <;> by_cases h3 : 0 < c.T3 ∧ 0 < c.I3 <;>
    simp only [gt_iff_lt, hT, hI, and_self, if_true, h2, h3, if_false, one_term hT hl, add_zero] <;>
    first
    | simp only [one_term h2.1 hl, one_term h3.1 hl]
    | simp only [one_term h2.1 hl]
    | simp only [one_term h3.1 hl]

lemma one_integrable (I T : ℝ) {a b : ℝ} (ha : 0 < a) (hb : 0 < b) : IntervalIntegrable (one I T) MeasureTheory.volume a b := by
  by_cases h : 0 < T ∧ 0 < I
  · have : one I T = fun l => I * maxwell (949 / lambda02 T) l := by funext l; exact if_pos h
    rw [this]
    exact (maxwell_integrable _ ha hb).const_mul _
  · have : one I T = fun _ => 0 := by funext l; exact if_neg h
    rw [this]
    exact intervalIntegrable_const

lemma one_integral (I T : ℝ) {a b : ℝ} (ha : 0 < a) (hb : 0 < b) : ∫ l in a..b, one I T l = part I T (lambda02 T) a b := by
  unfold part
  by_cases h : 0 < T ∧ 0 < I
  · have : one I T = fun l => I * maxwell (949 / lambda02 T) l := by funext l; exact if_pos h
    have hl := (lambda02_pos h.1).ne'
    rw [this, if_pos h, intervalIntegral.integral_const_mul, maxwell_integral _ ha hb, below_eq hl, below_eq hl]
  · have : one I T = fun _ => 0 := by funext l; exact if_neg h
    rw [this, if_neg h]
    simp

lemma init_spec {c : Gen} {s : Ready} (h : c.init = .ok s) :
    ∃ L0 dL p, c.range = .ok (L0, dL) ∧ 0 ≤ dL ∧ dL ≤ L0 ∧ c.abs.pIn L0 dL = some p ∧ s = ⟨c.abs, L0, dL, p⟩ ∧
      ¬ (c.abs.radius = 0 ∧ c.abs.h = 0 ∧ c.abs.w = 0) ∧ 0 < c.abs.xw ∧ 0 < c.abs.yh := by
  unfold Gen.init at h
  cases hr : c.range with
  | error e => rw [hr] at h; cases h
  | ok q =>
    obtain ⟨L0, dL⟩ := q
    have hb : 0 ≤ dL ∧ dL ≤ L0 := by
      unfold Gen.range at hr
      simp only at hr
      split_ifs at hr <;> (cases hr; simp_all)
    rw [hr] at h
    simp only [bind, Except.bind] at h
    rw [abs_of_nonneg hb.1, abs_of_nonneg (hb.1.trans hb.2)] at h
    cases hp : c.abs.pIn L0 dL with
    | none => rw [hp] at h; cases h
    | some p =>
      rw [hp] at h
      simp only at h
      split_ifs at h with h1 h2
      cases h
      refine ⟨L0, dL, p, rfl, hb.1, hb.2, hp, rfl, h1, ?_, ?_⟩
      · exact lt_of_le_of_ne (abs_nonneg _) fun hc => h2 (by rw [← hc, zero_mul])
      · exact lt_of_le_of_ne (abs_nonneg _) fun hc => h2 (by rw [← hc, mul_zero])

lemma trace_eq {c : Gen} {L0 dL p : ℝ} (hverb : 0 ≤ c.verbose) (hd : 0 < c.dist) (hx : 0 < c.xw) (hy : 0 < c.yh) (e : Event ℝ)
    (u1 u2 u3 u4 u5 u6 : ℝ) (hl : 0 < L0 + dL * (2 * u6 - 1)) :
    (⟨c, L0, dL, p⟩ : Ready).trace e u1 u2 u3 u4 u5 u6 =
      .ok { e with
        r := c.point u1 u2 u3
        v := (K2V * (2 * Real.pi / (L0 + dL * (2 * u6 - 1))) / √((-(c.xw * (2 * u4 - 1) / 2) - (c.point u1 u2 u3).x) ^ 2 +
          (-(c.yh * (2 * u5 - 1) / 2) - (c.point u1 u2 u3).y) ^ 2 + c.dist ^ 2)) •
          (⟨-(c.xw * (2 * u4 - 1) / 2) - (c.point u1 u2 u3).x, -(c.yh * (2 * u5 - 1) / 2) - (c.point u1 u2 u3).y, c.dist⟩ : V3 ℝ)
        p := p * (c.xw * c.yh * solid c.dist 0 0 (-(c.xw * (2 * u4 - 1) / 2)) (-(c.yh * (2 * u5 - 1) / 2))) *
          c.spectrum (L0 + dL * (2 * u6 - 1)) } := by
  unfold Ready.trace Gen.aimAt
  simp only
  rw [if_pos hverb, if_pos hd, target_eq hd hx hy]
  simp only [bind, Except.bind]
  rw [if_neg (not_le.2 hl), aim_eq hd]

lemma trace_absorbed {c : Gen} {L0 dL p : ℝ} (hverb : 0 ≤ c.verbose) (hd : 0 < c.dist) (hx : 0 < c.xw) (hy : 0 < c.yh) (e : Event ℝ)
    (u1 u2 u3 u4 u5 u6 : ℝ) (hl : L0 + dL * (2 * u6 - 1) ≤ 0) :
    (⟨c, L0, dL, p⟩ : Ready).trace e u1 u2 u3 u4 u5 u6 = .ok { e with r := c.point u1 u2 u3, p := -1 } := by
  unfold Ready.trace Gen.aimAt
  simp only
  rw [if_pos hverb, if_pos hd, target_eq hd hx hy]
  simp only [bind, Except.bind]
  rw [if_pos hl]

end
end Verif.McGen
