import Verif.Spec.McPulse
import Verif.Spec.Sampling
import Verif.Lemmas.McSource
import Verif.Lemmas.McSample
/-! Lemmas for the pulsed sources of McStas. -/

namespace Verif.McPulse
open McStas Kinem McGuide McConst McSource Homog Sampling
noncomputable section
open Classical

lemma tail_ok (tau : ℝ) {u : ℝ} (hu : 0 ≤ u) : tail tau u = some (-tau * Real.log (1e-12 + u)) := by
  unfold tail logD
  rw [if_neg (by norm_num; linarith)]
  rfl

lemma rise_ok {n t tau : ℝ} (hn : n ≠ 1) (ht : 0 < tau) : rise n t tau = some (n / (n - 1) * (1 - Real.exp (-(n - 1) * t / tau))) := by
  unfold rise
  rw [divD_ok (sub_ne_zero.2 hn), divD_ok ht.ne']
  rfl

lemma second_ok {I2 w chi2 l : ℝ} (hl : 0 < l) : second I2 w chi2 l = some (w * epithermal I2 chi2 l) := by
  unfold second epithermal
  rw [divD_ok hl.ne']
  congr 1
  ring

lemma exp_tail {tau u : ℝ} (ht : 0 < tau) (hu : 0 ≤ u) : Real.exp (-(-tau * Real.log (1e-12 + u)) / tau) = 1e-12 + u := by
  have : -(-tau * Real.log (1e-12 + u)) / tau = Real.log (1e-12 + u) := by field_simp
  rw [this, Real.exp_log (by norm_num; linarith)]

lemma exp_split {n t tau : ℝ} : Real.exp (-n * t / tau) = Real.exp (-t / tau) * Real.exp (-(n - 1) * t / tau) := by
  rw [← Real.exp_add]
  congr 1
  ring

lemma tail_deriv (tau : ℝ) {u : ℝ} (hu : 0 ≤ u) : HasDerivAt (fun u : ℝ => -tau * Real.log (1e-12 + u)) (-tau * (1 / (1e-12 + u))) u := by
  have hp : (1e-12 : ℝ) + u ≠ 0 := by norm_num; linarith
  have := (((hasDerivAt_id u).const_add (1e-12 : ℝ)).log hp).const_mul (-tau)
  simpa using this

/-- the mean over the time of the tail -/
lemma tail_counts {tau n : ℝ} (ht : 0 < tau) (hn : n ≠ 1) {f : ℝ → ℝ} (hf : Continuous f) :
    mean (fun u => n / (n - 1) * (1 - Real.exp (-(n - 1) * (-tau * Real.log (1e-12 + u)) / tau)) * f (-tau * Real.log (1e-12 + u))) =
      counts tau (fun t => shortPulse t tau n) f := by
  have hn' : n - 1 ≠ 0 := sub_ne_zero.2 hn
  have hmem : ∀ x ∈ Set.uIcc (0 : ℝ) 1, 0 ≤ x := by
    intro x hx
    rw [Set.uIcc_of_le (by norm_num)] at hx
    exact hx.1
  have hcont : ContinuousOn (fun u : ℝ => -tau * (1 / (1e-12 + u))) (Set.uIcc 0 1) := by
    refine continuousOn_const.mul (continuousOn_const.div (by fun_prop) fun x hx => ?_)
    have := hmem x hx
    norm_num
    linarith
  have hg : Continuous fun t => shortPulse t tau n * f t := by
    unfold shortPulse
    fun_prop
  have key := intervalIntegral.integral_comp_mul_deriv (a := (0 : ℝ)) (b := 1) (fun x hx => tail_deriv tau (hmem x hx)) hcont hg
  unfold counts mean
  rw [show -(tau * Real.log (1 + 1e-12)) = -tau * Real.log (1e-12 + 1) by rw [add_comm]; ring,
    show -(tau * Real.log 1e-12) = -tau * Real.log (1e-12 + 0) by rw [add_zero]; ring, intervalIntegral.integral_symm (-tau * Real.log (1e-12 + 0)), ← key,
    ← intervalIntegral.integral_neg]
  refine intervalIntegral.integral_congr fun u hu => ?_
  have h0 := hmem u hu
  have hp : (1e-12 : ℝ) + u ≠ 0 := by norm_num; linarith
  simp only [Function.comp, shortPulse]
  rw [exp_split (n := n), exp_tail ht h0]
  generalize Real.exp (-(n - 1) * (-tau * Real.log (1e-12 + u)) / tau) = E
  field_simp

lemma pulse_place {size low high dist xw yh : ℝ} (hd : 0 < dist) (hx : 0 < xw) (hy : 0 < yh) (hlow : 0 < low) (hl : low ≤ high)
    {u1 u2 u3 u4 u5 : ℝ} (h5 : 0 ≤ u5) : ∃ v, place size low high dist xw yh u1 u2 u3 u4 u5 =
      some (⟨0.5 * size * (2 * u1 - 1), 0.5 * size * (2 * u2 - 1), 0⟩, v, low + (high - low) * u5,
        xw * yh * solid dist 0 0 (-(xw * (2 * u3 - 1) / 2)) (-(yh * (2 * u4 - 1) / 2))) ∧
      ∀ e : Event ℝ, e.r = ⟨0.5 * size * (2 * u1 - 1), 0.5 * size * (2 * u2 - 1), 0⟩ → e.v = v →
        Through dist (-(xw * (2 * u3 - 1) / 2)) (-(yh * (2 * u4 - 1) / 2)) e ∧ Wave e (low + (high - low) * u5) := by
  have hpos : 0 < low + (high - low) * u5 := by nlinarith
  have hv0 : 0 < K2V * (2 * Real.pi / (low + (high - low) * u5)) := mul_pos (by norm_num [K2V]) (by positivity)
  unfold place
  simp only [target_eq hd hx hy, divD, hpos.ne', if_false, Option.bind_eq_bind, Option.bind_some, aim_eq hd]
  refine ⟨_, rfl, fun e hr hv => ⟨aim_through hd hv0 e hr hv, hpos, ?_⟩⟩
  rw [hv]
  exact aim_length hd hv0.le

lemma in_square {size u1 u2 : ℝ} (hs : 0 ≤ size) (h1 : 0 ≤ u1 ∧ u1 ≤ 1) (h2 : 0 ≤ u2 ∧ u2 ≤ 1) :
    InRect size size (0.5 * size * (2 * u1 - 1)) (0.5 * size * (2 * u2 - 1)) := by
  constructor <;> rw [abs_le] <;> constructor <;> norm_num <;> nlinarith [h1.1, h1.2, h2.1, h2.2]

/-- the mean over the frames of the short source -/
lemma Short.frame_mean {c : Short} (hf : c.freq ≠ 0) (h0 : 0 < c.branchframe) (h1 : c.branchframe ≤ 1) (t p : ℝ) (f : ℝ → ℝ) :
    mean2 (fun u9 u10 => observe (fun x : ℝ × ℝ => x.2 * f x.1) (c.frame t p u9 u10)) = p * frames c.branchframe (1 / c.freq) f t := by
  unfold mean2 frames
  rcases h1.lt_or_eq with hlt | heq
  · have hne : 1 - c.branchframe ≠ 0 := by linarith
    rw [McSample.mean_two h0.le h1 (p / c.branchframe * f t) (p * (2 / (1 - c.branchframe)) * ((f (t + 1 / c.freq) + f (t - 1 / c.freq)) / 2))]
    · rw [if_pos hlt]
      field_simp
    · intro u _ hu
      rw [← mean_const (p / c.branchframe * f t)]
      congr 1
      funext v
      beta_reduce
      unfold Short.frame
      rw [if_pos ⟨h0, hu.le⟩]
      rfl
    · intro u hu _
      rw [McSample.mean_two (a := 0.5) (by norm_num) (by norm_num) (p * (2 / (1 - c.branchframe)) * f (t + 1 / c.freq))
        (p * (2 / (1 - c.branchframe)) * f (t - 1 / c.freq))]
      · norm_num
        ring
      · intro v _ hv
        beta_reduce
        unfold Short.frame
        rw [if_neg (fun h => absurd h.2 hu.not_ge), divD_ok hf, divD_ok hne]
        simp only [Option.bind_eq_bind, Option.bind_some, observe, if_pos hv]
      · intro v hv _
        beta_reduce
        unfold Short.frame
        rw [if_neg (fun h => absurd h.2 hu.not_ge), divD_ok hf, divD_ok hne]
        simp only [Option.bind_eq_bind, Option.bind_some, observe, if_neg hv.not_gt]
  · rw [if_neg (by rw [heq]; exact lt_irrefl _), add_zero, ← mean_const (p * f t)]
    refine mean_congr fun u _ hu => ?_
    rw [← mean_const (p * f t)]
    congr 1
    funext v
    show observe _ (c.frame t p u v) = _
    unfold Short.frame
    rw [if_pos ⟨h0, by rw [heq]; exact hu.le⟩]
    simp only [observe, heq, div_one]

/-- the mean over the pulse of the short source -/
lemma Short.pulse_mean {c : Short} (hn : c.n ≠ 1) (hn2 : c.n2 ≠ 1) (ht : 0 < c.tau) (ht2 : 0 < c.tau2) {w l focus : ℝ} (hl : 0 < l)
    (hb2 : 0 < c.branch2 ∧ c.branch2 < 1) (hb1 : 0 < c.tau1 → 0 < c.branch1 ∧ c.branch1 < 1) {f : ℝ → ℝ} (hf : Continuous f) :
    mean3 (fun u6 u7 u8 => observe (fun x : ℝ × ℝ => x.2 * f x.1) (c.pulse w l focus u6 u7 u8)) =
      focus * w * (c.I0 * maxwell c.T l * (counts c.tau (fun t => shortPulse t c.tau c.n) f +
        if 0 < c.tau1 then counts c.tau1 (fun t => shortPulse t c.tau1 c.n) f else 0) +
        epithermal c.I2 c.chi2 l * counts (c.tau2 * l) (fun t => shortPulse t (c.tau2 * l) c.n2) f) := by
  have hb2' : 1 - c.branch2 ≠ 0 := by linarith [hb2.2]
  have key : ∀ {tau q : ℝ}, 0 < tau → ∀ {u6 u7 : ℝ}, u6 < c.branch2 → c.first u7 = some (tau, q) →
      mean (fun u8 => observe (fun x : ℝ × ℝ => x.2 * f x.1) (c.pulse w l focus u6 u7 u8)) =
        q * focus * (c.I0 * w * maxwell c.T l) * counts tau (fun t => shortPulse t tau c.n) f := by
    intro tau q htau u6 u7 h6 h7
    rw [← tail_counts htau hn hf, ← mean_mul]
    refine mean_congr fun u hu _ => ?_
    unfold Short.pulse
    rw [if_pos h6, h7]
    simp only [Option.bind_eq_bind, Option.bind_some, tail_ok tau hu.le, rise_ok hn htau, observe]
    ring
  unfold mean3
  rw [McSample.mean_two hb2.1.le hb2.2.le (1 / c.branch2 * focus * (c.I0 * w * maxwell c.T l) * (counts c.tau (fun t => shortPulse t c.tau c.n) f +
        if 0 < c.tau1 then counts c.tau1 (fun t => shortPulse t c.tau1 c.n) f else 0))
    (1 / (1 - c.branch2) * focus * (w * epithermal c.I2 c.chi2 l) * counts (c.tau2 * l) (fun t => shortPulse t (c.tau2 * l) c.n2) f)]
  · have := hb2.1.ne'
    field_simp
  · intro u6 _ h6
    by_cases h1 : 0 < c.tau1
    · obtain ⟨hb0, hb1⟩ := hb1 h1
      have hb1' : 1 - c.branch1 ≠ 0 := by linarith
      rw [if_pos h1, McSample.mean_two hb0.le hb1.le _ _ (fun u _ hu => key ht h6 (q := 1 / (c.branch1 * c.branch2)) ?_)
        (fun u hu _ => key h1 h6 (q := 1 / ((1 - c.branch1) * c.branch2)) ?_)]
      · have := hb2.1.ne'
        have := hb0.ne'
        field_simp
      · unfold Short.first
        rw [if_pos h1, if_pos hu, divD_ok (mul_pos hb0 hb2.1).ne']
        rfl
      · unfold Short.first
        rw [if_pos h1, if_neg hu.not_gt, divD_ok (mul_ne_zero hb1' hb2.1.ne')]
        rfl
    · rw [if_neg h1, add_zero, ← mean_const (1 / c.branch2 * focus * (c.I0 * w * maxwell c.T l) * _)]
      congr 1
      funext u
      refine key ht h6 ?_
      unfold Short.first
      rw [if_neg h1, divD_ok hb2.1.ne']
      rfl
  · intro u6 h6 _
    rw [← mean_const (1 / (1 - c.branch2) * focus * (w * epithermal c.I2 c.chi2 l) * _)]
    congr 1
    funext u7
    rw [← tail_counts (mul_pos ht2 hl) hn2 hf, ← mean_mul]
    refine mean_congr fun u hu _ => ?_
    beta_reduce
    unfold Short.pulse
    rw [if_neg h6.not_gt]
    simp only [Option.bind_eq_bind, Option.bind_some, tail_ok _ hu.le, rise_ok hn2 (mul_pos ht2 hl), observe, divD_ok hb2', second_ok hl]
    ring

/-! ### the long source -/

lemma build_ok {n t tau : ℝ} (hn : n ≠ 1) (hn0 : 0 < n) (ht : 0 < tau) :
    build n t tau = some (1 - n / (n - 1) * (Real.exp (-t / tau) - Real.exp (-n * t / tau) / n)) := by
  unfold build
  rw [divD_ok (sub_ne_zero.2 hn), divD_ok ht.ne', divD_ok ht.ne']
  simp only [Option.bind_eq_bind, Option.bind_some, divD_ok hn0.ne']

lemma fall_ok {n2 n d t tau : ℝ} (hn : n2 ≠ 1) (hn0 : 0 < n) (ht : 0 < tau) :
    fall n2 n d t tau = some (n2 / (n2 - 1) * ((1 - Real.exp (-d / tau)) - (1 - Real.exp (-n2 * d / tau)) * Real.exp (-(n2 - 1) * t / tau) / n)) := by
  unfold fall
  rw [divD_ok (sub_ne_zero.2 hn), divD_ok ht.ne', divD_ok ht.ne', divD_ok ht.ne']
  simp only [Option.bind_eq_bind, Option.bind_some, divD_ok hn0.ne']

lemma div_rate {t tau n : ℝ} : -t / (tau / n) = -n * t / tau := by
  rw [div_div_eq_mul_div]
  ring

lemma build_long {n t tau d : ℝ} (hn : n ≠ 1) (hn0 : 0 < n) (ht : 0 < tau) (h0 : 0 ≤ t) (hd : t < d) :
    longPulse t tau n d * d = 1 - n / (n - 1) * (Real.exp (-t / tau) - Real.exp (-n * t / tau) / n) := by
  have hn' : n - 1 ≠ 0 := sub_ne_zero.2 hn
  have hd' : d ≠ 0 := by linarith
  unfold longPulse iexp
  simp only [if_neg h0.not_gt, if_pos hd, div_rate]
  field_simp
  ring

lemma fall_long {n t tau d : ℝ} (hn : n ≠ 1) (hn0 : 0 < n) (ht : 0 < tau) (hd : 0 < d) (h0 : 0 ≤ t) :
    longPulse (t + d) tau n d * d = Real.exp (-t / tau) *
      (n / (n - 1) * ((1 - Real.exp (-d / tau)) - (1 - Real.exp (-n * d / tau)) * Real.exp (-(n - 1) * t / tau) / n)) := by
  have hn' : n - 1 ≠ 0 := sub_ne_zero.2 hn
  have hd' : d ≠ 0 := by linarith
  unfold longPulse iexp
  simp only [if_neg (show ¬ t + d < 0 by linarith), if_neg (show ¬ t + d < d by linarith), div_rate]
  have e1 : (Real.exp (d / tau) - 1) * Real.exp (-(t + d) / tau) = Real.exp (-t / tau) * (1 - Real.exp (-d / tau)) := by
    rw [sub_mul, ← Real.exp_add, mul_sub, ← Real.exp_add, one_mul, mul_one]
    congr 2 <;> ring
  have e2 : (Real.exp (d / (tau / n)) - 1) * Real.exp (-n * (t + d) / tau) =
      Real.exp (-t / tau) * Real.exp (-(n - 1) * t / tau) * (1 - Real.exp (-n * d / tau)) := by
    rw [← exp_split, sub_mul, ← Real.exp_add, mul_sub, ← Real.exp_add, one_mul, mul_one, div_div_eq_mul_div]
    congr 2 <;> ring
  rw [mul_assoc, mul_assoc, e1, e2]
  field_simp

end
end Verif.McPulse
