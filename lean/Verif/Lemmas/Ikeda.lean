import Verif.Spec.Ikeda
import Verif.Lemmas.Kinem
import Mathlib.Tactic.Linarith
import Mathlib.Tactic.Ring
import Mathlib.Tactic.FieldSimp
import Mathlib.Tactic.Positivity
import Mathlib.Tactic.NormNum
import Mathlib.Analysis.SpecialFunctions.ExpDeriv
import Mathlib.Analysis.SpecialFunctions.Integrals.Basic
import Mathlib.MeasureTheory.Integral.IntervalIntegral.FundThmCalculus
import Mathlib.Analysis.Complex.ExponentialBounds
/-!
Lemmas for the moderators with an analytic pulse.
-/

namespace Verif.Ikeda
noncomputable section
open Classical MeasureTheory

/-- the density as a function of the time after the delay -/
def IC.core (c : IC) (t : ℝ) : ℝ :=
  0.5 * c.a * ((1 - c.R) * (c.a * t) ^ 2 * Real.exp (-c.a * t) + 2 * c.R * c.a * c.a * c.b / (c.a - c.b) ^ 3 *
    (Real.exp (-c.b * t) - Real.exp (-c.a * t) * (1 + (c.a - c.b) * t + 0.5 * (c.a - c.b) ^ 2 * t * t)))

lemma fsp_eq (c : IC) (t : ℝ) : c.fsp t = c.core (c.late t) := rfl

lemma late_nonneg (c : IC) (t : ℝ) : 0 ≤ c.late t := by
  unfold IC.late
  dsimp only
  split_ifs with h
  · exact le_rfl
  · linarith [not_lt.1 h]

lemma late_of_le {c : IC} {t : ℝ} (h : 10 * c.t0 ≤ t) : c.late t = t - 10 * c.t0 := by
  unfold IC.late
  dsimp only
  rw [if_neg (by linarith)]
  ring

lemma late_of_ge {c : IC} {t : ℝ} (h : t ≤ 10 * c.t0) : c.late t = 0 := by
  unfold IC.late
  dsimp only
  split_ifs with h1
  · rfl
  · linarith [not_lt.1 h1]

lemma late_eq_max (c : IC) (t : ℝ) : c.late t = max (t - 10 * c.t0) 0 := by
  rcases le_total (10 * c.t0) t with h | h
  · rw [late_of_le h, max_eq_left (by linarith)]
  · rw [late_of_ge h, max_eq_right (by linarith)]

lemma late_continuous (c : IC) : Continuous c.late := by
  have : c.late = fun t => max (t - 10 * c.t0) 0 := funext (late_eq_max c)
  rw [this]
  exact (continuous_id.sub continuous_const).max continuous_const

/-- proper parameters -/
structure Good (c : IC) : Prop where
  (a : 0 < c.a) (b : 0 < c.b) (ab : c.a ≠ c.b)

lemma Good.not_bad {c : IC} (h : Good c) : ¬ c.bad := by
  rintro (h1 | h1 | h1)
  · exact h.a.ne' h1
  · exact h.b.ne' h1
  · exact h.ab h1

lemma exp_deriv (k t : ℝ) : HasDerivAt (fun t => Real.exp (-k * t)) (-k * Real.exp (-k * t)) t := by
  have := ((hasDerivAt_id t).const_mul (-k)).exp
  simp only [mul_one] at this
  exact this.congr_deriv (mul_comm _ _)

lemma exp_continuous (k : ℝ) : Continuous fun t => Real.exp (-k * t) := by fun_prop

lemma core_continuous (c : IC) : Continuous c.core := by
  unfold IC.core
  fun_prop

lemma cum4_continuous (c : IC) : Continuous c.cum4 := by
  unfold IC.cum4 IC.gt
  fun_prop

lemma cum4_deriv {c : IC} (h : Good c) (t : ℝ) : HasDerivAt c.cum4 (c.core t) t := by
  have ha := h.a.ne'
  have hk : c.a - c.b ≠ 0 := sub_ne_zero.2 h.ab
  have e1 := exp_deriv c.a t
  have e2 := exp_deriv c.b t
  have g : HasDerivAt c.gt (c.a * (c.a * t) + c.a) t := by
    have h1 := (hasDerivAt_id t).const_mul c.a
    have := (((h1.pow 2).const_mul (0.5 : ℝ)).add h1).add_const (1 : ℝ)
    refine (this.congr_deriv ?_)
    simp
    ring
  have lin : HasDerivAt (fun t => 1 + c.lam * (c.a * t + 1) + c.lam * c.lam * c.gt t)
      (c.lam * c.a + c.lam * c.lam * (c.a * (c.a * t) + c.a)) t := by
    have h1 := ((((hasDerivAt_id t).const_mul c.a).add_const (1 : ℝ)).const_mul c.lam).const_add (1 : ℝ)
    refine ((h1.add (g.const_mul (c.lam * c.lam))).congr_deriv ?_)
    simp
  have A1 := ((g.mul e1).const_sub (1 : ℝ)).const_mul (1 - c.R)
  have A2 := (((e2.sub (((e1.mul_const c.b).div_const c.a).mul lin)).const_mul c.delta).const_sub (1 : ℝ)).const_mul c.R
  refine ((A1.add A2).congr_deriv ?_)
  unfold IC.core IC.delta IC.lam IC.gt
  have hh : (0.5 : ℝ) = 1 / 2 := by norm_num
  rw [hh]
  field_simp
  ring

lemma phi_eq {c : IC} (h : Good c) : c.delta * (1 - c.b / c.a * (1 + c.lam + c.lam * c.lam)) = 1 := by
  have ha := h.a.ne'
  have hk : c.a - c.b ≠ 0 := sub_ne_zero.2 h.ab
  unfold IC.delta IC.lam
  field_simp
  ring

lemma cum4_zero {c : IC} (h : Good c) : c.cum4 0 = 0 := by
  have e := phi_eq h
  unfold IC.cum4 IC.gt
  simp only [mul_zero, Real.exp_zero]
  have : c.delta * (1 - 1 * c.b / c.a * (1 + c.lam * (0 + 1) + c.lam * c.lam * (0.5 * 0 ^ 2 + 0 + 1))) =
      c.delta * (1 - c.b / c.a * (1 + c.lam + c.lam * c.lam)) := by ring
  rw [this, e]
  ring

lemma cumA_eq {c : IC} (h : Good c) (t : ℝ) : c.cumA t = c.cum4 (c.late t) := by
  have e := phi_eq h
  unfold IC.cumA IC.cum4
  dsimp only
  have : c.delta * (1 - Real.exp (-c.b * c.late t)) +
      c.delta * c.b / c.a * Real.exp (-c.a * c.late t) * (1 + c.lam * (c.a * c.late t + 1) + c.lam * c.lam * c.gt (c.late t)) -
      c.delta * c.b / c.a * (1 + c.lam + c.lam * c.lam) = c.delta * (1 - c.b / c.a * (1 + c.lam + c.lam * c.lam)) -
        c.delta * (Real.exp (-c.b * c.late t) - Real.exp (-c.a * c.late t) * c.b / c.a *
          (1 + c.lam * (c.a * c.late t + 1) + c.lam * c.lam * c.gt (c.late t))) := by ring
  rw [this, e]

lemma rest_eq (c : IC) (t : ℝ) : c.rest t = 1 - c.cum4 t := by
  unfold IC.rest IC.cum4
  ring

lemma core_zero (c : IC) : c.core 0 = 0 := by simp [IC.core]

/-- the difference in the storage term has the sign of `a - b` -/
lemma third_nonneg {x : ℝ} (hx : 0 ≤ x) : 1 + x + x ^ 2 / 2 ≤ Real.exp x := by
  have := Real.quadratic_le_exp_of_nonneg hx
  linarith

lemma third_nonpos {x : ℝ} (hx : x ≤ 0) : Real.exp x ≤ 1 + x + x ^ 2 / 2 := by
  -- the function 1 + x + x^2/2 - exp x decreases up to 0
  have hd : ∀ y : ℝ, HasDerivAt (fun y => 1 + y + y ^ 2 / 2 - Real.exp y) (1 + y - Real.exp y) y := by
    intro y
    have := (((hasDerivAt_id y).const_add (1 : ℝ)).add ((hasDerivAt_pow 2 y).div_const 2)).sub (Real.hasDerivAt_exp y)
    refine this.congr_deriv ?_
    simp
  have hanti : Antitone fun y : ℝ => 1 + y + y ^ 2 / 2 - Real.exp y := by
    apply antitone_of_deriv_nonpos
    · exact fun y => (hd y).differentiableAt
    · intro y
      rw [(hd y).deriv]
      linarith [Real.add_one_le_exp y]
  have := hanti hx
  simp at this
  linarith

lemma storage_nonneg {a b : ℝ} (hb : 0 < b) (hab : a ≠ b) {t : ℝ} (ht : 0 ≤ t) :
    0 ≤ b / (a - b) ^ 3 * (Real.exp (-b * t) - Real.exp (-a * t) * (1 + (a - b) * t + 0.5 * (a - b) ^ 2 * t * t)) := by
  have e : Real.exp (-b * t) = Real.exp (-a * t) * Real.exp ((a - b) * t) := by rw [← Real.exp_add]; ring_nf
  have : Real.exp (-b * t) - Real.exp (-a * t) * (1 + (a - b) * t + 0.5 * (a - b) ^ 2 * t * t) =
      Real.exp (-a * t) * (Real.exp ((a - b) * t) - (1 + (a - b) * t + ((a - b) * t) ^ 2 / 2)) := by
    rw [e]; ring
  rw [this]
  rcases lt_or_gt_of_ne hab with h | h
  · have h1 := third_nonpos (x := (a - b) * t) (by nlinarith)
    have h2 : (a - b) ^ 3 < 0 := by
      have : a - b < 0 := by linarith
      exact Odd.pow_neg (by decide) this
    have h3 : b / (a - b) ^ 3 ≤ 0 := div_nonpos_of_nonneg_of_nonpos hb.le h2.le
    apply mul_nonneg_of_nonpos_of_nonpos h3
    exact mul_nonpos_of_nonneg_of_nonpos (Real.exp_pos _).le (by linarith)
  · have h1 := third_nonneg (x := (a - b) * t) (by nlinarith)
    have h2 : 0 < a - b := by linarith
    have h4 : 0 ≤ Real.exp ((a - b) * t) - (1 + (a - b) * t + ((a - b) * t) ^ 2 / 2) := by linarith
    positivity

lemma core_eq (c : IC) (t : ℝ) : c.core t = (1 - c.R) * (c.a / 2 * (c.a * t) ^ 2 * Real.exp (-c.a * t)) + c.R * (c.a ^ 3 *
    (c.b / (c.a - c.b) ^ 3 * (Real.exp (-c.b * t) - Real.exp (-c.a * t) * (1 + (c.a - c.b) * t + 0.5 * (c.a - c.b) ^ 2 * t * t)))) := by
  unfold IC.core
  ring

lemma core_nonneg {c : IC} (h : Good c) (h0 : 0 ≤ c.R) (h1 : c.R ≤ 1) {t : ℝ} (ht : 0 ≤ t) : 0 ≤ c.core t := by
  rw [core_eq]
  have s := storage_nonneg h.b h.ab ht
  have ha := h.a
  have : 0 ≤ 1 - c.R := by linarith
  positivity

/-- the integral of the storage term -/
lemma stored_eq {a b : ℝ} (hab : a ≠ b) {t : ℝ} (ht : 0 ≤ t) : stored a b t = a ^ 3 *
    (b / (a - b) ^ 3 * (Real.exp (-b * t) - Real.exp (-a * t) * (1 + (a - b) * t + 0.5 * (a - b) ^ 2 * t * t))) := by
  have hk : a - b ≠ 0 := sub_ne_zero.2 hab
  have e1 : stored a b t = ∫ s in (0 : ℝ)..t, a ^ 3 * b / 2 * Real.exp (-b * t) * (s ^ 2 * Real.exp (-(a - b) * s)) := by
    unfold stored
    apply intervalIntegral.integral_congr
    intro s hs
    rw [Set.uIcc_of_le ht] at hs
    dsimp only
    unfold slow
    rw [if_neg (not_lt.2 hs.1)]
    have : Real.exp (-a * s) * Real.exp (-b * (t - s)) = Real.exp (-b * t) * Real.exp (-(a - b) * s) := by
      rw [← Real.exp_add, ← Real.exp_add]; ring_nf
    calc a / 2 * (a * s) ^ 2 * Real.exp (-a * s) * (b * Real.exp (-b * (t - s)))
        = a ^ 3 * b / 2 * s ^ 2 * (Real.exp (-a * s) * Real.exp (-b * (t - s))) := by ring
      _ = _ := by rw [this]; ring
  have hd : ∀ s : ℝ, HasDerivAt (fun s => -(Real.exp (-(a - b) * s)) * (s ^ 2 / (a - b) + 2 * s / (a - b) ^ 2 + 2 / (a - b) ^ 3))
      (s ^ 2 * Real.exp (-(a - b) * s)) s := by
    intro s
    have p : HasDerivAt (fun s : ℝ => s ^ 2 / (a - b) + 2 * s / (a - b) ^ 2 + 2 / (a - b) ^ 3) (2 * s / (a - b) + 2 / (a - b) ^ 2) s := by
      have := (((hasDerivAt_pow 2 s).div_const (a - b)).add (((hasDerivAt_id s).const_mul (2 : ℝ)).div_const ((a - b) ^ 2))).add_const
        (2 / (a - b) ^ 3)
      refine this.congr_deriv ?_
      simp
    refine (((exp_deriv (a - b) s).neg.mul p).congr_deriv ?_)
    simp only [Pi.neg_apply]
    field_simp
    ring
  have e2 : ∫ s in (0 : ℝ)..t, s ^ 2 * Real.exp (-(a - b) * s) = _ :=
    intervalIntegral.integral_eq_sub_of_hasDerivAt (fun s _ => hd s) (by apply Continuous.intervalIntegrable; fun_prop)
  rw [e1, intervalIntegral.integral_const_mul, e2]
  have : Real.exp (-a * t) = Real.exp (-b * t) * Real.exp (-(a - b) * t) := by rw [← Real.exp_add]; ring_nf
  rw [this]
  simp only [mul_zero, Real.exp_zero]
  have hh : (0.5 : ℝ) = 1 / 2 := by norm_num
  rw [hh]
  field_simp
  ring

lemma pulse_eq {c : IC} (h : Good c) (t : ℝ) : pulse c.a c.b c.R c.t0 t = c.core (c.late t) := by
  unfold pulse
  split_ifs with h1
  · rw [late_of_ge h1.le, core_zero]
  · have h2 := not_lt.1 h1
    rw [late_of_le h2, core_eq, stored_eq h.ab (by linarith)]
    unfold slow
    rw [if_neg (by linarith)]

/-- integral of a function of the time after the delay -/
lemma integral_late (c : IC) {K k : ℝ → ℝ} (hK : ∀ t, HasDerivAt K (k t) t) (hk : Continuous k) (k0 : k 0 = 0) (t1 t2 : ℝ) :
    ∫ t in t1..t2, k (c.late t) = K (c.late t2) - K (c.late t1) := by
  apply intervalIntegral.integral_eq_sub_of_hasDeriv_right (f := fun t => K (c.late t))
  · have : Continuous K := continuous_iff_continuousAt.2 fun t => (hK t).continuousAt
    exact (this.comp (late_continuous c)).continuousOn
  · intro x _
    rcases lt_or_ge x (10 * c.t0) with hx | hx
    · rw [late_of_ge hx.le, k0]
      apply HasDerivAt.hasDerivWithinAt
      have : (fun _ : ℝ => K 0) =ᶠ[nhds x] fun t => K (c.late t) := by
        filter_upwards [Iio_mem_nhds hx] with y hy
        rw [late_of_ge (le_of_lt hy)]
      exact (hasDerivAt_const x (K 0)).congr_of_eventuallyEq this.symm
    · rw [late_of_le hx]
      have h1 : HasDerivAt (fun t => K (t - 10 * c.t0)) (k (x - 10 * c.t0)) x := by
        have := (hK (x - 10 * c.t0)).comp x ((hasDerivAt_id x).sub_const (10 * c.t0))
        simp only [mul_one] at this
        exact this
      refine h1.hasDerivWithinAt.congr (fun y hy => ?_) ?_
      · rw [late_of_le (hx.trans (le_of_lt hy))]
      · rw [late_of_le hx]
  · exact (hk.comp (late_continuous c)).intervalIntegrable _ _

lemma part_pulse {c : IC} (h : Good c) (t1 t2 : ℝ) : part (pulse c.a c.b c.R c.t0) t1 t2 = c.cumA t2 - c.cumA t1 := by
  unfold part
  rw [cumA_eq h, cumA_eq h, ← integral_late c (cum4_deriv h) (core_continuous c) (core_zero c)]
  exact intervalIntegral.integral_congr fun t _ => pulse_eq h t

lemma late_late (c : IC) (t : ℝ) {T : ℝ} (hT : 0 ≤ T) : (if c.late t - T < 0 then 0 else c.late t - T) = c.late (t - T) := by
  rw [late_eq_max, late_eq_max]
  split_ifs with h
  · rcases le_total (t - 10 * c.t0) 0 with h1 | h1
    · rw [max_eq_right (by linarith)]
    · rw [max_eq_left h1] at h
      rw [max_eq_right (by linarith)]
  · have h2 := not_lt.1 h
    rcases le_total (t - 10 * c.t0) 0 with h1 | h1
    · rw [max_eq_right h1] at h2 ⊢
      rw [max_eq_right (by linarith)]
      linarith
    · rw [max_eq_left h1] at h2 ⊢
      rw [max_eq_left (by linarith)]
      ring

lemma flp_eq (c : IC) (t : ℝ) {T : ℝ} (hT : 0 ≤ T) : c.flp t T = (c.cum4 (c.late t) - c.cum4 (c.late (t - T))) / T := by
  unfold IC.flp
  dsimp only
  rw [late_late c t hT, rest_eq, rest_eq]
  ring

lemma long_eq {c : IC} (h : Good c) (t T : ℝ) :
    long c.a c.b c.R c.t0 T t = (c.cum4 (c.late t) - c.cum4 (c.late (t - T))) / T := by
  unfold long
  rw [intervalIntegral.integral_comp_sub_left (fun s => pulse c.a c.b c.R c.t0 s) t, sub_zero]
  have := part_pulse h (t - T) t
  unfold part at this
  rw [this, cumA_eq h, cumA_eq h]

/-- the double integral with the linear part -/
def IC.dbl (c : IC) (t : ℝ) : ℝ :=
  t + ((1 - c.R) * (c.gamma t / c.a * Real.exp (-c.a * t)) + c.R * (c.delta / c.b * Real.exp (-c.b * t)) -
    c.R * (c.delta * c.b / c.a / c.a * (1 + 2 * c.lam + c.lam * c.a * t + c.lam * c.lam * c.gamma t) * Real.exp (-c.a * t)))

lemma intintA_eq (c : IC) (t T : ℝ) : c.intintA t T = (c.dbl (c.late t) - c.late t) / T := by
  unfold IC.intintA IC.dbl
  ring

lemma dbl_deriv {c : IC} (h : Good c) (t : ℝ) : HasDerivAt c.dbl (c.cum4 t) t := by
  have ha := h.a.ne'
  have hb := h.b.ne'
  have hk : c.a - c.b ≠ 0 := sub_ne_zero.2 h.ab
  have e1 := exp_deriv c.a t
  have e2 := exp_deriv c.b t
  have g : HasDerivAt c.gamma (c.a * (c.a * t) + 2 * c.a) t := by
    have h1 := (hasDerivAt_id t).const_mul c.a
    have h2 := (hasDerivAt_id t).const_mul (2 * c.a)
    have := (((h1.pow 2).const_mul (0.5 : ℝ)).add h2).add_const (3 : ℝ)
    refine (this.congr_deriv ?_)
    simp
    ring
  have lin : HasDerivAt (fun t => 1 + 2 * c.lam + c.lam * c.a * t + c.lam * c.lam * c.gamma t)
      (c.lam * c.a + c.lam * c.lam * (c.a * (c.a * t) + 2 * c.a)) t := by
    have h1 := (((hasDerivAt_id t).const_mul (c.lam * c.a)).const_add (1 + 2 * c.lam))
    refine ((h1.add (g.const_mul (c.lam * c.lam))).congr_deriv ?_)
    simp
  have A1 := ((g.div_const c.a).mul e1).const_mul (1 - c.R)
  have A2 := (e2.const_mul (c.delta / c.b)).const_mul c.R
  have A3 := ((lin.const_mul (c.delta * c.b / c.a / c.a)).mul e1).const_mul c.R
  refine (((hasDerivAt_id t).add ((A1.add A2).sub A3)).congr_deriv ?_)
  unfold IC.cum4 IC.gt IC.delta IC.lam IC.gamma
  have hh : (0.5 : ℝ) = 1 / 2 := by norm_num
  rw [hh]
  field_simp
  ring

lemma cumLp_eq {c : IC} (h : Good c) (h0 : 0 ≤ c.t0) {T : ℝ} (hT : 0 < T) (t : ℝ) :
    c.cumLp t T = (c.dbl (c.late t) - c.dbl (c.late (t - T))) / T := by
  unfold IC.cumLp
  dsimp only
  have hphi : (1 - c.R) + c.R * c.delta * (1 - c.b / c.a * (1 + c.lam + c.lam * c.lam)) = 1 := by
    rw [mul_assoc, phi_eq h]; ring
  rw [hphi, intintA_eq, intintA_eq, intintA_eq]
  have e := late_late c t hT.le
  split_ifs with h1
  · rw [if_pos (by linarith)] at e
    rw [← e, late_of_ge (t := 0) (by linarith)]
    ring
  · rw [if_neg (by linarith)] at e
    rw [← e]
    field_simp
    ring

lemma cum4_comp_continuous (c : IC) : Continuous fun t => c.cum4 (c.late t) := (cum4_continuous c).comp (late_continuous c)

lemma part_long {c : IC} (h : Good c) (h0 : 0 ≤ c.t0) {T : ℝ} (hT : 0 < T) (t1 t2 : ℝ) :
    part (long c.a c.b c.R c.t0 T) t1 t2 = c.cumLp t2 T - c.cumLp t1 T := by
  have e : part (long c.a c.b c.R c.t0 T) t1 t2 = ∫ t in t1..t2, (c.cum4 (c.late t) - c.cum4 (c.late (t - T))) / T := by
    unfold part
    exact intervalIntegral.integral_congr fun t _ => long_eq h t T
  have i1 : IntervalIntegrable (fun t => c.cum4 (c.late t)) volume t1 t2 := (cum4_comp_continuous c).intervalIntegrable _ _
  have i2 : IntervalIntegrable (fun t => c.cum4 (c.late (t - T))) volume t1 t2 :=
    ((cum4_comp_continuous c).comp (continuous_id.sub continuous_const)).intervalIntegrable _ _
  have e2 : ∫ t in t1..t2, c.cum4 (c.late (t - T)) = ∫ t in t1 - T..t2 - T, c.cum4 (c.late t) :=
    intervalIntegral.integral_comp_sub_right (fun t => c.cum4 (c.late t)) T
  rw [e, intervalIntegral.integral_div, intervalIntegral.integral_sub i1 i2, e2,
    integral_late c (dbl_deriv h) (cum4_continuous c) (cum4_zero h), integral_late c (dbl_deriv h) (cum4_continuous c) (cum4_zero h),
    cumLp_eq h h0 hT, cumLp_eq h h0 hT]
  ring

lemma cumLp_start {c : IC} (h : Good c) (h0 : 0 ≤ c.t0) {T : ℝ} (hT : 0 < T) : c.cumLp (10 * c.t0) T = 0 := by
  rw [cumLp_eq h h0 hT, late_of_ge le_rfl, late_of_ge (by linarith)]
  simp

lemma cum4_mono {c : IC} (h : Good c) (h0 : 0 ≤ c.R) (h1 : c.R ≤ 1) : MonotoneOn c.cum4 (Set.Ici 0) := by
  apply monotoneOn_of_deriv_nonneg (convex_Ici 0) (cum4_continuous c).continuousOn
  · exact fun t _ => (cum4_deriv h t).differentiableAt.differentiableWithinAt
  · intro t ht
    rw [interior_Ici] at ht
    rw [(cum4_deriv h t).deriv]
    exact core_nonneg h h0 h1 (le_of_lt ht)

lemma late_mono (c : IC) : Monotone c.late := by
  intro x y hxy
  rw [late_eq_max, late_eq_max]
  exact max_le_max (by linarith) le_rfl

lemma long_nonneg {c : IC} (h : Good c) (h0 : 0 ≤ c.R) (h1 : c.R ≤ 1) (t : ℝ) {T : ℝ} (hT : 0 < T) : 0 ≤ long c.a c.b c.R c.t0 T t := by
  rw [long_eq h]
  apply div_nonneg _ hT.le
  have := cum4_mono h h0 h1 (late_nonneg c (t - T)) (late_nonneg c t) (late_mono c (by linarith : t - T ≤ t))
  linarith

/-- what the loop returns -/
lemma search_ok {F : ℝ → ℝ} {eps acc r : ℝ} {check : ℕ → ℝ → Turn} (hc : ∀ n d, check n d = .leave → |d| ≤ acc) (he : eps ≤ acc)
    {fp0 : ℝ} (hfp : 0 < fp0) :
    ∀ (k n : ℕ) (tm fm tp fp t : ℝ), tm ≤ tp → fm ≤ r → r ≤ fp → (fm = 0 ∨ fm < r) → (fp = fp0 ∨ r < fp) →
      search F eps r check k n tm fm tp fp = .ok t → tm ≤ t ∧ t ≤ tp ∧ |F t - r| ≤ acc := by
  intro k
  induction k with
  | zero => intro n tm fm tp fp t _ _ _ _ _ h; simp [search] at h
  | succ k ih =>
    intro n tm fm tp fp t h1 h2 h3 h4 h5 h
    unfold search at h
    have hlt : fm < fp := by
      rcases h4 with h4 | h4
      · rcases h5 with h5 | h5
        · rw [h4, h5]; exact hfp
        · linarith
      · linarith
    rw [if_neg (fun hh => hlt.ne' hh.2)] at h
    dsimp only at h
    set s : ℝ := if n + 1 < 10 then 0.5 * (tp + tm) else tm + (tp - tm) / (fp - fm) * (r - fm) with hs
    have hsr : tm ≤ s ∧ s ≤ tp := by
      rw [hs]
      split_ifs with hn
      · constructor <;> norm_num <;> linarith
      · have hpos : 0 < fp - fm := by linarith
        constructor
        · have : 0 ≤ (tp - tm) / (fp - fm) * (r - fm) := mul_nonneg (div_nonneg (by linarith) hpos.le) (by linarith)
          linarith
        · have : (tp - tm) / (fp - fm) * (r - fm) ≤ tp - tm := by
            rw [div_mul_eq_mul_div, div_le_iff₀ hpos]
            exact mul_le_mul_of_nonneg_left (by linarith) (by linarith)
          linarith
    cases hck : check (n + 1) (F s - r) with
    | abort => rw [hck] at h; simp at h
    | leave =>
      rw [hck] at h
      simp only [Except.ok.injEq] at h
      rw [← h]
      exact ⟨hsr.1, hsr.2, hc _ _ hck⟩
    | go =>
      rw [hck] at h
      dsimp only at h
      by_cases hd : eps < |F s - r|
      · rw [if_pos hd] at h
        by_cases hl : F s < r
        · rw [if_pos hl] at h
          obtain ⟨a1, a2, a3⟩ := ih _ _ _ _ _ _ hsr.2 hl.le h3 (Or.inr hl) h5 h
          exact ⟨hsr.1.trans a1, a2, a3⟩
        · rw [if_neg hl] at h
          by_cases hg : r < F s
          · rw [if_pos hg] at h
            obtain ⟨a1, a2, a3⟩ := ih _ _ _ _ _ _ hsr.1 h2 hg.le h4 (Or.inr hg) h
            exact ⟨a1, a2.trans hsr.2, a3⟩
          · rw [if_neg hg] at h
            exact ih _ _ _ _ _ _ h1 h2 h3 h4 h5 h
      · rw [if_neg hd] at h
        simp only [Except.ok.injEq] at h
        rw [← h]
        exact ⟨hsr.1, hsr.2, (not_lt.1 hd).trans he⟩

/-- a number that is the value in the middle is found at once -/
lemma search_first (F : ℝ → ℝ) {eps : ℝ} (he : 0 ≤ eps) {check : ℕ → ℝ → Turn} (hc : ∀ d, check 1 d = .go) (k : ℕ) (tm fm tp fp : ℝ) :
    search F eps (F (0.5 * (tp + tm))) check (k + 1) 0 tm fm tp fp = .ok (0.5 * (tp + tm)) := by
  unfold search
  rw [if_neg (by simp)]
  dsimp only
  rw [if_pos (by norm_num), hc]
  dsimp only
  rw [if_neg (by simpa using he)]

/-! ### the search with a wrong value at the end of the range -/

/-- a pulse without storage -/
def plain : IC := ⟨1, 2, 0, 0⟩

lemma plain_good : Good plain := ⟨by norm_num [plain], by norm_num [plain], by norm_num [plain]⟩

lemma plain_cum (t : ℝ) : plain.cum4 t = 1 - (0.5 * t ^ 2 + t + 1) * Real.exp (-t) := by
  unfold IC.cum4 IC.gt plain
  simp

lemma plain_core (t : ℝ) : plain.core t = 0.5 * t ^ 2 * Real.exp (-t) := by
  unfold IC.core plain
  simp
  ring

lemma exp_neg_one : (0.36787 : ℝ) < Real.exp (-1) ∧ Real.exp (-1) < 0.36789 := by
  have h1 := Real.exp_one_gt_d9
  have h2 := Real.exp_one_lt_d9
  rw [Real.exp_neg]
  constructor
  · rw [lt_inv_comm₀ (by norm_num) (Real.exp_pos _)]
    refine h2.trans ?_
    norm_num
  · rw [inv_lt_comm₀ (Real.exp_pos _) (by norm_num)]
    refine lt_trans ?_ h1
    norm_num

lemma plain_one : (0.0802 : ℝ) < plain.cum4 1 ∧ plain.cum4 1 < 0.0804 := by
  rw [plain_cum]
  have := exp_neg_one
  constructor <;> norm_num <;> linarith

/-- the loss of the distribution function near the end -/
lemma plain_loss {g : ℝ} (h0 : 0 ≤ g) (h1 : g ≤ 1 / 2) :
    g * (Real.exp (-1) / 8) ≤ plain.cum4 1 - plain.cum4 (1 - g) ∧ plain.cum4 1 - plain.cum4 (1 - g) ≤ g * (Real.exp (-1) / 2) := by
  have hint : ∫ t in (1 - g)..1, plain.core t = plain.cum4 1 - plain.cum4 (1 - g) :=
    intervalIntegral.integral_eq_sub_of_hasDerivAt (fun t _ => cum4_deriv plain_good t) ((core_continuous _).intervalIntegrable _ _)
  have hle : 1 - g ≤ 1 := by linarith
  have hc : ∀ k : ℝ, ∫ _ in (1 - g)..1, k = g * k := by
    intro k
    rw [intervalIntegral.integral_const, smul_eq_mul]
    ring
  rw [← hint]
  constructor
  · rw [← hc]
    apply intervalIntegral.integral_mono_on hle (by simp) ((core_continuous _).intervalIntegrable _ _)
    intro t ht
    rw [plain_core]
    have h2 : 1 / 2 ≤ t := by linarith [ht.1]
    have h3 : Real.exp (-1) ≤ Real.exp (-t) := Real.exp_le_exp.2 (by linarith [ht.2])
    have h4 : (1 / 2) ^ 2 ≤ t ^ 2 := by gcongr
    have h5 := Real.exp_pos (-1)
    calc Real.exp (-1) / 8 = 0.5 * (1 / 2) ^ 2 * Real.exp (-1) := by norm_num; ring
      _ ≤ 0.5 * t ^ 2 * Real.exp (-t) := by gcongr
  · rw [← hc]
    apply intervalIntegral.integral_mono_on hle ((core_continuous _).intervalIntegrable _ _) (by simp)
    intro t ht
    rw [plain_core]
    have h2 : 0 ≤ t := by linarith [ht.1]
    have h3 : t ≤ Real.exp (t - 1) := by linarith [Real.add_one_le_exp (t - 1)]
    have h4 : t ^ 2 ≤ Real.exp (t - 1) := by
      have : Real.exp (t - 1) ≤ 1 := Real.exp_le_one_iff.2 (by linarith [ht.2])
      nlinarith [Real.exp_pos (t - 1), ht.2]
    have e : Real.exp (t - 1) * Real.exp (-t) = Real.exp (-1) := by rw [← Real.exp_add]; ring_nf
    calc 0.5 * t ^ 2 * Real.exp (-t) ≤ 0.5 * Real.exp (t - 1) * Real.exp (-t) := by gcongr
      _ = 0.5 * (Real.exp (t - 1) * Real.exp (-t)) := by ring
      _ = Real.exp (-1) / 2 := by rw [e]; norm_num; ring

/-- the normalised function -/
def plainF (t : ℝ) : ℝ := (plain.cum4 t - plain.cum4 0) * (1 / (plain.cum4 1 - plain.cum4 0))

lemma plainF_bounds {g : ℝ} (h0 : 0 ≤ g) (h1 : g ≤ 1 / 2) : 1 - 2.3 * g ≤ plainF (1 - g) ∧ plainF (1 - g) ≤ 1 - 0.57 * g := by
  obtain ⟨a1, a2⟩ := plain_loss h0 h1
  obtain ⟨b1, b2⟩ := plain_one
  obtain ⟨c1, c2⟩ := exp_neg_one
  unfold plainF
  rw [cum4_zero plain_good, sub_zero, sub_zero, mul_one_div]
  have hp : 0 < plain.cum4 1 := by linarith
  constructor
  · rw [le_div_iff₀ hp]
    nlinarith
  · rw [div_le_iff₀ hp]
    nlinarith

lemma abort_step_bisect {g : ℝ} (h0 : 1 / 512 ≤ g) (h1 : g ≤ 1 / 2) (k n : ℕ) (hn : n + 1 < 10) (fm fp : ℝ) :
    search plainF 1e-4 0.9999 check4 (k + 1) n (1 - 2 * g) fm 1 fp = search plainF 1e-4 0.9999 check4 k (n + 1) (1 - g) (plainF (1 - g)) 1 fp := by
  have hb := (plainF_bounds (by linarith) h1).2
  have hlt : plainF (1 - g) < 0.9999 - 1e-4 := by
    have : (0.57 : ℝ) * (1 / 512) ≤ 0.57 * g := by gcongr
    norm_num at this ⊢
    linarith
  conv_lhs => unfold search
  rw [if_neg (fun hh => hh.1 hn)]
  dsimp only
  rw [if_pos hn, show (0.5 : ℝ) * (1 + (1 - 2 * g)) = 1 - g by ring]
  unfold check4
  rw [if_pos (by omega)]
  dsimp only
  rw [if_pos (by rw [abs_of_neg (by linarith)]; linarith), if_pos (by linarith)]

lemma abort_tail (fp : ℝ) (hfp : fp < 0.0804) : ∀ (m k n : ℕ) (g : ℝ), n + m = 49 → 9 ≤ n → m < k → 1 / 512 ≤ g → g * 1.011 ^ m ≤ 1 / 250 →
    search plainF 1e-4 0.9999 check4 k n (1 - g) (plainF (1 - g)) 1 fp = .error .cppException := by
  intro m
  induction m with
  | zero =>
    intro k n g h1 h2 h3 h4 h5
    obtain ⟨k, rfl⟩ : ∃ j, k = j + 1 := ⟨k - 1, by omega⟩
    have hb := (plainF_bounds (g := g) (by linarith) (by norm_num at h5; linarith)).1
    unfold search
    rw [if_neg (fun hh => by norm_num at h5; linarith [hh.2])]
    dsimp only
    unfold check4
    rw [if_neg (by omega)]
  | succ m ih =>
    intro k n g h1 h2 h3 h4 h5
    obtain ⟨k, rfl⟩ : ∃ j, k = j + 1 := ⟨k - 1, by omega⟩
    have hg : g ≤ 1 / 250 := by
      have : (1 : ℝ) ≤ 1.011 ^ (m + 1) := one_le_pow₀ (by norm_num)
      nlinarith
    obtain ⟨hb1, hb2⟩ := plainF_bounds (g := g) (by linarith) (by linarith)
    have hfm : plainF (1 - g) < 0.9999 := by norm_num at hb2 ⊢; linarith
    set fm := plainF (1 - g) with hfm'
    have hden : 0.91 ≤ fm - fp := by norm_num at hb1 hfp ⊢; linarith
    have hden0 : 0 < fm - fp := by linarith
    set q := (0.9999 - fm) / (fm - fp) with hq
    have hq0 : 0 ≤ q := div_nonneg (by linarith) hden0.le
    have hq1 : q ≤ 0.011 := by
      rw [hq, div_le_iff₀ hden0]
      norm_num at hb1 hden ⊢
      linarith
    have ht : (1 - g) + (1 - (1 - g)) / (fp - fm) * (0.9999 - fm) = 1 - g * (1 + q) := by
      rw [hq]
      have h6 : fp - fm ≠ 0 := by linarith
      have h7 : fm - fp ≠ 0 := hden0.ne'
      have h8 : (1 - (1 - g)) / (fp - fm) = -(g / (fm - fp)) := by
        rw [show fp - fm = -(fm - fp) by ring, div_neg]
        ring
      rw [h8]
      ring
    have hg0 : 0 ≤ g := by linarith
    have hg1 : g ≤ g * (1 + q) := by nlinarith
    have hg2 : g * (1 + q) ≤ g * 1.011 := by
      apply mul_le_mul_of_nonneg_left _ hg0
      norm_num at hq1 ⊢
      linarith
    have hg3 : g * (1 + q) * 1.011 ^ m ≤ 1 / 250 := by
      calc g * (1 + q) * 1.011 ^ m ≤ g * 1.011 * 1.011 ^ m := by gcongr
        _ = g * 1.011 ^ (m + 1) := by ring
        _ ≤ _ := h5
    have hg4 : g * (1 + q) ≤ 1 / 2 := by norm_num at hg2; linarith
    have hb3 := (plainF_bounds (g := g * (1 + q)) (by linarith) hg4).2
    have hlt : plainF (1 - g * (1 + q)) < 0.9999 - 1e-4 := by
      have : (0.57 : ℝ) * (1 / 512) ≤ 0.57 * (g * (1 + q)) := by gcongr; linarith
      norm_num at this ⊢
      linarith
    conv_lhs => unfold search
    rw [if_neg (fun hh => by linarith [hh.2])]
    dsimp only
    rw [if_neg (by omega), ht]
    unfold check4
    rw [if_pos (by omega)]
    dsimp only
    rw [if_pos (by rw [abs_of_neg (by linarith)]; linarith), if_pos (by linarith)]
    exact ih k (n + 1) (g * (1 + q)) (by omega) (by omega) (by omega) (by linarith) hg3

lemma abort_all : search plainF 1e-4 0.9999 check4 52 0 0 0 1 (plain.cum4 1) = .error .cppException := by
  have s1 := abort_step_bisect (g := 1 / 2) (by norm_num) (by norm_num) 51 0 (by norm_num) 0 (plain.cum4 1)
  have s2 := abort_step_bisect (g := 1 / 4) (by norm_num) (by norm_num) 50 1 (by norm_num) (plainF (1 - 1 / 2)) (plain.cum4 1)
  have s3 := abort_step_bisect (g := 1 / 8) (by norm_num) (by norm_num) 49 2 (by norm_num) (plainF (1 - 1 / 4)) (plain.cum4 1)
  have s4 := abort_step_bisect (g := 1 / 16) (by norm_num) (by norm_num) 48 3 (by norm_num) (plainF (1 - 1 / 8)) (plain.cum4 1)
  have s5 := abort_step_bisect (g := 1 / 32) (by norm_num) (by norm_num) 47 4 (by norm_num) (plainF (1 - 1 / 16)) (plain.cum4 1)
  have s6 := abort_step_bisect (g := 1 / 64) (by norm_num) (by norm_num) 46 5 (by norm_num) (plainF (1 - 1 / 32)) (plain.cum4 1)
  have s7 := abort_step_bisect (g := 1 / 128) (by norm_num) (by norm_num) 45 6 (by norm_num) (plainF (1 - 1 / 64)) (plain.cum4 1)
  have s8 := abort_step_bisect (g := 1 / 256) (by norm_num) (by norm_num) 44 7 (by norm_num) (plainF (1 - 1 / 128)) (plain.cum4 1)
  have s9 := abort_step_bisect (g := 1 / 512) (by norm_num) (by norm_num) 43 8 (by norm_num) (plainF (1 - 1 / 256)) (plain.cum4 1)
  rw [show (1 : ℝ) - 2 * (1 / 2) = 0 by norm_num] at s1
  rw [show (1 : ℝ) - 2 * (1 / 4) = 1 - 1 / 2 by norm_num] at s2
  rw [show (1 : ℝ) - 2 * (1 / 8) = 1 - 1 / 4 by norm_num] at s3
  rw [show (1 : ℝ) - 2 * (1 / 16) = 1 - 1 / 8 by norm_num] at s4
  rw [show (1 : ℝ) - 2 * (1 / 32) = 1 - 1 / 16 by norm_num] at s5
  rw [show (1 : ℝ) - 2 * (1 / 64) = 1 - 1 / 32 by norm_num] at s6
  rw [show (1 : ℝ) - 2 * (1 / 128) = 1 - 1 / 64 by norm_num] at s7
  rw [show (1 : ℝ) - 2 * (1 / 256) = 1 - 1 / 128 by norm_num] at s8
  rw [show (1 : ℝ) - 2 * (1 / 512) = 1 - 1 / 256 by norm_num] at s9
  rw [s1, s2, s3, s4, s5, s6, s7, s8, s9]
  exact abort_tail _ plain_one.2 40 43 9 (1 / 512) (by norm_num) (by norm_num) (by norm_num) le_rfl (by norm_num)

/-! ### the energy -/

/-- proper parameters of the spectrum -/
structure Proper (q : Spectrum) : Prop where
  (Ecut : 0 < q.Ecut) (T1 : 0 < q.T1) (T2 : 0 < q.T2) (T3 : 0 < q.T3)

lemma value_continuous {q : Spectrum} (h : Proper q) : ContinuousOn q.value (Set.Ioi 0) := by
  have hx : ∀ E : ℝ, (if 2 * (7.36e-3 : ℝ) < E then q.g * (E - 2 * 7.36e-3) else 0) = q.g * max (E - 2 * 7.36e-3) 0 := by
    intro E
    split_ifs with h1
    · rw [max_eq_left (by linarith)]
    · rw [max_eq_right (by linarith)]; simp
  intro E hE
  have hE' : (0 : ℝ) < E := hE
  apply ContinuousAt.continuousWithinAt
  unfold Spectrum.value
  simp only [hx]
  have hid : ContinuousAt (fun E : ℝ => E) E := continuousAt_id
  have e1 : ContinuousAt (fun E : ℝ => 1 / (1 + (q.Ecut / E) ^ q.s)) E := by
    have hp : 0 < (q.Ecut / E) ^ q.s := Real.rpow_pos_of_pos (div_pos h.Ecut hE') _
    refine continuousAt_const.div (continuousAt_const.add ((continuousAt_const.div hid hE'.ne').rpow_const ?_)) (by linarith)
    exact Or.inl (div_pos h.Ecut hE').ne'
  have e2 : ContinuousAt (fun E : ℝ => q.g * max (E - 2 * 7.36e-3) 0) E := by fun_prop
  have e3 : ContinuousAt (fun E : ℝ => E ^ (1 - q.a)) E := hid.rpow_const (Or.inl hE'.ne')
  have e4 : ContinuousAt (fun E : ℝ => √E) E := Real.continuous_sqrt.continuousAt
  have e5 : ContinuousAt (fun E : ℝ => (E / (8.617e-5 * q.T3)) ^ q.b) E := by
    refine (hid.div_const _).rpow_const (Or.inl ?_)
    have := h.T3
    positivity
  have hE1 : E ^ (1 - q.a) ≠ 0 := (Real.rpow_pos_of_pos hE' _).ne'
  have hE2 : √E ≠ 0 := (Real.sqrt_pos.2 hE').ne'
  have f1 : ContinuousAt (fun E : ℝ => Real.exp (-q.c / √E)) E := (continuousAt_const.div e4 hE2).rexp
  have f2 : ContinuousAt (fun E : ℝ => Real.exp (-(E / (8.617e-5 * q.T3)) ^ q.b)) E := e5.neg.rexp
  have f3 : ContinuousAt (fun E : ℝ => 1 + q.delta * Real.exp (-(q.g * max (E - 2 * 7.36e-3) 0)) *
      (1 + q.g * max (E - 2 * 7.36e-3) 0 + 0.5 * (q.g * max (E - 2 * 7.36e-3) 0) * (q.g * max (E - 2 * 7.36e-3) 0))) E := by
    fun_prop
  have f4 : ContinuousAt (fun E : ℝ => q.R1 * E / (8.617e-5 * q.T1) ^ 2 * Real.exp (-E / (8.617e-5 * q.T1))) E := by fun_prop
  have f5 : ContinuousAt (fun E : ℝ => q.R2 * E / (8.617e-5 * q.T2) ^ 2 * Real.exp (-E / (8.617e-5 * q.T2))) E := by fun_prop
  have f6 : ContinuousAt (fun E : ℝ => q.R3 * E / (8.617e-5 * q.T3) ^ 2) E := by fun_prop
  exact (continuousAt_const.mul f1).mul (((f4.add f5).add (f6.mul f2)).add ((e1.mul f3).div e3 hE1))

lemma mean_subst {φ φ' G : ℝ → ℝ} {lo hi : ℝ} (hφ : ∀ u ∈ Set.Icc (0 : ℝ) 1, HasDerivAt φ (φ' u) u) (hc : ContinuousOn φ' (Set.Icc 0 1))
    (hr : ∀ u ∈ Set.Icc (0 : ℝ) 1, φ u ∈ Set.Icc lo hi) (hG : ContinuousOn G (Set.Icc lo hi)) :
    Homog.mean (fun u => φ' u * G (φ u)) = ∫ x in φ 0..φ 1, G x := by
  have h01 : Set.uIcc (0 : ℝ) 1 = Set.Icc 0 1 := Set.uIcc_of_le zero_le_one
  have := intervalIntegral.integral_comp_mul_deriv'' (a := 0) (b := 1) (f := φ) (f' := φ') (g := G)
    (by rw [h01]; exact fun u hu => (hφ u hu).continuousAt.continuousWithinAt)
    (fun u hu => (hφ u (by rw [min_eq_left zero_le_one, max_eq_right zero_le_one] at hu; exact ⟨hu.1.le, hu.2.le⟩)).hasDerivWithinAt)
    (by rw [h01]; exact hc)
    (by
      rw [h01]
      apply hG.mono
      rintro _ ⟨u, hu, rfl⟩
      exact hr u hu)
  unfold Homog.mean
  rw [← this]
  apply intervalIntegral.integral_congr
  intro u _
  simp [Function.comp, mul_comm]

variable {g : Cfg}

/-- uniform energies -/
lemma mean_energy (g : Cfg) (G : ℝ → ℝ) :
    Homog.mean (fun u => (g.Emax - g.Emin) * 1e-3 * (g.byEnergy u).2 * G (g.byEnergy u).1) = ∫ E in g.Emin * 1e-3..g.Emax * 1e-3, G E := by
  rw [← Verif.Kinem.mean_affine]
  congr 1
  funext u
  unfold Cfg.byEnergy
  dsimp only
  rw [show (g.Emin + (g.Emax - g.Emin) * u) * 1e-3 = g.Emin * 1e-3 + u * (g.Emax * 1e-3 - g.Emin * 1e-3) by ring]
  ring

lemma byEnergy_mem (h : g.Emin < g.Emax) {u : ℝ} (hu : u ∈ Set.Icc (0 : ℝ) 1) :
    (g.byEnergy u).1 ∈ Set.Icc (g.Emin * 1e-3) (g.Emax * 1e-3) := by
  unfold Cfg.byEnergy
  have h1 : 0 ≤ (g.Emax - g.Emin) * u := mul_nonneg (by linarith) hu.1
  have h2 : (g.Emax - g.Emin) * u ≤ (g.Emax - g.Emin) := by nlinarith [hu.2]
  constructor
  · apply mul_le_mul_of_nonneg_right _ (by norm_num); linarith
  · apply mul_le_mul_of_nonneg_right _ (by norm_num); linarith

lemma byLethargy_mem (h0 : 0 < g.Emin) (h : g.Emin < g.Emax) {u : ℝ} (hu : u ∈ Set.Icc (0 : ℝ) 1) :
    (g.byLethargy u).1 ∈ Set.Icc (g.Emin * 1e-3) (g.Emax * 1e-3) := by
  unfold Cfg.byLethargy
  have hl := Real.log_lt_log h0 h
  have h1 : 0 ≤ (Real.log g.Emax - Real.log g.Emin) * u := mul_nonneg (by linarith) hu.1
  have h2 : (Real.log g.Emax - Real.log g.Emin) * u ≤ Real.log g.Emax - Real.log g.Emin := by nlinarith [hu.2]
  constructor
  · apply mul_le_mul_of_nonneg_right _ (by norm_num)
    rw [← Real.log_le_iff_le_exp h0]; linarith
  · apply mul_le_mul_of_nonneg_right _ (by norm_num)
    rw [← Real.le_log_iff_exp_le (by linarith)]; linarith

lemma mean_lethargy (h0 : 0 < g.Emin) (h : g.Emin < g.Emax) {G : ℝ → ℝ} (hG : ContinuousOn G (Set.Icc (g.Emin * 1e-3) (g.Emax * 1e-3))) :
    Homog.mean (fun u => (g.Emax - g.Emin) * 1e-3 * (g.byLethargy u).2 * G (g.byLethargy u).1) = ∫ E in g.Emin * 1e-3..g.Emax * 1e-3, G E := by
  have hE : g.Emax - g.Emin ≠ 0 := by linarith
  set L := Real.log g.Emax - Real.log g.Emin with hL
  have hCU : (g.Emax - g.Emin) * 1e-3 * g.CU = L := by
    unfold Cfg.CU
    rw [Real.log_mul (by linarith) (by norm_num), Real.log_mul (by linarith) (by norm_num)]
    rw [show Real.log g.Emax + Real.log 1e-3 - (Real.log g.Emin + Real.log 1e-3) = L by rw [hL]; ring]
    rw [show (g.Emax - g.Emin) * 1e-3 * (L / (g.Emax - g.Emin) * 1e3) = (g.Emax - g.Emin) * (L / (g.Emax - g.Emin)) * (1e-3 * 1e3) by ring,
      mul_div_cancel₀ _ hE]
    norm_num
  set φ : ℝ → ℝ := fun u => (g.byLethargy u).1 with hφ
  have hd : ∀ u, HasDerivAt φ (L * φ u) u := by
    intro u
    have h1 := (((hasDerivAt_id u).const_mul L).const_add (Real.log g.Emin)).exp.mul_const (1e-3 : ℝ)
    have e : φ = fun x => Real.exp (Real.log g.Emin + L * id x) * 1e-3 := by
      funext x
      simp [hφ, Cfg.byLethargy, hL]
    rw [e]
    refine h1.congr_deriv ?_
    simp
    ring
  have hcont : Continuous φ := continuous_iff_continuousAt.2 fun u => (hd u).continuousAt
  have hm := mean_subst (φ := φ) (φ' := fun u => L * φ u) (G := G) (fun u _ => hd u) (continuous_const.mul hcont).continuousOn
    (fun u hu => byLethargy_mem h0 h hu) hG
  have e0 : φ 0 = g.Emin * 1e-3 := by simp [hφ, Cfg.byLethargy, Real.exp_log h0]
  have e1 : φ 1 = g.Emax * 1e-3 := by simp [hφ, Cfg.byLethargy, Real.exp_log (h0.trans h)]
  rw [e0, e1] at hm
  rw [← hm]
  congr 1
  funext u
  have : (g.byLethargy u).2 = g.CU * φ u := by simp [hφ, Cfg.byLethargy]
  rw [this, ← mul_assoc, hCU]

/-- the inverse square root of the energy of `byLambda` -/
lemma lambda_root (h0 : 0 < g.Emin) (h : g.Emin < g.Emax) {u : ℝ} (hu : u ∈ Set.Icc (0 : ℝ) 1) :
    0 < 1 / √g.Emin - 1 / √g.Emax ∧ 1 / √g.Emax ≤ 1 / √g.Emax + (1 / √g.Emin - 1 / √g.Emax) * u ∧
    1 / √g.Emax + (1 / √g.Emin - 1 / √g.Emax) * u ≤ 1 / √g.Emin := by
  have hs : 0 < √g.Emin := Real.sqrt_pos.2 h0
  have hlt : √g.Emin < √g.Emax := Real.sqrt_lt_sqrt h0.le h
  have h1 : 1 / √g.Emax < 1 / √g.Emin := one_div_lt_one_div_of_lt hs hlt
  refine ⟨by linarith, ?_, ?_⟩
  · nlinarith [hu.1]
  · nlinarith [hu.2]

lemma byLambda_mem (h0 : 0 < g.Emin) (h : g.Emin < g.Emax) {u : ℝ} (hu : u ∈ Set.Icc (0 : ℝ) 1) :
    (g.byLambda u).1 ∈ Set.Icc (g.Emin * 1e-3) (g.Emax * 1e-3) := by
  obtain ⟨h1, h2, h3⟩ := lambda_root h0 h hu
  have hs : 0 < √g.Emin := Real.sqrt_pos.2 h0
  have hs2 : 0 < √g.Emax := Real.sqrt_pos.2 (h0.trans h)
  unfold Cfg.byLambda
  dsimp only
  set w := 1 / √g.Emax + (1 / √g.Emin - 1 / √g.Emax) * u
  have hw : 0 < w := lt_of_lt_of_le (by positivity) h2
  constructor
  · apply mul_le_mul_of_nonneg_right _ (by norm_num)
    have : √g.Emin ≤ 1 / w := by
      rw [le_div_iff₀ hw]
      calc √g.Emin * w ≤ √g.Emin * (1 / √g.Emin) := by gcongr
        _ = 1 := by field_simp
    calc g.Emin = √g.Emin ^ 2 := (Real.sq_sqrt h0.le).symm
      _ ≤ (1 / w) ^ 2 := by gcongr
  · apply mul_le_mul_of_nonneg_right _ (by norm_num)
    have : 1 / w ≤ √g.Emax := by
      rw [div_le_iff₀ hw]
      calc (1 : ℝ) = √g.Emax * (1 / √g.Emax) := by field_simp
        _ ≤ √g.Emax * w := by gcongr
    calc (1 / w) ^ 2 ≤ √g.Emax ^ 2 := by gcongr
      _ = g.Emax := Real.sq_sqrt (h0.trans h).le

lemma mean_lambda (h0 : 0 < g.Emin) (h : g.Emin < g.Emax) {G : ℝ → ℝ} (hG : ContinuousOn G (Set.Icc (g.Emin * 1e-3) (g.Emax * 1e-3))) :
    Homog.mean (fun u => (g.Emax - g.Emin) * 1e-3 * (g.byLambda u).2 * G (g.byLambda u).1) = ∫ E in g.Emin * 1e-3..g.Emax * 1e-3, G E := by
  have hE : g.Emax - g.Emin ≠ 0 := by linarith
  have hs : 0 < √g.Emin := Real.sqrt_pos.2 h0
  have hs2 : 0 < √g.Emax := Real.sqrt_pos.2 (h0.trans h)
  set β := 1 / √g.Emin - 1 / √g.Emax with hβ
  set w : ℝ → ℝ := fun u => 1 / √g.Emax + β * u with hw
  have hk : 0 < √(1e-3 : ℝ) := Real.sqrt_pos.2 (by norm_num)
  have hCL : (g.Emax - g.Emin) * 1e-3 * g.CL = β / √(1e-3 : ℝ) := by
    unfold Cfg.CL
    rw [Real.sqrt_mul h0.le, Real.sqrt_mul (h0.trans h).le,
      show (g.Emax - g.Emin) * 1e-3 * ((1 / (√g.Emin * √1e-3) - 1 / (√g.Emax * √1e-3)) / (g.Emax - g.Emin) * 1e3) =
        (g.Emax - g.Emin) * ((1 / (√g.Emin * √1e-3) - 1 / (√g.Emax * √1e-3)) / (g.Emax - g.Emin)) * (1e-3 * 1e3) by ring,
      mul_div_cancel₀ _ hE, hβ]
    rw [show (1e-3 : ℝ) * 1e3 = 1 by norm_num, mul_one]
    field_simp
  have hwpos : ∀ u ∈ Set.Icc (0 : ℝ) 1, 0 < w u := fun u hu => lt_of_lt_of_le (by positivity) (lambda_root h0 h hu).2.1
  set φ : ℝ → ℝ := fun u => (g.byLambda u).1 with hφ
  have eφ : φ = fun u => (1 / w u) ^ 2 * 1e-3 := by
    funext u
    simp [hφ, Cfg.byLambda, hw, hβ]
  set φ' : ℝ → ℝ := fun u => -(2 * β * (1 / w u) ^ 3 * 1e-3) with hφ'
  have hd : ∀ u ∈ Set.Icc (0 : ℝ) 1, HasDerivAt φ (φ' u) u := by
    intro u hu
    have hne := (hwpos u hu).ne'
    have h1 : HasDerivAt w β u := by
      have := ((hasDerivAt_id u).const_mul β).const_add (1 / √g.Emax)
      exact this.congr_deriv (mul_one _)
    have h2 := ((h1.inv hne).pow 2).mul_const (1e-3 : ℝ)
    rw [eφ]
    have e : (fun u => (1 / w u) ^ 2 * (1e-3 : ℝ)) = fun u => (w⁻¹ u) ^ 2 * 1e-3 := by
      funext u; simp
    rw [e]
    refine h2.congr_deriv ?_
    simp only [hφ', Pi.inv_apply]
    rw [show (2 - 1 : ℕ) = 1 from rfl, pow_one, ← one_div]
    push_cast
    field_simp
  have hwc : Continuous w := continuous_const.add (continuous_const.mul continuous_id)
  have hc : ContinuousOn φ' (Set.Icc 0 1) := by
    refine ContinuousOn.neg (((continuousOn_const).mul ?_).mul continuousOn_const)
    refine ContinuousOn.pow (ContinuousOn.div continuousOn_const hwc.continuousOn ?_) 3
    exact fun u hu => (hwpos u hu).ne'
  have hm := mean_subst hd hc (fun u hu => byLambda_mem h0 h hu) hG
  have e0 : φ 0 = g.Emax * 1e-3 := by
    rw [eφ]
    simp only [hw, mul_zero, add_zero, one_div, inv_inv]
    rw [Real.sq_sqrt (h0.trans h).le]
  have e1 : φ 1 = g.Emin * 1e-3 := by
    rw [eφ]
    simp only [hw, hβ, mul_one, add_sub_cancel, one_div, inv_inv]
    rw [Real.sq_sqrt h0.le]
  rw [e0, e1] at hm
  rw [intervalIntegral.integral_symm, ← hm]
  unfold Homog.mean
  rw [← intervalIntegral.integral_neg]
  apply intervalIntegral.integral_congr
  intro u hu
  rw [Set.uIcc_of_le zero_le_one] at hu
  dsimp only
  have hp : (g.byLambda u).2 = g.CL * 2 * (φ u) ^ (1.5 : ℝ) := by simp [hφ, Cfg.byLambda]
  have hw1 : 0 < 1 / w u := by have := hwpos u hu; positivity
  have e15 : (φ u) ^ (1.5 : ℝ) = (1 / w u) ^ 3 * (1e-3 * √1e-3) := by
    rw [eφ]
    dsimp only
    rw [Real.mul_rpow (by positivity) (by norm_num), ← Real.rpow_natCast, ← Real.rpow_mul hw1.le,
      show ((2 : ℕ) : ℝ) * 1.5 = ((3 : ℕ) : ℝ) by norm_num, Real.rpow_natCast, show (1.5 : ℝ) = 1 + 1 / 2 by norm_num,
      Real.rpow_add (by norm_num), Real.rpow_one, Real.sqrt_eq_rpow]
  rw [hp, e15, show (g.Emax - g.Emin) * 1e-3 * (g.CL * 2 * ((1 / w u) ^ 3 * (1e-3 * √1e-3))) =
    ((g.Emax - g.Emin) * 1e-3 * g.CL) * 2 * ((1 / w u) ^ 3 * (1e-3 * √1e-3)) by ring, hCL]
  simp only [hφ', show (g.byLambda u).1 = φ u from rfl]
  field_simp

/-- the sum with a constant spectrum -/
lemma totalLoop_one (du : ℝ) : ∀ (n : ℕ) (u E0 s : ℝ), totalLoop (fun _ => 1) du (n + 1) u E0 1 s = s + (Real.exp (u + n * du) - E0) := by
  intro n
  induction n with
  | zero =>
    intro u E0 s
    simp [totalLoop]
    norm_num
    ring
  | succ n ih =>
    intro u E0 s
    unfold totalLoop
    dsimp only
    rw [ih]
    push_cast
    rw [show u + du + (n : ℝ) * du = u + ((n : ℝ) + 1) * du by ring]
    norm_num
    ring

lemma total_one (h1 : 0 < g.Emax) (junk : ℝ) : g.total (fun _ => 1) junk = g.Emax * 1e-3 - junk := by
  unfold Cfg.total
  dsimp only
  rw [show (100000 : ℕ) = 99999 + 1 by norm_num, totalLoop_one]
  have e : Real.log (g.Emin * 1e-3) + (Real.log (g.Emax * 1e-3) - Real.log (g.Emin * 1e-3)) * 1e-5 +
      ((99999 : ℕ) : ℝ) * ((Real.log (g.Emax * 1e-3) - Real.log (g.Emin * 1e-3)) * 1e-5) = Real.log (g.Emax * 1e-3) := by
    push_cast
    ring
  rw [e, Real.exp_log (by positivity)]
  ring

end
end Verif.Ikeda
