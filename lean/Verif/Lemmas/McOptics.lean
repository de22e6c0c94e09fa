import Verif.Spec.McOptics
import Verif.Lemmas.McMonitors
/-!
Lemmas for slits, collimators, velocity selectors and choppers of McStas.
-/

namespace Verif.McOpt
open McStas Kinem Homog McMon MeasureTheory

theorem fly {G : Gravity} {dt : ℝ} (h : 0 ≤ dt) (e : Event ℝ) : propDt G dt e = flown G e dt := by
  unfold propDt
  rw [if_neg (by linarith)]
  split
  · next hG => exact propDtGrav_eq hG dt e
  · next hG => exact propDtFree_eq (by simpa using hG) dt e

/-- the mean of an indicator of an interval -/
theorem mean_interval {a b : ℝ} : mean (fun u => if a ≤ u ∧ u ≤ b then 1 else 0) = max 0 (min b 1 - max a 0) := by
  unfold mean
  rw [intervalIntegral.integral_of_le zero_le_one, ← integral_Icc_eq_integral_Ioc]
  have h : (fun u : ℝ => if a ≤ u ∧ u ≤ b then (1 : ℝ) else 0) = (Set.Icc a b).indicator fun _ => 1 := by
    ext u
    simp only [Set.indicator, Set.mem_Icc]
  rw [h, integral_indicator measurableSet_Icc, setIntegral_const, smul_eq_mul, mul_one, measureReal_def,
    Measure.restrict_apply measurableSet_Icc, Set.Icc_inter_Icc, Real.volume_Icc, ENNReal.toReal_ofReal']
  exact max_comm _ _

theorem passing_eq (s : ℝ) : passing s = max 0 (1 - |s|) := by
  unfold passing
  have : (fun u : ℝ => if 0 ≤ u + s ∧ u + s ≤ 1 then (1 : ℝ) else 0) = fun u => if -s ≤ u ∧ u ≤ 1 - s then 1 else 0 := by
    ext u
    refine if_congr ?_ rfl rfl
    constructor <;> rintro ⟨h1, h2⟩ <;> constructor <;> linarith
  rw [this, mean_interval]
  rcases le_total 0 s with h | h
  · rw [abs_of_nonneg h, max_eq_right (by linarith : -s ≤ 0), min_eq_left (by linarith : 1 - s ≤ 1), sub_zero]
  · rw [abs_of_nonpos h, max_eq_left (by linarith : 0 ≤ -s), min_eq_right (by linarith : 1 ≤ 1 - s)]

theorem passRotor_eq {P c : ℝ} (hP : 0 < P) (hc : 0 ≤ c) (δ : ℝ) : passRotor P c δ = max 0 ((P - c - |δ|) / P) := by
  unfold passRotor
  have : (fun u : ℝ => if u * P ≤ P - c ∧ 0 ≤ u * P + δ ∧ u * P + δ ≤ P - c then (1 : ℝ) else 0) =
      fun u => if -δ / P ≤ u ∧ u ≤ min ((P - c) / P) ((P - c - δ) / P) then 1 else 0 := by
    ext u
    refine if_congr ?_ rfl rfl
    rw [le_min_iff, div_le_iff₀ hP, le_div_iff₀ hP, le_div_iff₀ hP]
    constructor
    · rintro ⟨h1, h2, h3⟩; exact ⟨by linarith, by linarith, by linarith⟩
    · rintro ⟨h1, h2, h3⟩; exact ⟨by linarith, by linarith, by linarith⟩
  rw [this, mean_interval]
  have h1 : (P - c) / P ≤ 1 := by rw [div_le_one hP]; linarith
  rcases le_total 0 δ with h | h
  · rw [abs_of_nonneg h, max_eq_right (by rw [neg_div]; have := div_nonneg h hP.le; linarith : -δ / P ≤ 0)]
    have h2 : (P - c - δ) / P ≤ (P - c) / P := div_le_div_of_nonneg_right (by linarith) hP.le
    rw [min_eq_right h2, min_eq_left (h2.trans h1), sub_zero]
  · rw [abs_of_nonpos h, max_eq_left (div_nonneg (by linarith) hP.le : 0 ≤ -δ / P)]
    have h2 : (P - c) / P ≤ (P - c - δ) / P := div_le_div_of_nonneg_right (by linarith) hP.le
    rw [min_eq_left h2, min_eq_left h1]
    congr 1
    field_simp

/-- `fmod` and slits at equal distances -/
theorem fmod_slit {T w x : ℝ} (hw : 0 ≤ w) (hT : w < T) : fmod (|x| + w / 2) T ≤ w ↔ ∃ k : ℤ, |x - k * T| ≤ w / 2 := by
  have hT0 : 0 < T := by linarith
  constructor
  · intro h
    unfold fmod at h
    have h1 : ⌊(|x| + w / 2) / T⌋ * T ≤ |x| + w / 2 := by
      have := Int.floor_le ((|x| + w / 2) / T)
      rwa [le_div_iff₀ hT0] at this
    set m := ⌊(|x| + w / 2) / T⌋
    rcases abs_cases x with ⟨e, _⟩ | ⟨e, _⟩
    · refine ⟨m, abs_le.2 ⟨?_, ?_⟩⟩ <;> rw [e] at h h1 <;> linarith
    · refine ⟨-m, abs_le.2 ⟨?_, ?_⟩⟩ <;> rw [e] at h h1 <;> push_cast <;> linarith
  · rintro ⟨k, hk⟩
    have : ∃ m : ℤ, |(|x| - m * T)| ≤ w / 2 := by
      rcases abs_cases x with ⟨e, _⟩ | ⟨e, _⟩
      · exact ⟨k, by rw [e]; exact hk⟩
      · refine ⟨-k, ?_⟩
        rw [e]
        push_cast
        rw [show -x - -(k : ℝ) * T = -(x - k * T) by ring, abs_neg]
        exact hk
    obtain ⟨m, hm⟩ := this
    have hm' := abs_le.1 hm
    have : ⌊(|x| + w / 2) / T⌋ = m := by
      rw [Int.floor_eq_iff, le_div_iff₀ hT0, div_lt_iff₀ hT0]
      constructor <;> linarith
    unfold fmod
    rw [this]
    linarith

theorem fmod_stop {T w x : ℝ} (hw : 0 ≤ w) (hT : w < T) :
    (fmod (|x| + w / 2) T < w → ∃ k : ℤ, |x - k * T| ≤ w / 2 ∧ 0 < w) ∧
    ((∃ k : ℤ, |x - k * T| < w / 2) → fmod (|x| + w / 2) T < w) := by
  have hT0 : 0 < T := by linarith
  constructor
  · intro h
    obtain ⟨k, hk⟩ := (fmod_slit hw hT).1 h.le
    refine ⟨k, hk, lt_of_le_of_ne hw fun h0 => ?_⟩
    rw [← h0] at h
    unfold fmod at h
    have h1 : ⌊(|x| + 0 / 2) / T⌋ * T ≤ |x| + 0 / 2 := by
      have := Int.floor_le ((|x| + 0 / 2) / T)
      rwa [le_div_iff₀ hT0] at this
    linarith
  · rintro ⟨k, hk⟩
    have : ∃ m : ℤ, |(|x| - m * T)| < w / 2 := by
      rcases abs_cases x with ⟨e, _⟩ | ⟨e, _⟩
      · exact ⟨k, by rw [e]; exact hk⟩
      · refine ⟨-k, ?_⟩
        rw [e]
        push_cast
        rw [show -x - -(k : ℝ) * T = -(x - k * T) by ring, abs_neg]
        exact hk
    obtain ⟨m, hm⟩ := this
    have hm' := abs_lt.1 hm
    have : ⌊(|x| + w / 2) / T⌋ = m := by
      rw [Int.floor_eq_iff, le_div_iff₀ hT0, div_lt_iff₀ hT0]
      constructor <;> linarith
    unfold fmod
    rw [this]
    linarith

/-- times and angles of a disk -/
theorem slit_time {ω n θ t0 α t : ℝ} (hω : ω ≠ 0) :
    ((∃ k : ℤ, |t - α / ω - t0 - k * (2 * Real.pi / |ω| / n)| ≤ θ / |ω| / 2) ↔ SlitAt ω n θ t0 α t) ∧
    ((∃ k : ℤ, |t - α / ω - t0 - k * (2 * Real.pi / |ω| / n)| < θ / |ω| / 2) ↔ SlitAt' ω n θ t0 α t) := by
  have ha : 0 < |ω| := abs_pos.2 hω
  have key : ∀ k : ℤ, ∃ k' : ℤ, |α - (ω * (t - t0) + k' * (2 * Real.pi / n))| = |t - α / ω - t0 - k * (2 * Real.pi / |ω| / n)| * |ω| := by
    intro k
    rcases abs_cases ω with ⟨e, _⟩ | ⟨e, _⟩
    · refine ⟨-k, ?_⟩
      rw [← abs_mul, ← abs_neg, e]
      congr 1
      push_cast
      by_cases hn : n = 0
      · subst hn; simp; field_simp; ring
      · field_simp; ring
    · refine ⟨k, ?_⟩
      rw [← abs_mul, ← abs_neg, e]
      congr 1
      by_cases hn : n = 0
      · subst hn; simp; field_simp; ring
      · field_simp; ring
  have key' : ∀ k' : ℤ, ∃ k : ℤ, |α - (ω * (t - t0) + k' * (2 * Real.pi / n))| = |t - α / ω - t0 - k * (2 * Real.pi / |ω| / n)| * |ω| := by
    intro k
    rcases abs_cases ω with ⟨e, _⟩ | ⟨e, _⟩
    · refine ⟨-k, ?_⟩
      rw [← abs_mul, ← abs_neg, e]
      congr 1
      push_cast
      by_cases hn : n = 0
      · subst hn; simp; field_simp; ring
      · field_simp; ring
    · refine ⟨k, ?_⟩
      rw [← abs_mul, ← abs_neg, e]
      congr 1
      by_cases hn : n = 0
      · subst hn; simp; field_simp; ring
      · field_simp; ring
  have e2 : θ / |ω| / 2 * |ω| = θ / 2 := by field_simp
  constructor
  · constructor
    · rintro ⟨k, hk⟩
      obtain ⟨k', h⟩ := key k
      exact ⟨k', by rw [h, ← e2]; gcongr⟩
    · rintro ⟨k', hk⟩
      obtain ⟨k, h⟩ := key' k'
      rw [h, ← e2] at hk
      exact ⟨k, le_of_mul_le_mul_right hk ha⟩
  · constructor
    · rintro ⟨k, hk⟩
      obtain ⟨k', h⟩ := key k
      exact ⟨k', by rw [h, ← e2]; gcongr⟩
    · rintro ⟨k', hk⟩
      obtain ⟨k, h⟩ := key' k'
      rw [h, ← e2] at hk
      exact ⟨k, lt_of_mul_lt_mul_right hk ha.le⟩

/-- an angle is the argument of a complex number -/
theorem arg_unique {x y ρ θ : ℝ} (hρ : 0 < ρ) (hx : x = ρ * Real.cos θ) (hy : y = ρ * Real.sin θ) (h1 : -Real.pi < θ) (h2 : θ ≤ Real.pi) :
    Complex.arg ⟨x, y⟩ = θ := by
  have : (⟨x, y⟩ : ℂ) = (ρ : ℂ) * (Complex.cos θ + Complex.sin θ * Complex.I) := by
    rw [← Complex.ofReal_cos, ← Complex.ofReal_sin]
    apply Complex.ext
    · simp [hx, Complex.mul_re, Complex.add_re, Complex.cos_ofReal_re]
    · simp [hy, Complex.mul_im, Complex.add_im, Complex.sin_ofReal_re]
  rw [this, Complex.arg_mul_cos_add_sin_mul_I hρ ⟨h1, h2⟩]

theorem thetaN_eq {x y : ℝ} (h : |x| ≠ |y|) : thetaN x y = some (Complex.arg ⟨x, y⟩) := by
  have hp := Real.pi_pos
  have hne : 0 < x ^ 2 + y ^ 2 := by
    rcases lt_or_gt_of_ne h with h | h
    · have := (abs_nonneg x).trans_lt h
      nlinarith [sq_abs x, sq_abs y, sq_nonneg x]
    · have := (abs_nonneg y).trans_lt h
      nlinarith [sq_abs x, sq_abs y, sq_nonneg y]
  have hρ : 0 < √(x ^ 2 + y ^ 2) := Real.sqrt_pos.2 hne
  -- the angle of the point in the first quadrant
  obtain ⟨φ, hφ, hc, hs, h0, h1⟩ : ∃ φ, (if |x| > |y| then some (Real.arctan (|y| / |x|)) else
      if |x| < |y| then some (Real.pi / 2 - Real.arctan (|x| / |y|)) else none) = some φ ∧ |x| = √(x ^ 2 + y ^ 2) * Real.cos φ ∧
      |y| = √(x ^ 2 + y ^ 2) * Real.sin φ ∧ 0 ≤ φ ∧ φ ≤ Real.pi / 2 := by
    rcases lt_or_gt_of_ne h with h | h
    · rw [if_neg (by linarith), if_pos h]
      have hy : 0 < |y| := (abs_nonneg x).trans_lt h
      have hr : √(1 + (|x| / |y|) ^ 2) = √(x ^ 2 + y ^ 2) / |y| := by
        rw [div_pow, sq_abs, show 1 + x ^ 2 / |y| ^ 2 = (x ^ 2 + y ^ 2) / |y| ^ 2 by
          have : |y| ^ 2 = y ^ 2 := sq_abs y
          field_simp; rw [this]; ring, Real.sqrt_div' _ (by positivity), Real.sqrt_sq hy.le]
      refine ⟨_, rfl, ?_, ?_, ?_, ?_⟩
      · rw [Real.cos_pi_div_two_sub, Real.sin_arctan, hr]; field_simp
      · rw [Real.sin_pi_div_two_sub, Real.cos_arctan, hr]; field_simp
      · have := Real.arctan_lt_pi_div_two (|x| / |y|); linarith
      · have : 0 ≤ Real.arctan (|x| / |y|) := Real.arctan_nonneg.2 (by positivity)
        linarith
    · rw [if_pos h]
      have hx : 0 < |x| := (abs_nonneg y).trans_lt h
      have hr : √(1 + (|y| / |x|) ^ 2) = √(x ^ 2 + y ^ 2) / |x| := by
        rw [div_pow, sq_abs, show 1 + y ^ 2 / |x| ^ 2 = (x ^ 2 + y ^ 2) / |x| ^ 2 by
          have : |x| ^ 2 = x ^ 2 := sq_abs x
          field_simp; rw [this], Real.sqrt_div' _ (by positivity), Real.sqrt_sq hx.le]
      refine ⟨_, rfl, ?_, ?_, ?_, ?_⟩
      · rw [Real.cos_arctan, hr]; field_simp
      · rw [Real.sin_arctan, hr]; field_simp
      · exact Real.arctan_nonneg.2 (by positivity)
      · exact (Real.arctan_lt_pi_div_two _).le
  unfold thetaN
  simp only [hφ]
  by_cases hx : x < 0
  · rw [abs_of_neg hx] at hc
    by_cases hy : y < 0
    · rw [abs_of_neg hy] at hs
      simp only [if_pos hx, if_pos hy, Option.map_some]
      have hφ0 : 0 < φ := by
        rcases h0.lt_or_eq with h | h
        · exact h
        · rw [← h, Real.sin_zero, mul_zero] at hs; linarith
      rw [arg_unique hρ (θ := -1 * (Real.pi - φ)) (by
        rw [show -1 * (Real.pi - φ) = φ - Real.pi by ring, Real.cos_sub_pi]; linarith) (by
        rw [show -1 * (Real.pi - φ) = φ - Real.pi by ring, Real.sin_sub_pi]; linarith) (by linarith) (by linarith)]
    · push Not at hy
      rw [abs_of_nonneg hy] at hs
      simp only [if_pos hx, if_neg (not_lt.2 hy), Option.map_some]
      rw [arg_unique hρ (θ := Real.pi - φ) (by rw [Real.cos_pi_sub]; linarith) (by rw [Real.sin_pi_sub]; linarith) (by linarith)
        (by linarith)]
  · push Not at hx
    rw [abs_of_nonneg hx] at hc
    by_cases hy : y < 0
    · rw [abs_of_neg hy] at hs
      simp only [if_neg (not_lt.2 hx), if_pos hy, Option.map_some]
      rw [arg_unique hρ (θ := -1 * φ) (by rw [neg_one_mul, Real.cos_neg]; linarith) (by rw [neg_one_mul, Real.sin_neg]; linarith)
        (by linarith) (by linarith)]
    · push Not at hy
      rw [abs_of_nonneg hy] at hs
      simp only [if_neg (not_lt.2 hx), if_neg (not_lt.2 hy)]
      rw [arg_unique hρ hc hs (by linarith) (by linarith)]

theorem blades_eq {len d t v vz p : ℝ} (hl : 0 < len) (hd : 0 ≤ d) (hd' : d < 5400) (hz : vz ≠ 0) :
    (0 < soller len d v vz → Coll.blades (Coll.slope d) t v vz p = some (some (p * (t ^ (if 0 < d then 1 else 0) * soller len d v vz)))) ∧
    (soller len d v vz = 0 → Coll.blades (Coll.slope d) t v vz p = some none ∨ Coll.blades (Coll.slope d) t v vz p = some (some 0)) ∧
    0 ≤ soller len d v vz ∧ soller len d v vz ≤ 1 := by
  unfold Coll.blades Coll.slope soller
  rcases hd.lt_or_eq with hd | rfl
  · have hp := Real.pi_pos
    have ht : 0 < Real.tan (Real.pi / 10800 * d) := Real.tan_pos_of_pos_of_lt_pi_div_two (by positivity) (by
      calc Real.pi / 10800 * d < Real.pi / 10800 * 5400 := by gcongr
        _ = Real.pi / 2 := by ring)
    simp only [if_pos hd, gt_iff_lt, if_pos ht, divD_ok hz, passing_eq, Option.bind_eq_bind, Option.bind_some, pow_one]
    have e : |len * (v / vz) / (len * Real.tan (Real.pi / 10800 * d))| = |v / vz| / Real.tan (Real.pi / 10800 * d) := by
      rw [mul_div_mul_left _ _ hl.ne', abs_div, abs_of_pos ht]
    rw [e]
    set φ := |v / vz|
    set T := Real.tan (Real.pi / 10800 * d)
    have h0 : 0 ≤ φ / T := div_nonneg (abs_nonneg _) ht.le
    rcases lt_trichotomy T φ with h | h | h
    · have : 1 < φ / T := by rwa [lt_div_iff₀ ht, one_mul]
      rw [max_eq_left (by linarith), if_pos h]
      exact ⟨fun h => absurd h (lt_irrefl _), fun _ => .inl rfl, le_rfl, zero_le_one⟩
    · have : φ / T = 1 := by rw [← h, div_self ht.ne']
      rw [this, if_neg (by rw [h]; exact lt_irrefl _)]
      simp
    · have : φ / T < 1 := by rwa [div_lt_iff₀ ht, one_mul]
      rw [max_eq_right (by linarith), if_neg (by linarith)]
      exact ⟨fun _ => rfl, fun h => by linarith, by linarith, by linarith⟩
  · simp

theorem atZ_step {e : Event ℝ} (hz : e.v.z ≠ 0) (z z' : ℝ) : propDtFree ((z' - z) / e.v.z) (atZ e z) = atZ e z' := by
  unfold atZ flown propDtFree
  rw [accel_off rfl]
  ext <;> simp <;> field_simp <;> ring

theorem atZ_fly {e : Event ℝ} (hz : 0 < e.v.z) {z z' : ℝ} (h : z ≤ z') : propDt ⟨false, 0⟩ ((z' - z) / e.v.z) (atZ e z) = atZ e z' := by
  have : 0 ≤ (z' - z) / e.v.z := div_nonneg (by linarith) hz.le
  rw [← atZ_step hz.ne' z z']
  unfold propDt
  rw [if_neg (by linarith), if_neg (by simp)]

theorem atZ_v (e : Event ℝ) (z : ℝ) : (atZ e z).v = e.v := by
  unfold atZ flown; rw [accel_off rfl]; ext <;> simp

theorem atZ_p (e : Event ℝ) (z : ℝ) : (atZ e z).p = e.p := rfl

theorem polarAt_eq (r0 : ℝ) (e : Event ℝ) : polarAt r0 e = (offAxis r0 e, around r0 e) := by
  unfold polarAt offAxis around Frames.arctan2
  rw [← sq, ← sq]

/-- the parameters of a disk chopper after `INITIALIZE` -/
theorem new_ok {c : DiskPar} {d : Disk} (h : Disk.new c = .ok d) (hw : c.w = 0) (hwc : c.wc = 0) (hω : c.omega ≠ 0) :
    (0 < c.n ∧ 0 ≤ c.theta_0 ∧ 0 < c.R ∧ c.n * c.theta_0 < 360 ∧ c.theta_1 < c.theta_0) ∧
    d = { theta_0 := c.theta_0 * (Real.pi / 180), R := c.R, omega := c.omega, n := c.n, j := c.j,
          t_0 := if c.phi_0 ≠ 0 then c.omega * (c.phi_0 * (Real.pi / 180)) / (c.omega * c.omega) else c.t_0 * (c.omega / |c.omega|),
          n_pulse := c.n_pulse, Tg := 2 * Real.pi / |c.omega| / c.n, To := c.theta_0 * (Real.pi / 180) / |c.omega|,
          Tc := (if c.isFirst ∧ c.theta_1 ≠ 0 then 0 else c.theta_1) * (Real.pi / 180) / |c.omega|,
          delta_y := if c.compat then c.R else c.R - c.height / 2, height := c.height, isFirst := c.isFirst, absOut := c.absOut } := by
  unfold Disk.new slitAngle at h
  simp only [hw, hwc, ne_eq, not_true_eq_false, if_false, if_neg hω] at h
  split at h
  · cases h
  split at h
  · cases h
  split at h
  · cases h
  split at h
  · cases h
  split at h
  · cases h
  next h1 h2 h3 h4 h5 =>
  push Not at h1 h2 h3
  refine ⟨⟨h1.1, h1.2.1, h1.2.2, h2, h3⟩, ?_⟩
  cases h
  rfl

/-- an ordinary disk chopper -/
theorem disk_ordinary {c : DiskPar} {d : Disk} (h : Disk.new c = .ok d) (hw : c.w = 0) (hwc : c.wc = 0) (hω : c.omega ≠ 0)
    (hf : c.isFirst = false) (h1 : 0 ≤ c.theta_1) {G : Gravity} {g u1 u2 : ℝ} {e a : Event ℝ} (ha : propZ0 G e = a) (hy : a.r.y = e.r.y) :
    (¬ c.Ring a → disk d G g u1 u2 e = stopped a) ∧
    (c.Ring a →
      (¬ SlitAt c.omega c.n (c.theta_0 * (Real.pi / 180)) d.t_0 (c.angle a) (a.t + c.j * g) → disk d G g u1 u2 e = stopped a) ∧
      (SlitAt' c.omega c.n (c.theta_1 * (Real.pi / 180)) d.t_0 (c.angle a) (a.t + c.j * g) → disk d G g u1 u2 e = stopped a) ∧
      (SlitAt c.omega c.n (c.theta_0 * (Real.pi / 180)) d.t_0 (c.angle a) (a.t + c.j * g) →
        c.theta_1 = 0 ∨ ¬ SlitAt c.omega c.n (c.theta_1 * (Real.pi / 180)) d.t_0 (c.angle a) (a.t + c.j * g) →
        disk d G g u1 u2 e = a)) := by
  obtain ⟨⟨n0, t0, R0, k0, k1⟩, hd⟩ := new_ok h hw hwc hω
  have hp := Real.pi_pos
  have hω' : 0 < |c.omega| := abs_pos.2 hω
  have hT : c.theta_0 * (Real.pi / 180) / |c.omega| < 2 * Real.pi / |c.omega| / c.n := by
    rw [lt_div_iff₀ n0, div_mul_eq_mul_div]
    apply (div_lt_div_iff_of_pos_right hω').2
    nlinarith
  have hT1 : c.theta_1 * (Real.pi / 180) / |c.omega| < 2 * Real.pi / |c.omega| / c.n := by
    refine lt_of_le_of_lt ?_ hT
    gcongr
  have hR : (¬ c.Ring a) ↔ (a.r.x * a.r.x + c.above a * c.above a > d.R * d.R ∧ d.absOut) ∨ a.r.x * a.r.x + c.above a * c.above a < (d.R - d.height) * (d.R - d.height) := by
    unfold DiskPar.Ring
    rw [hd]
    simp only [sq, not_and_or, not_le, Classical.not_imp]
    tauto
  have hab : e.r.y + d.delta_y = c.above a := by
    rw [hd, ← hy]; rfl
  have hfirst : ¬ d.isFirst = true := by rw [hd]; simpa using hf
  have hx : a.t - Frames.arctan2 a.r.x (c.above a) / d.omega - d.t_0 + d.j * g = a.t + c.j * g - c.angle a / c.omega - d.t_0 := by
    have : Frames.arctan2 a.r.x (c.above a) = c.angle a := rfl
    rw [this, show d.omega = c.omega by rw [hd], show d.j = c.j by rw [hd]]
    ring
  have hTc : d.Tc = c.theta_1 * (Real.pi / 180) / |c.omega| := by
    rw [hd]
    simp only [hf, Bool.false_eq_true, false_and, if_false]
  have hTo : d.To = c.theta_0 * (Real.pi / 180) / |c.omega| := by rw [hd]
  have hTg : d.Tg = 2 * Real.pi / |c.omega| / c.n := by rw [hd]
  have e1 : disk d G g u1 u2 e = if (a.r.x * a.r.x + c.above a * c.above a > d.R * d.R ∧ d.absOut) ∨ a.r.x * a.r.x + c.above a * c.above a < (d.R - d.height) * (d.R - d.height) then stopped a
      else if fmod (|a.t + c.j * g - c.angle a / c.omega - d.t_0| + d.Tc / 2) d.Tg < d.Tc then stopped a
      else if fmod (|a.t + c.j * g - c.angle a / c.omega - d.t_0| + d.To / 2) d.Tg > d.To then stopped a else a := by
    unfold disk
    simp only [ha, hab, if_neg hfirst, hx]
    by_cases q1 : a.r.x * a.r.x + c.above a * c.above a > d.R * d.R ∧ d.absOut
    · rw [if_pos q1, if_pos (.inl q1)]; rfl
    · rw [if_neg q1]
      by_cases q2 : a.r.x * a.r.x + c.above a * c.above a < (d.R - d.height) * (d.R - d.height)
      · rw [if_pos q2, if_pos (.inr q2)]; rfl
      · rw [if_neg q2, if_neg (not_or.2 ⟨q1, q2⟩)]; rfl
  rw [e1]
  refine ⟨fun hn => by rw [if_pos (hR.1 hn)], fun hr => ?_⟩
  rw [if_neg fun hh => hR.2 hh hr, hTc, hTo, hTg]
  have s0 := fmod_slit (x := a.t + c.j * g - c.angle a / c.omega - d.t_0) (by positivity) hT
  have s1 := fmod_stop (x := a.t + c.j * g - c.angle a / c.omega - d.t_0) (by positivity) hT1
  rw [(slit_time hω).1] at s0
  refine ⟨fun hn => ?_, fun hs => ?_, fun hs hs1 => ?_⟩
  · have hg : ¬ _ := fun q => hn (s0.1 q)
    rw [if_pos (lt_of_not_ge hg), ite_self]
  · rw [if_pos (s1.2 ((slit_time hω).2.2 hs))]
  · rw [if_neg, if_neg (not_lt.2 (s0.2 hs))]
    intro hlt
    obtain ⟨k, hk, hpos⟩ := s1.1 hlt
    rcases hs1 with h0 | h0
    · rw [h0] at hpos; simp at hpos
    · exact h0 ((slit_time hω).1.1 ⟨k, hk⟩)

/-- a disk of radius 1 with one slit of 36 degrees -/
noncomputable def oneSlit (t0 ω : ℝ) (first : Bool) : DiskPar :=
  { theta_0 := 36, R := 1, h := 0, omega := ω, n := 1, j := 0, theta_1 := 0, t_0 := t0, n_pulse := 1, phi_0 := 0, w := 0, wc := 0,
    isFirst := first, absOut := true, compat := false }

theorem disk_example (t0 ω : ℝ) (_hω : ω ≠ 0) (first : Bool) : ∃ d, Disk.new (oneSlit t0 ω first) = .ok d := by
  unfold Disk.new slitAngle oneSlit
  norm_num

/-- what an ordinary chopper does with a neutron at the top -/
theorem disk_top (t0 ω t : ℝ) (hω : ω ≠ 0) {d : Disk} (hd : Disk.new (oneSlit t0 ω false) = .ok d) (g u1 u2 : ℝ) :
    (SlitAt ω 1 (36 * (Real.pi / 180)) (t0 * (ω / |ω|)) 0 t → (disk d ⟨false, 0⟩ g u1 u2 ⟨⟨0, 0, 0⟩, ⟨0, 0, 1⟩, 0, 0, t, 1⟩).p = 1) ∧
    (¬ SlitAt ω 1 (36 * (Real.pi / 180)) (t0 * (ω / |ω|)) 0 t → (disk d ⟨false, 0⟩ g u1 u2 ⟨⟨0, 0, 0⟩, ⟨0, 0, 1⟩, 0, 0, t, 1⟩).p = -1) := by
  have ha : propZ0 ⟨false, 0⟩ ⟨⟨0, 0, 0⟩, ⟨0, 0, 1⟩, 0, 0, t, 1⟩ = (⟨⟨0, 0, 0⟩, ⟨0, 0, 1⟩, 0, 0, t, 1⟩ : Event ℝ) := by
    norm_num [propZ0, propZ0Free, propDtFree]
  have h := disk_ordinary (g := g) (u1 := u1) (u2 := u2) hd rfl rfl hω rfl le_rfl ha rfl
  have ht0 : d.t_0 = t0 * (ω / |ω|) := by
    rw [(new_ok hd rfl rfl hω).2]; simp [oneSlit]
  rw [ht0] at h
  have hring : DiskPar.Ring (oneSlit t0 ω false) ⟨⟨0, 0, 0⟩, ⟨0, 0, 1⟩, 0, 0, t, 1⟩ := by
    unfold DiskPar.Ring DiskPar.above DiskPar.height oneSlit; norm_num
  have hang : DiskPar.angle (oneSlit t0 ω false) ⟨⟨0, 0, 0⟩, ⟨0, 0, 1⟩, 0, 0, t, 1⟩ = 0 := by
    unfold DiskPar.angle DiskPar.above DiskPar.height oneSlit
    norm_num
    rw [show (⟨1 / 2, 0⟩ : ℂ) = ((1 / 2 : ℝ) : ℂ) by apply Complex.ext <;> norm_num]
    exact Complex.arg_ofReal_of_nonneg (by norm_num)
  have h2 := h.2 hring
  simp only [hang] at h2
  simp only [oneSlit, zero_mul, add_zero] at h2
  exact ⟨fun hs => by rw [h2.2.2 hs (by left; trivial)], fun hs => by rw [h2.1 hs]; rfl⟩

end Verif.McOpt
