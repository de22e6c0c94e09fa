import Verif.Spec.Kinem
import Verif.Lemmas.Homog
import Mathlib.Analysis.Calculus.Deriv.Inv
import Mathlib.Analysis.Calculus.Deriv.Pow
import Mathlib.Tactic.Positivity
import Mathlib.Tactic.LinearCombination
/-!
Lemmas for scattering with energy and momentum transfer.
-/

namespace Verif.Kinem
open Solid Flight Homog

theorem k2v_pos : 0 < k2v := by unfold k2v; norm_num
theorem v2k_pos : 0 < v2k := by unfold v2k; exact one_div_pos.2 k2v_pos
theorem v2k_mul : v2k * k2v = 1 := by unfold v2k; exact one_div_mul_cancel k2v_pos.ne'
theorem vsq2e_pos : 0 < vsq2e := by unfold vsq2e; norm_num
theorem sqrte2v_pos : 0 < sqrte2v := by unfold sqrte2v; apply Real.sqrt_pos.2; norm_num
theorem sqrte2v_sq : sqrte2v * sqrte2v * vsq2e = 1 := by
  unfold sqrte2v vsq2e
  rw [Real.mul_self_sqrt (by norm_num)]
  norm_num

theorem divD_some {a b c : ℝ} (h : divD a b = some c) : b ≠ 0 ∧ c = a / b := by
  unfold divD at h
  split at h
  · simp at h
  · next hb => exact ⟨hb, by simpa using h.symm⟩

theorem divD_ok {a b : ℝ} (h : b ≠ 0) : divD a b = some (a / b) := if_neg h

theorem sqrtD_some {a c : ℝ} (h : sqrtD a = some c) : 0 ≤ a ∧ c = √a := by
  unfold sqrtD at h
  split at h
  · simp at h
  · next hb => exact ⟨not_lt.1 hb, by simpa using h.symm⟩

theorem sqrtD_ok {a : ℝ} (h : 0 ≤ a) : sqrtD a = some √a := if_neg (not_lt.2 h)

theorem E2v_some {E v : ℝ} (h : E2v E = some v) : 0 ≤ E ∧ v = √E * sqrte2v := by
  unfold E2v at h
  simp only [Option.bind_eq_bind, Option.bind_eq_some_iff] at h
  obtain ⟨a, h1, h2⟩ := h
  obtain ⟨h3, rfl⟩ := sqrtD_some h1
  exact ⟨h3, by simpa using h2.symm⟩

theorem E2v_ok {E : ℝ} (h : 0 ≤ E) : E2v E = some (√E * sqrte2v) := by
  unfold E2v; rw [sqrtD_ok h]; rfl

theorem E2k_some {E k : ℝ} (h : E2k E = some k) : 0 ≤ E ∧ k = √E * sqrte2v * v2k := by
  unfold E2k at h
  simp only [Option.bind_eq_bind, Option.bind_eq_some_iff] at h
  obtain ⟨a, h1, h2⟩ := h
  obtain ⟨h3, rfl⟩ := E2v_some h1
  exact ⟨h3, by simpa using h2.symm⟩

theorem E2k_ok {E : ℝ} (h : 0 ≤ E) : E2k E = some (√E * sqrte2v * v2k) := by
  unfold E2k; rw [E2v_ok h]; rfl

/-- the energy of the wave number -/
theorem energy_of_k {E k : ℝ} (h : E2k E = some k) : vsq2e * ((k * k2v) * (k * k2v)) = E := by
  obtain ⟨h0, rfl⟩ := E2k_some h
  have h1 := Real.mul_self_sqrt h0
  have h2 := sqrte2v_sq
  have h3 := v2k_mul
  calc vsq2e * (√E * sqrte2v * v2k * k2v * (√E * sqrte2v * v2k * k2v))
      = (√E * √E) * (sqrte2v * sqrte2v * vsq2e) * (v2k * k2v) * (v2k * k2v) := by ring
    _ = E := by rw [h1, h2, h3]; ring

theorem energy_of_v {E v : ℝ} (h : E2v E = some v) : vsq2e * (v * v) = E := by
  obtain ⟨h0, rfl⟩ := E2v_some h
  calc vsq2e * (√E * sqrte2v * (√E * sqrte2v)) = (√E * √E) * (sqrte2v * sqrte2v * vsq2e) := by ring
    _ = E := by rw [Real.mul_self_sqrt h0, sqrte2v_sq]; ring

theorem dot_self_nonneg (v : V3 ℝ) : 0 ≤ v.dot v := by
  simp only [V3.dot]; nlinarith [mul_self_nonneg v.x, mul_self_nonneg v.y, mul_self_nonneg v.z]

theorem length_mul_self (v : V3 ℝ) : length v * length v = v.dot v := by
  rw [length_eq, Real.mul_self_sqrt (dot_self_nonneg v)]

theorem length_nonneg (v : V3 ℝ) : 0 ≤ length v := by rw [length_eq]; exact Real.sqrt_nonneg _

theorem length_pos {v : V3 ℝ} (h : v ≠ 0) : 0 < length v := by
  rw [length_eq]
  apply Real.sqrt_pos.2
  have := dot_self_nonneg v
  rcases this.lt_or_eq with h1 | h1
  · exact h1
  · exfalso; apply h
    simp only [V3.dot] at h1
    have hx : v.x = 0 := by nlinarith [mul_self_nonneg v.x, mul_self_nonneg v.y, mul_self_nonneg v.z]
    have hy : v.y = 0 := by nlinarith [mul_self_nonneg v.x, mul_self_nonneg v.y, mul_self_nonneg v.z]
    have hz : v.z = 0 := by nlinarith [mul_self_nonneg v.x, mul_self_nonneg v.y, mul_self_nonneg v.z]
    ext <;> assumption

theorem v2E_length (v : V3 ℝ) : v2E (length v) = energy v := by
  unfold v2E energy; rw [length_mul_self]; ring

theorem normalize_some {v e : V3 ℝ} (h : normalize v = some e) :
    0 < length v ∧ e = (1 / length v) • v ∧ e.dot e = 1 ∧ length v • e = v := by
  unfold normalize at h
  simp only [Option.bind_eq_bind, Option.bind_eq_some_iff] at h
  obtain ⟨a, h1, h2⟩ := h
  obtain ⟨h3, rfl⟩ := divD_some h1
  have hp : 0 < length v := lt_of_le_of_ne (length_nonneg v) (Ne.symm h3)
  have he : e = (1 / length v) • v := by simpa using h2.symm
  refine ⟨hp, he, ?_, ?_⟩
  · rw [he]
    have := length_mul_self v
    simp only [V3.dot, V3.smul_x, V3.smul_y, V3.smul_z] at *
    field_simp
    nlinarith
  · rw [he]
    ext <;> simp only [V3.smul_x, V3.smul_y, V3.smul_z] <;> field_simp

theorem normalize_ok {v : V3 ℝ} (h : v ≠ 0) : ∃ e, normalize v = some e := by
  unfold normalize
  rw [divD_ok (length_pos h).ne']
  exact ⟨_, rfl⟩

/-- what the axes are like -/
theorem axes_some {eps : ℝ} (h0 : 0 ≤ eps) {v e1 e2 e3 : V3 ℝ} (h : axes eps v = some (e1, e2, e3)) :
    length v • e1 = v ∧ 0 < length v ∧ e1.dot e1 = 1 ∧ e2.dot e2 = 1 ∧ |e1.dot e2| ≤ eps ∧
    (Clear eps v → e1.dot e2 = 0) ∧ e3 = V3.cross e1 e2 := by
  unfold axes at h
  rw [Option.bind_eq_bind, Option.bind_eq_some_iff] at h
  obtain ⟨a, h1, h⟩ := h
  obtain ⟨k1, k2, k3, k4⟩ := normalize_some h1
  split at h
  · simp only [Option.bind_eq_some_iff] at h
    obtain ⟨b, h2, h3⟩ := h
    simp only [Option.some.injEq, Prod.mk.injEq] at h3
    obtain ⟨rfl, rfl, rfl⟩ := h3
    refine ⟨k4, k1, k3, ?_⟩
    obtain ⟨m1, m2, m3, m4⟩ := normalize_some h2
    have : a.dot b = 0 := by
      rw [m2]; simp only [V3.dot, V3.cross, V3.smul_x, V3.smul_y, V3.smul_z]; ring
    exact ⟨m3, by rw [this]; simpa using h0, fun _ => this, rfl⟩
  · next hc =>
    simp only [Option.bind_eq_some_iff] at h
    obtain ⟨b, h2, h3⟩ := h
    simp only [Option.some.injEq, Prod.mk.injEq] at h3
    obtain ⟨rfl, rfl, rfl⟩ := h3
    refine ⟨k4, k1, k3, ?_⟩
    simp only [Option.some.injEq] at h2
    subst h2
    push Not at hc
    refine ⟨by norm_num [V3.dot], ?_, ?_, rfl⟩
    · simpa [V3.dot] using hc.1
    · intro hcl
      have hx : v.x = length v * a.x := by conv_lhs => rw [← k4, V3.smul_x]
      have hy : v.y = length v * a.y := by conv_lhs => rw [← k4, V3.smul_y]
      rcases hcl with ⟨hx0, _⟩ | hb | hb
      · rw [hx] at hx0
        have : a.x = 0 := (mul_eq_zero.1 hx0).resolve_left k1.ne'
        simp [V3.dot, this]
      · rw [← length_eq, hx, abs_mul, abs_of_pos k1] at hb
        nlinarith [hc.1]
      · rw [← length_eq, hy, abs_mul, abs_of_pos k1] at hb
        nlinarith [hc.2]

theorem axes_ok {eps : ℝ} (h0 : 0 ≤ eps) {v : V3 ℝ} (hv : v ≠ 0) :
    ∃ e, axes eps v = some e := by
  obtain ⟨e1, h1⟩ := normalize_ok hv
  unfold axes
  simp only [Option.bind_eq_bind, h1, Option.bind_some]
  split
  · next hc =>
    have : V3.cross ⟨0, 0, 1⟩ e1 ≠ 0 := by
      intro h
      have hx := congrArg V3.x h
      have hy := congrArg V3.y h
      simp only [V3.cross, V3.zero_x, V3.zero_y, zero_mul, one_mul, zero_sub, sub_zero, neg_eq_zero] at hx hy
      rw [hx, hy] at hc
      simp only [abs_zero, or_self] at hc
      linarith
    obtain ⟨e2, h2⟩ := normalize_ok this
    rw [h2]; exact ⟨_, rfl⟩
  · exact ⟨_, rfl⟩

theorem axes'_some {eps : ℝ} {v e1 e2 e3 : V3 ℝ} (h : axes' eps v = some (e1, e2, e3)) :
    length v • e1 = v ∧ 0 < length v ∧ e1.dot e1 = 1 ∧ e2.dot e2 = 1 ∧ e1.dot e2 = 0 ∧
    e3 = V3.cross e1 e2 := by
  unfold axes' at h
  rw [Option.bind_eq_bind, Option.bind_eq_some_iff] at h
  obtain ⟨a, h1, h⟩ := h
  obtain ⟨k1, k2, k3, k4⟩ := normalize_some h1
  split at h
  · simp only [Option.bind_eq_some_iff] at h
    obtain ⟨b, h2, h3⟩ := h
    simp only [Option.some.injEq, Prod.mk.injEq] at h3
    obtain ⟨rfl, rfl, rfl⟩ := h3
    refine ⟨k4, k1, k3, ?_⟩
    obtain ⟨m1, m2, m3, m4⟩ := normalize_some h2
    refine ⟨m3, ?_, rfl⟩
    rw [m2]; simp only [V3.dot, V3.cross, V3.smul_x, V3.smul_y, V3.smul_z]; ring
  · simp only [Option.bind_eq_some_iff] at h
    obtain ⟨b, h2, h3⟩ := h
    simp only [Option.some.injEq, Prod.mk.injEq] at h3
    obtain ⟨rfl, rfl, rfl⟩ := h3
    refine ⟨k4, k1, k3, ?_⟩
    obtain ⟨m1, m2, m3, m4⟩ := normalize_some h2
    refine ⟨m3, ?_, rfl⟩
    rw [m2]; simp only [V3.dot, V3.cross, V3.smul_x, V3.smul_y, V3.smul_z]; ring

theorem axes'_ok {eps : ℝ} (h0 : 0 ≤ eps) (h1 : eps < 1 / 2) {v : V3 ℝ} (hv : v ≠ 0) :
    ∃ e, axes' eps v = some e := by
  obtain ⟨e1, h1'⟩ := normalize_ok hv
  obtain ⟨_, _, hu, _⟩ := normalize_some h1'
  unfold axes'
  simp only [Option.bind_eq_bind, h1', Option.bind_some]
  split
  · next hc =>
    have : V3.cross ⟨0, 0, 1⟩ e1 ≠ 0 := by
      intro h
      have hx := congrArg V3.x h
      have hy := congrArg V3.y h
      simp only [V3.cross, V3.zero_x, V3.zero_y, zero_mul, one_mul, zero_sub, sub_zero, neg_eq_zero] at hx hy
      rw [hx, hy] at hc
      simp only [abs_zero, or_self] at hc
      linarith
    obtain ⟨e2, h2⟩ := normalize_ok this
    rw [h2]; exact ⟨_, rfl⟩
  · next hc =>
    push Not at hc
    have : V3.cross ⟨1, 0, 0⟩ e1 ≠ 0 := by
      intro h
      have hy := congrArg V3.y h
      have hz := congrArg V3.z h
      simp only [V3.cross, V3.zero_z, V3.zero_y, zero_mul, one_mul, zero_sub, sub_zero, neg_eq_zero] at hy hz
      simp only [V3.dot, hy, hz, mul_zero, add_zero] at hu
      have := abs_mul_abs_self e1.x
      nlinarith [hc.1, abs_nonneg e1.x]
    obtain ⟨e2, h2⟩ := normalize_ok this
    rw [h2]; exact ⟨_, rfl⟩

/-- length of the new direction and its projection on the old one -/
theorem outDir_dot {e1 e2 : V3 ℝ} (h1 : e1.dot e1 = 1) (h2 : e2.dot e2 = 1) (c s phi : ℝ) :
    (outDir e1 e2 (V3.cross e1 e2) c s phi).dot (outDir e1 e2 (V3.cross e1 e2) c s phi) =
      c * c + s * s - (e1.dot e2) * (e1.dot e2) * (s * s) * (Real.sin phi * Real.sin phi) +
      2 * (e1.dot e2) * (c * s * Real.cos phi) ∧
    e1.dot (outDir e1 e2 (V3.cross e1 e2) c s phi) = c + e1.dot e2 * (s * Real.cos phi) := by
  have hcs := Real.cos_sq_add_sin_sq phi
  set C := Real.cos phi
  set D := Real.sin phi
  simp only [outDir, V3.dot, V3.cross, V3.add_x, V3.add_y, V3.add_z, V3.smul_x, V3.smul_y, V3.smul_z] at *
  constructor
  · linear_combination (c ^ 2 + s ^ 2 * D ^ 2 * (e2.x * e2.x + e2.y * e2.y + e2.z * e2.z)) * h1 +
      (s ^ 2 * C ^ 2 + s ^ 2 * D ^ 2) * h2 + s ^ 2 * hcs
  · linear_combination c * h1

/-- squared length of the change of wave vector -/
theorem wave_diff (v : V3 ℝ) (e1 d : V3 ℝ) (h : length v • e1 = v) (h1 : e1.dot e1 = 1) (w : ℝ) :
    (wave v - wave (w • d)).dot (wave v - wave (w • d)) =
      (v2k * length v) * (v2k * length v) + (v2k * w) * (v2k * w) * d.dot d -
      2 * (v2k * length v) * (v2k * w) * e1.dot d := by
  have hx : v.x = length v * e1.x := by conv_lhs => rw [← h, V3.smul_x]
  have hy : v.y = length v * e1.y := by conv_lhs => rw [← h, V3.smul_y]
  have hz : v.z = length v * e1.z := by conv_lhs => rw [← h, V3.smul_z]
  set L := length v
  simp only [wave, V3.dot, V3.sub_x, V3.sub_y, V3.sub_z, V3.smul_x, V3.smul_y, V3.smul_z] at *
  rw [hx, hy, hz]
  linear_combination v2k ^ 2 * L ^ 2 * h1

theorem energy_smul (w : ℝ) (d : V3 ℝ) : energy (w • d) = vsq2e * (w * w) * d.dot d := by
  simp only [energy, V3.dot, V3.smul_x, V3.smul_y, V3.smul_z]; ring

theorem random_mem {u a b : ℝ} (h0 : 0 ≤ u) (h1 : u ≤ 1) (hab : a ≤ b) :
    a ≤ random u a b ∧ random u a b ≤ b := by
  unfold random
  constructor
  · nlinarith [mul_nonneg h0 (sub_nonneg.2 hab)]
  · nlinarith [mul_nonneg (sub_nonneg.2 h1) (sub_nonneg.2 hab)]

/-- a direction built from the angle with Q gives the change of wave vector Q -/
theorem transfer_of {v e1 d : V3 ℝ} (h : length v • e1 = v) (h1 : e1.dot e1 = 1)
    {w kf c Q a b : ℝ} (hk : v2k * w = kf) (hc : 2 * (v2k * length v) * kf * c = (v2k * length v) * (v2k * length v) + kf * kf - Q * Q)
    (hd : d.dot d = 1 + a) (he : e1.dot d = c + b) :
    (wave v - wave (w • d)).dot (wave v - wave (w • d)) =
      Q ^ 2 + kf * kf * a - 2 * (v2k * length v) * kf * b := by
  rw [wave_diff v e1 d h h1, hk, hd, he]
  linear_combination -hc

/-- what `pickQ` does when the range of Q is not empty -/
theorem pickQ_some {eps Qlo Qhi kf ki : ℝ} {f : ℝ → ℝ} {u2 u3 : ℝ} {ev ev' : Ev} (h0 : 0 ≤ eps)
    (hki : ki = v2k * length ev.v) (hQ : ¬ Qhi < Qlo)
    (h : pickQ eps Qlo Qhi kf ki f u2 u3 ev = some ev') :
    ∃ a b : ℝ, |a| ≤ 2 * eps + eps * eps ∧ |b| ≤ eps ∧ (Clear eps ev.v → a = 0 ∧ b = 0) ∧
      energy ev'.v = vsq2e * ((kf * k2v) * (kf * k2v)) * (1 + a) ∧
      (wave ev.v - wave ev'.v).dot (wave ev.v - wave ev'.v) =
        (random u2 Qlo Qhi) ^ 2 + kf * kf * a - 2 * ki * kf * b ∧
      ev'.p = ev.p * (f (random u2 Qlo Qhi) / (2 * ki * ki)) ∧ SamePlace ev ev' := by
  unfold pickQ at h
  rw [if_neg hQ] at h
  simp only [Option.bind_eq_bind, Option.bind_eq_some_iff] at h
  obtain ⟨F, hF, c1, hc1, c, hc, s, hs, ⟨e1, e2, e3⟩, hax, hh⟩ := h
  obtain ⟨hF0, rfl⟩ := divD_some hF
  obtain ⟨hkf, rfl⟩ := divD_some hc1
  obtain ⟨hki0, hcv⟩ := divD_some hc
  obtain ⟨hs0, rfl⟩ := sqrtD_some hs
  obtain ⟨m1, m2, m3, m4, m5, m6, rfl⟩ := axes_some h0 hax
  simp only [Option.some.injEq] at hh
  subst hh
  obtain ⟨o1, o2⟩ := outDir_dot m3 m4 c √(1 - c * c) (random u3 0 (2 * physPi))
  set d := outDir e1 e2 (e1.cross e2) c √(1 - c * c) (random u3 0 (2 * physPi))
  set phi := random u3 0 (2 * physPi)
  set s := √(1 - c * c) with hsdef
  have hss : s * s = 1 - c * c := Real.mul_self_sqrt hs0
  set g := e1.dot e2
  have hsl : |s| ≤ 1 := abs_le_one_iff_mul_self_le_one.2 (by nlinarith [mul_self_nonneg c])
  have hcl : |c| ≤ 1 := abs_le_one_iff_mul_self_le_one.2 (by nlinarith [mul_self_nonneg s])
  have hC := Real.abs_cos_le_one phi
  have hD := Real.abs_sin_le_one phi
  refine ⟨-(g * g * (s * s) * (Real.sin phi * Real.sin phi)) + 2 * g * (c * s * Real.cos phi),
    g * (s * Real.cos phi), ?_, ?_, ?_, ?_, ?_, rfl, rfl, rfl, rfl, rfl⟩
  · have p1 : |2 * g * (c * s * Real.cos phi)| ≤ 2 * eps := by
      have q1 : |c * s * Real.cos phi| ≤ 1 := by
        rw [abs_mul, abs_mul]
        have := mul_le_one₀ hcl (abs_nonneg _) hsl
        exact mul_le_one₀ this (abs_nonneg _) hC
      rw [abs_mul, abs_mul, abs_two]
      nlinarith [abs_nonneg g, abs_nonneg (c * s * Real.cos phi)]
    have p2 : |g * g * (s * s) * (Real.sin phi * Real.sin phi)| ≤ eps * eps := by
      have q1 : |s * s * (Real.sin phi * Real.sin phi)| ≤ 1 := by
        rw [abs_mul, abs_mul, abs_mul]
        exact mul_le_one₀ (mul_le_one₀ hsl (abs_nonneg _) hsl) (by positivity)
          (mul_le_one₀ hD (abs_nonneg _) hD)
      rw [mul_assoc, abs_mul, abs_mul]
      have q2 : |g| * |g| ≤ eps * eps := mul_self_le_mul_self (abs_nonneg _) m5
      nlinarith [abs_nonneg (s * s * (Real.sin phi * Real.sin phi)), mul_self_nonneg |g|]
    calc _ ≤ |-(g * g * (s * s) * (Real.sin phi * Real.sin phi))| + |2 * g * (c * s * Real.cos phi)| :=
          abs_add_le _ _
      _ ≤ _ := by rw [abs_neg]; linarith
  · rw [abs_mul, abs_mul]
    have := mul_le_one₀ hsl (abs_nonneg _) hC
    nlinarith [abs_nonneg g, abs_nonneg (s), abs_nonneg (Real.cos phi), mul_nonneg (abs_nonneg s) (abs_nonneg (Real.cos phi))]
  · intro hcl
    have : g = 0 := m6 hcl
    simp [this]
  · show energy ((kf * k2v) • d) = _
    rw [energy_smul, o1, hss]; ring
  · show (wave ev.v - wave ((kf * k2v) • d)).dot (wave ev.v - wave ((kf * k2v) • d)) = _
    rw [hki]
    refine transfer_of m1 m3 (c := c) ?_ ?_ ?_ ?_
    · rw [mul_comm kf, ← mul_assoc, v2k_mul, one_mul]
    · rw [hcv, ← hki]; field_simp; ring
    · rw [o1, hss]; ring
    · exact o2

/-- `pickQ` is defined -/
theorem pickQ_ok {eps Qlo Qhi kf ki : ℝ} {f : ℝ → ℝ} {u2 u3 : ℝ} {ev : Ev} (h0 : 0 ≤ eps)
    (hv : ev.v ≠ 0) (hki : 0 < ki) (hkf : 0 < kf) (hlo : |ki - kf| ≤ Qlo) (hhi : Qhi ≤ ki + kf)
    (hu0 : 0 ≤ u2) (hu1 : u2 ≤ 1) : ∃ ev', pickQ eps Qlo Qhi kf ki f u2 u3 ev = some ev' := by
  unfold pickQ
  split
  · exact ⟨_, rfl⟩
  · next hQ =>
    obtain ⟨q1, q2⟩ := random_mem hu0 hu1 (not_lt.1 hQ)
    set Q := random u2 Qlo Qhi
    obtain ⟨⟨e1, e2, e3⟩, hax⟩ := axes_ok h0 hv
    have hQ0 : 0 ≤ Q := (abs_nonneg _).trans (hlo.trans q1)
    have hc : 0 ≤ 1 - (kf * kf + ki * ki - Q * Q) / 2 / kf / ki * ((kf * kf + ki * ki - Q * Q) / 2 / kf / ki) := by
      have hpos : 0 < 2 * kf * ki := by positivity
      have e : (kf * kf + ki * ki - Q * Q) / 2 / kf / ki = (kf * kf + ki * ki - Q * Q) / (2 * kf * ki) := by
        field_simp
      rw [e]
      have l1 : (ki - kf) * (ki - kf) ≤ Q * Q := by
        rw [← abs_mul_abs_self (ki - kf)]
        exact mul_self_le_mul_self (abs_nonneg _) (hlo.trans q1)
      have l2 : Q * Q ≤ (ki + kf) * (ki + kf) := mul_self_le_mul_self hQ0 (q2.trans hhi)
      have : |(kf * kf + ki * ki - Q * Q) / (2 * kf * ki)| ≤ 1 := by
        rw [abs_div, abs_of_pos hpos, div_le_one hpos, abs_le]
        constructor <;> nlinarith
      have := abs_le_one_iff_mul_self_le_one.1 this
      linarith
    simp only [Option.bind_eq_bind]
    rw [divD_ok (by positivity), Option.bind_some, divD_ok hkf.ne', Option.bind_some, divD_ok hki.ne',
      Option.bind_some, sqrtD_ok hc, Option.bind_some, hax]
    exact ⟨_, rfl⟩

theorem E2k_unique {E kf k' : ℝ} (h0 : 0 ≤ kf) (h : vsq2e * (k2v * kf) ^ 2 = E) (hk : E2k E = some k') :
    k' = kf := by
  have h1 := energy_of_k hk
  obtain ⟨he, hk'⟩ := E2k_some hk
  have hp : 0 ≤ k' := by
    rw [hk']
    exact mul_nonneg (mul_nonneg (Real.sqrt_nonneg _) sqrte2v_pos.le) v2k_pos.le
  have hpos := mul_pos vsq2e_pos (mul_pos k2v_pos k2v_pos)
  have : k' * k' = kf * kf := by
    have e : (vsq2e * (k2v * k2v)) * (k' * k') = (vsq2e * (k2v * k2v)) * (kf * kf) := by nlinarith
    exact mul_left_cancel₀ hpos.ne' e
  nlinarith [mul_self_eq_mul_self_iff.1 this]

theorem E2k_of {E kf : ℝ} (h0 : 0 ≤ kf) (h : vsq2e * (k2v * kf) ^ 2 = E) : E2k E = some kf := by
  have hE : 0 ≤ E := by rw [← h]; exact mul_nonneg vsq2e_pos.le (sq_nonneg _)
  have := E2k_ok hE
  rw [this, E2k_unique h0 h this]

theorem kOf_eq (v : V3 ℝ) : v2k * length v = kOf v := by rw [length_eq]; rfl

theorem random_eq (u a b : ℝ) : random u a b = a + u * (b - a) := by unfold random; ring

/-- `pickQ` for drawn values -/
theorem pickQ_transfer {ev ev' : Ev} {Emin Emax Qmin Qmax u1 E kf Qlo Qhi u2 u3 : ℝ} {f : ℝ → ℝ}
    (d : Drawn Emin Emax Qmin Qmax ev u1 E kf Qlo Qhi) (hc : Clear 1e-10 ev.v)
    (h : pickQ 1e-10 Qlo Qhi kf (v2k * length ev.v) f u2 u3 ev = some ev') :
    Transfer ev ev' (Qlo + u2 * (Qhi - Qlo)) E ∧
    ev'.p = ev.p * (f (Qlo + u2 * (Qhi - Qlo)) / (2 * kOf ev.v * kOf ev.v)) ∧ SamePlace ev ev' := by
  obtain ⟨a, b, _, _, h3, h4, h5, h6, h7⟩ := pickQ_some (by norm_num) rfl (not_lt.2 d.nonempty) h
  obtain ⟨rfl, rfl⟩ := h3 hc
  rw [random_eq] at h5 h6
  refine ⟨⟨?_, ?_⟩, ?_, h7⟩
  · rw [h4]
    have := d.final
    linear_combination -this
  · rw [h5]; ring
  · rw [h6, kOf_eq]

theorem E2v_of {E v : ℝ} (h0 : 0 ≤ v) (h : vsq2e * (v * v) = E) : E2v E = some v := by
  have hE : 0 ≤ E := by rw [← h]; exact mul_nonneg vsq2e_pos.le (mul_self_nonneg _)
  have h1 := E2v_ok hE
  have h2 := energy_of_v h1
  rw [h1]
  have hp : 0 ≤ √E * sqrte2v := mul_nonneg (Real.sqrt_nonneg _) sqrte2v_pos.le
  have : √E * sqrte2v * (√E * sqrte2v) = v * v := mul_left_cancel₀ vsq2e_pos.ne' (h2.trans h.symm)
  have := (mul_self_inj hp h0).1 this
  rw [this]

theorem E2v_v2E {v : ℝ} (h : 0 ≤ v) : E2v (v2E v) = some v := by
  apply E2v_of h; unfold v2E; ring

/-- the trial at which the loop of the E(Q) kernel succeeds -/
theorem eqLoop_some {E : ℝ → ℝ} {Qmin Qmax Ei ki : ℝ} {us : List ℝ} :
    ∀ {c0 : Nat} {Q vf kf c : ℝ} {n : Nat},
    eqLoop E Qmin Qmax Ei ki c0 us = some (some (Q, vf, kf, c, n)) →
    (∃ x ∈ us, Q = random x Qmin Qmax) ∧ E2v (Ei - E Q) = some vf ∧ kf = v2k * vf ∧
    divD (ki * ki + kf * kf - Q * Q) (2 * ki * kf) = some c ∧ c * c ≤ 1 := by
  induction us with
  | nil => intro c0 Q vf kf c n h; simp [eqLoop] at h
  | cons u us ih =>
    intro c0 Q vf kf c n h
    have back : ∀ {c1 : Nat}, eqLoop E Qmin Qmax Ei ki c1 us = some (some (Q, vf, kf, c, n)) →
        (∃ x ∈ u :: us, Q = random x Qmin Qmax) ∧ E2v (Ei - E Q) = some vf ∧ kf = v2k * vf ∧
        divD (ki * ki + kf * kf - Q * Q) (2 * ki * kf) = some c ∧ c * c ≤ 1 := by
      intro c1 h1
      obtain ⟨⟨x, hx, hq⟩, rest⟩ := ih h1
      exact ⟨⟨x, List.mem_cons_of_mem _ hx, hq⟩, rest⟩
    unfold eqLoop at h
    simp only at h
    split at h
    · exact back h
    · next w hw =>
      split at h
      · split at h
        · simp at h
        · exact back h
      · next d hd =>
        split at h
        · exact back h
        · next hle =>
          simp only [Option.some.injEq, Prod.mk.injEq] at h
          obtain ⟨rfl, rfl, rfl, rfl, rfl⟩ := h
          exact ⟨⟨u, List.mem_cons_self, rfl⟩, hw, rfl, hd, not_lt.1 hle⟩

theorem mean_affine (a b : ℝ) (g : ℝ → ℝ) :
    mean (fun u => (b - a) * g (a + u * (b - a))) = ∫ x in a..b, g x := by
  unfold mean
  rw [intervalIntegral.integral_const_mul]
  have h := intervalIntegral.smul_integral_comp_add_mul (a := 0) (b := 1) g (b - a) a
  simp only [smul_eq_mul, mul_zero, add_zero, mul_one, add_sub_cancel] at h
  rw [← h]
  congr 2
  funext u
  rw [mul_comm]

theorem mean_const (c : ℝ) : mean (fun _ => c) = c := by simp [mean]

theorem mean_mul (c : ℝ) (f : ℝ → ℝ) : mean (fun u => c * f u) = c * mean f := by
  unfold mean; rw [intervalIntegral.integral_const_mul]

theorem mean_congr {f g : ℝ → ℝ} (h : ∀ u, 0 < u → u < 1 → f u = g u) : mean f = mean g := by
  unfold mean
  exact intervalIntegral.integral_congr_Ioo_of_le zero_le_one fun u hu => h u hu.1 hu.2

theorem meanN_const (c : ℝ) : ∀ n, meanN n (fun _ => c) = c
  | 0 => rfl
  | n + 1 => by simp only [meanN, meanN_const c n, mean_const]

theorem kFinal_nonneg (v : V3 ℝ) (E : ℝ) : 0 ≤ kFinal v E := mul_nonneg v2k_pos.le (Real.sqrt_nonneg _)

theorem kFinal_pos {v : V3 ℝ} {E : ℝ} (h : E < energy v) : 0 < kFinal v E :=
  mul_pos v2k_pos (Real.sqrt_pos.2 (div_pos (sub_pos.2 h) vsq2e_pos))

theorem kFinal_energy {v : V3 ℝ} {E : ℝ} (h : E ≤ energy v) :
    vsq2e * (k2v * kFinal v E) ^ 2 = energy v - E := by
  have h1 := v2k_mul
  have h2 := Real.mul_self_sqrt (div_nonneg (sub_nonneg.2 h) vsq2e_pos.le)
  have h3 := vsq2e_pos.ne'
  have : vsq2e * (k2v * kFinal v E) ^ 2 = vsq2e * (v2k * k2v) ^ 2 *
      (√((energy v - E) / vsq2e) * √((energy v - E) / vsq2e)) := by unfold kFinal; ring
  rw [this, h1, h2]
  field_simp

theorem kFinal_zero (v : V3 ℝ) : kFinal v 0 = kOf v := by
  unfold kFinal kOf energy
  rw [sub_zero, mul_div_cancel_left₀ _ vsq2e_pos.ne']

theorem kOf_pos {v : V3 ℝ} (hv : v ≠ 0) : 0 < kOf v := by
  rw [← kOf_eq]; exact mul_pos v2k_pos (length_pos hv)

/-- cosine of the angle for a triangle that closes -/
theorem cos_le {ki kf Q : ℝ} (hki : 0 < ki) (hkf : 0 < kf) (h1 : |ki - kf| ≤ Q) (h2 : Q ≤ ki + kf) :
    (ki * ki + kf * kf - Q * Q) / (2 * ki * kf) * ((ki * ki + kf * kf - Q * Q) / (2 * ki * kf)) ≤ 1 := by
  have hpos : 0 < 2 * ki * kf := by positivity
  have hQ : 0 ≤ Q := (abs_nonneg _).trans h1
  have l1 := mul_self_le_mul_self (abs_nonneg _) h1
  have l2 := mul_self_le_mul_self hQ h2
  rw [abs_mul_abs_self] at l1
  apply abs_le_one_iff_mul_self_le_one.1
  rw [abs_div, abs_of_pos hpos, div_le_one hpos, abs_le]
  constructor <;> nlinarith

/-- and the converse -/
theorem closes_of_cos {ki kf Q : ℝ} (hki : 0 < ki) (hkf : 0 < kf) (hQ : 0 ≤ Q)
    (h : (ki * ki + kf * kf - Q * Q) / (2 * ki * kf) * ((ki * ki + kf * kf - Q * Q) / (2 * ki * kf)) ≤ 1) :
    |ki - kf| ≤ Q ∧ Q ≤ ki + kf := by
  have hpos : 0 < 2 * ki * kf := by positivity
  have h1 := abs_le_one_iff_mul_self_le_one.2 h
  rw [abs_div, abs_of_pos hpos, div_le_one hpos, abs_le] at h1
  constructor
  · apply abs_le_of_sq_le_sq _ hQ
    nlinarith
  · nlinarith

theorem kFinal_of_E2v {v : V3 ℝ} {E vf : ℝ} (h : E2v (energy v - E) = some vf) :
    v2k * vf = kFinal v E ∧ E ≤ energy v := by
  have h0 := (E2v_some h).1
  refine ⟨?_, sub_nonneg.1 h0⟩
  apply E2k_unique (kFinal_nonneg _ _) (kFinal_energy (sub_nonneg.1 h0))
  unfold E2k
  rw [h]
  show some _ = some _
  rw [mul_comm]

/-- all trials fail when no triangle closes -/
theorem eqLoop_none {E : ℝ → ℝ} {Qmin Qmax : ℝ} {v : V3 ℝ} (hv : v ≠ 0) (h0 : 0 ≤ Qmin)
    (hQ : Qmin ≤ Qmax) (hn : ∀ Q, Qmin ≤ Q → Q ≤ Qmax → ¬ Closes v Q (E Q)) {us : List ℝ} :
    ∀ {c : Nat}, (∀ x ∈ us, 0 ≤ x ∧ x ≤ 1) → eqLoop E Qmin Qmax (energy v) (kOf v) c us = none := by
  induction us with
  | nil => intro c _; rfl
  | cons u us ih =>
    intro c hus
    have back : ∀ c1, eqLoop E Qmin Qmax (energy v) (kOf v) c1 us = none :=
      fun _ => ih fun x hx => hus x (List.mem_cons_of_mem _ hx)
    obtain ⟨q1, q2⟩ := random_mem (hus u List.mem_cons_self).1 (hus u List.mem_cons_self).2 hQ
    have hcl := hn _ q1 q2
    have hki := kOf_pos hv
    unfold eqLoop
    simp only
    set Q := random u Qmin Qmax
    split
    · exact back _
    · next w hw =>
      obtain ⟨hk, hEle⟩ := kFinal_of_E2v hw
      rw [hk]
      split
      · next hd =>
        split
        · next hz =>
          exfalso
          have hkf : kFinal v (E Q) = 0 := by
            by_contra hne
            rw [divD_ok (mul_ne_zero (mul_ne_zero two_ne_zero hki.ne') hne)] at hd
            simp at hd
          apply hcl
          rw [hkf] at hz
          have hQk : Q = kOf v := by
            have : (Q - kOf v) * (Q + kOf v) = 0 := by linear_combination -hz
            rcases mul_eq_zero.1 this with h | h
            · linarith
            · linarith
          refine ⟨hEle, ?_, ?_⟩
          · rw [hkf, sub_zero, abs_of_pos hki, hQk]
          · rw [hkf, add_zero, hQk]
        · exact back _
      · next d hd =>
        split
        · exact back _
        · next hle =>
          exfalso
          obtain ⟨hne, hdv⟩ := divD_some hd
          have hkf : 0 < kFinal v (E Q) := lt_of_le_of_ne (kFinal_nonneg _ _) fun e => hne (by rw [← e]; ring)
          apply hcl
          refine ⟨hEle, closes_of_cos hki hkf (h0.trans q1) ?_⟩
          rw [← hdv]
          exact not_lt.1 hle

/-- the E(Q) kernel when the first trial succeeds -/
theorem eqS_first {E S : ℝ → ℝ} {Qmin Qmax x u : ℝ} {us : List ℝ} {ev : Ev} (hv : ev.v ≠ 0)
    (hE : E (random x Qmin Qmax) < energy ev.v)
    (hcl : Closes ev.v (random x Qmin Qmax) (E (random x Qmin Qmax))) :
    prob (eqS E S Qmin Qmax (x :: us) u ev) =
      ev.p * (S (random x Qmin Qmax) * random x Qmin Qmax * (Qmax - Qmin) / (2 * kOf ev.v ^ 2)) := by
  set Q := random x Qmin Qmax with hQ
  have hki := kOf_pos hv
  have hl := length_pos hv
  have hkf := kFinal_pos hE
  have hvf := E2v_ok (sub_pos.2 hE).le
  have hkv := (kFinal_of_E2v hvf).1
  set vf := √(energy ev.v - E Q) * sqrte2v with hvfd
  have hvp : 0 < vf := mul_pos (Real.sqrt_pos.2 (sub_pos.2 hE)) sqrte2v_pos
  have hc := cos_le hki hkf hcl.2.1 hcl.2.2
  set c := (kOf ev.v * kOf ev.v + kFinal ev.v (E Q) * kFinal ev.v (E Q) - Q * Q) /
    (2 * kOf ev.v * kFinal ev.v (E Q)) with hcd
  have hloop : eqLoop E Qmin Qmax (energy ev.v) (kOf ev.v) 1 (x :: us) =
      some (some (Q, vf, kFinal ev.v (E Q), c, 1)) := by
    unfold eqLoop
    simp only [← hQ, hvf, hkv]
    rw [divD_ok (by positivity)]
    simp only [← hcd]
    rw [if_neg (not_lt.2 hc)]
  obtain ⟨⟨e1, e2, e3⟩, hax⟩ := axes_ok (eps := 1e-4) (by norm_num) hv
  unfold eqS
  simp only [v2E_length, kOf_eq, hloop, Option.bind_eq_bind]
  rw [sqrtD_ok (sub_nonneg.2 hc), Option.bind_some, hax, Option.bind_some, divD_ok hl.ne', Option.bind_some,
    divD_ok (by positivity), Option.bind_some]
  simp only [prob]
  rw [← hkv, ← kOf_eq, Nat.cast_one]
  have := v2k_pos
  field_simp

/-- the neutron of the examples: one metre per second along z -/
noncomputable def evz : Ev := ⟨0, ⟨0, 0, 1⟩, 0, 0, 0, 1⟩

theorem evz_energy : energy evz.v = vsq2e := by simp [energy, evz, V3.dot]
theorem evz_clear (eps : ℝ) : Clear eps evz.v := .inl ⟨rfl, rfl⟩
theorem evz_ne : evz.v ≠ 0 := fun h => by simpa [evz] using congrArg V3.z h
theorem evz_k : kOf evz.v = v2k := by simp [kOf, evz, V3.dot]
theorem vsq2e_lt : vsq2e < 1 := by unfold vsq2e; norm_num


/-- weight that the loop of the E(Q) kernel gives for E = 0, S = 1 and Q between 0 and twice the largest
possible value -/
noncomputable def biasF (c : Nat) (us : List ℝ) : ℝ :=
  match eqLoop (fun _ => 0) 0 (4 * v2k) vsq2e v2k c us with
  | some (some (Q, _, _, _, n)) => Q * (4 * v2k) / n / (v2k * v2k) / 2
  | _ => 0

theorem evz_length : length evz.v = 1 := by
  rw [length_eq, show evz.v.dot evz.v = 1 by simp [evz, V3.dot], Real.sqrt_one]

theorem bias_eq (us : List ℝ) :
    prob (eqS (fun _ => 0) (fun _ => 1) 0 (4 * kOf evz.v) us 0 evz) = biasF 1 us := by
  unfold eqS biasF
  simp only [v2E_length, kOf_eq, evz_k, evz_energy]
  rcases h : eqLoop (fun _ => 0) 0 (4 * v2k) vsq2e v2k 1 us with _ | _ | ⟨Q, vf, kf, c, n⟩
  · rfl
  · rfl
  · obtain ⟨_, hvf, hkf, _, hle⟩ := eqLoop_some h
    have h1 : E2v vsq2e = some 1 := E2v_of zero_le_one (by ring)
    rw [sub_zero, h1] at hvf
    simp only [Option.some.injEq] at hvf
    subst hvf
    rw [mul_one] at hkf
    subst hkf
    have hk := v2k_pos
    obtain ⟨⟨e1, e2, e3⟩, hax⟩ := axes_ok (eps := 1e-4) (by norm_num) evz_ne
    simp only [Option.bind_eq_bind]
    rw [sqrtD_ok (sub_nonneg.2 hle), Option.bind_some, hax, Option.bind_some, evz_length,
      divD_ok one_ne_zero, Option.bind_some, divD_ok (by positivity), Option.bind_some]
    simp [prob, evz]

theorem biasF_cons (c : Nat) {u : ℝ} (h0 : 0 < u) (us : List ℝ) :
    biasF c (u :: us) = if u ≤ 1 / 2 then 8 * u / c else biasF (c + 1) us := by
  have h1 : E2v vsq2e = some 1 := E2v_of zero_le_one (by ring)
  have hk := v2k_pos
  unfold biasF
  rw [eqLoop]
  simp only [sub_zero, h1, mul_one]
  rw [divD_ok (by positivity)]
  simp only [random, sub_zero, add_zero]
  have e : (v2k * v2k + v2k * v2k - u * (4 * v2k) * (u * (4 * v2k))) / (2 * v2k * v2k) = 1 - 8 * u ^ 2 := by
    field_simp; ring
  rw [e]
  by_cases hu : u ≤ 1 / 2
  · have a : 0 ≤ 1 - 4 * u ^ 2 := by nlinarith
    rw [if_neg (by nlinarith [mul_nonneg (sq_nonneg u) a]), if_pos hu]
    simp only
    field_simp
    ring
  · have a : 0 < 4 * u ^ 2 - 1 := by push Not at hu; nlinarith
    rw [if_pos (by nlinarith [mul_pos (pow_pos h0 2) a]), if_neg hu]

theorem mean_half (c W : ℝ) : mean (fun u => if u ≤ 1 / 2 then 8 * u / c else W) = 1 / c + W / 2 := by
  unfold mean
  have f1 : ∀ u : ℝ, u ∈ Set.Ioo (0 : ℝ) (1 / 2) → 8 * u / c = if u ≤ 1 / 2 then 8 * u / c else W :=
    fun u hu => by rw [if_pos hu.2.le]
  have f2 : ∀ u : ℝ, u ∈ Set.Ioo (1 / 2 : ℝ) 1 → W = if u ≤ 1 / 2 then 8 * u / c else W :=
    fun u hu => by rw [if_neg (not_le.2 hu.1)]
  rw [← intervalIntegral.integral_add_adjacent_intervals (b := 1 / 2)]
  · rw [← intervalIntegral.integral_congr_Ioo_of_le (by norm_num) f1,
      ← intervalIntegral.integral_congr_Ioo_of_le (by norm_num) f2]
    have e : (∫ u in (0 : ℝ)..1 / 2, 8 * u / c) = 8 / c * ∫ u in (0 : ℝ)..1 / 2, u := by
      rw [← intervalIntegral.integral_const_mul]
      congr 1
      funext u
      ring
    rw [e, integral_id, intervalIntegral.integral_const]
    simp only [smul_eq_mul]
    ring
  · apply (intervalIntegrable_iff_integrableOn_Ioo_of_le (by norm_num)).2
    exact ((Continuous.integrableOn_Icc (by fun_prop)).mono_set
          Set.Ioo_subset_Icc_self).congr_fun f1 measurableSet_Ioo
  · apply (intervalIntegrable_iff_integrableOn_Ioo_of_le (by norm_num)).2
    exact ((Continuous.integrableOn_Icc (by fun_prop)).mono_set
          Set.Ioo_subset_Icc_self).congr_fun f2 measurableSet_Ioo

theorem meanN_bias (n c : Nat) :
    meanN (n + 1) (biasF c) = 1 / c + meanN n (biasF (c + 1)) / 2 := by
  rw [← mean_half, meanN]
  apply mean_congr
  intro u h0 _
  simp only [biasF_cons c h0]
  split
  · rw [meanN_const]
  · rfl

theorem meanN_bias_nonneg (n : Nat) : ∀ c, 0 ≤ meanN n (biasF c) := by
  induction n with
  | zero => intro c; exact le_rfl
  | succ n ih =>
    intro c
    rw [meanN_bias]
    have := ih (c + 1)
    positivity

theorem bias_ge : 1.25 ≤ meanN 100 (fun us => prob (eqS (fun _ => 0) (fun _ => 1) 0 (4 * kOf evz.v) us 0 evz)) := by
  have : (fun us => prob (eqS (fun _ => 0) (fun _ => 1) 0 (4 * kOf evz.v) us 0 evz)) = biasF 1 :=
    funext bias_eq
  rw [this, meanN_bias, meanN_bias]
  have := meanN_bias_nonneg 98 (1 + 1 + 1)
  push_cast
  norm_num at this ⊢
  linarith

theorem hasDerivAt_energyAt (L t tof : ℝ) (h : tof - t ≠ 0) :
    HasDerivAt (energyAt L t) (-(2 * energyAt L t tof / (tof - t))) tof := by
  have h1 : HasDerivAt (fun x => x - t) 1 tof := (hasDerivAt_id tof).sub_const t
  have h2 := (((h1.fun_inv h).const_mul L).fun_pow 2).const_mul vsq2e
  have e : energyAt L t = fun x => vsq2e * (L * (x - t)⁻¹) ^ 2 := by
    funext x; unfold energyAt; rw [div_eq_mul_inv]
  rw [e]
  refine h2.congr_deriv ?_
  norm_num
  field_simp

/-- what the resolution kernel does -/
theorem dgsS_some {target dir : V3 ℝ} {tofAt dtof solid u tof L : ℝ} {ev ev' : Ev}
    (hL : L = √((target - ev.r).dot (target - ev.r))) (htof : tof = tofAt - dtof / 2 + u * dtof)
    (h : dgsS target tofAt dtof dir solid u ev = some ev') :
    tof - ev.t ≠ 0 ∧ tof ≠ 0 ∧ ∃ n : V3 ℝ, n.dot n = 1 ∧
      ev' = { ev with
        v := (L / (tof - ev.t)) • n,
        p := ev.p * (solid / 4 / Real.pi * dtof * (2 * energyAt L ev.t tof / tof) *
          (L / (tof - ev.t) / √(ev.v.dot ev.v))) } := by
  unfold dgsS at h
  have hr : random u (tofAt - dtof / 2) (tofAt + dtof / 2) = tof := by rw [htof]; unfold random; ring
  simp only [hr, length_eq, ← hL, Option.bind_eq_bind, Option.bind_eq_some_iff] at h
  obtain ⟨n, h1, vf, h2, d, h3, r, h4, h5⟩ := h
  obtain ⟨_, _, hn, _⟩ := normalize_some h1
  obtain ⟨k1, rfl⟩ := divD_some h2
  obtain ⟨k2, rfl⟩ := divD_some h3
  obtain ⟨k3, rfl⟩ := divD_some h4
  simp only [Option.some.injEq] at h5
  refine ⟨k1, k2, n, hn, ?_⟩
  rw [← h5]
  have : v2E (L / (tof - ev.t)) = energyAt L ev.t tof := by unfold v2E energyAt; ring
  rw [this]

end Verif.Kinem
