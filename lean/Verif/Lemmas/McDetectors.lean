import Verif.Spec.McDetectors
import Verif.Lemmas.McMonitors
import Verif.Props.McStas
/-!
Lemmas for the monitors of McStas that surround the sample.
-/

namespace Verif.McMon
open McStas Kinem Flight Solid

theorem leaves {G : Gravity} {r h : ℝ} (hh : 0 ≤ h) {e b : Event ℝ} (hl : LeavesCylinder G r h e b) :
    ∃ k t0 t1, cylinderIntersect e.r e.v r h = some (some (k, t0, t1)) ∧ t0 ≤ 0 ∧ 0 ≤ t1 ∧ propDt G t1 e = b ∧
      |b.r.y| ≤ h / 2 ∧ b.r.x ^ 2 + b.r.z ^ 2 ≤ r ^ 2 := by
  obtain ⟨hG, hv, h0, s, hs, hmax, rfl⟩ := hl
  rcases C165_cylinder_partial (p := e.r) hv r hh with ⟨_, h1⟩ | ⟨k1, k2, t0, t1, g1, _, _, g2, g3⟩
  · exact absurd h0 (h1 0)
  · have hst : s = t1 := le_antisymm ((g3 s).1 hs).2 (hmax t1 ((g3 t1).2 ⟨g2, le_rfl⟩))
    subst hst
    have h0' := (g3 0).1 h0
    refine ⟨_, t0, s, g1, h0'.1, h0'.2, ?_, ?_, ?_⟩
    · unfold propDt
      rw [if_neg (by linarith [h0'.2]), if_neg (by rw [hG]; simp), propDtFree_eq hG]
    · unfold flown accel
      rw [hG]
      simpa using hs.2
    · unfold flown accel
      rw [hG]
      simpa using hs.1

theorem micro {t0 t1 : ℝ} (h : t0 < t1) (t : ℝ) (n : Nat) : chan t (t0 * 1e-6) (t1 * 1e-6) n = chan (1e6 * t) t0 t1 n := by
  unfold chan
  congr 1
  have : t1 - t0 ≠ 0 := by linarith
  have h2 : t1 * 1e-6 - t0 * 1e-6 = (t1 - t0) * 1e-6 := by ring
  rw [h2, div_eq_div_iff (by norm_num [this]) this]
  norm_num
  ring

theorem azimuth_chan {n : Nat} (hn : 0 < n) (x z : ℝ) : ⌊(n : ℝ) / 2 + degrees x z / (360 / n)⌋ =
    chan (Complex.arg ⟨z, x⟩ * 180 / Real.pi) (-180) 180 n := by
  have hn' : (0 : ℝ) < n := by exact_mod_cast hn
  unfold chan degrees Frames.arctan2
  congr 1
  have := Real.pi_pos
  field_simp
  ring

theorem azimuth_range (e : Event ℝ) : -180 < azimuth e ∧ azimuth e ≤ 180 := by
  unfold azimuth
  have h := Real.pi_pos
  have h1 := Complex.neg_pi_lt_arg ⟨e.r.z, e.r.x⟩
  have h2 := Complex.arg_le_pi ⟨e.r.z, e.r.x⟩
  rw [lt_div_iff₀ h, div_le_iff₀ h]
  constructor <;> nlinarith

theorem latitude_range (R : ℝ) (e : Event ℝ) : -90 ≤ latitude R e ∧ latitude R e ≤ 90 := by
  unfold latitude
  have h := Real.pi_pos
  have h1 := Real.neg_pi_div_two_le_arcsin (e.r.y / R)
  have h2 := Real.arcsin_le_pi_div_two (e.r.y / R)
  rw [le_div_iff₀ h, div_le_iff₀ h]
  constructor <;> nlinarith

theorem height_chan (y h : ℝ) (n : Nat) : ⌊y / h * n⌋ = chan y 0 h n := by
  unfold chan
  congr 1
  rw [sub_zero, sub_zero]
  ring

theorem circle_chan (e : Event ℝ) (n : Nat) : ⌊Frames.arctan2 e.r.x e.r.z / (2 * Real.pi) * n⌋ = chan (azimuth e) 0 360 n := by
  unfold chan azimuth Frames.arctan2
  congr 1
  have := Real.pi_pos
  field_simp
  ring

theorem longitude_chan (e : Event ℝ) {n : Nat} (hn : 0 < n) :
    ⌊n * (Frames.arctan2 e.r.x e.r.z / (2 * Real.pi) + 0.5)⌋ = chan (azimuth e) (-180) 180 n := by
  unfold chan azimuth Frames.arctan2
  congr 1
  have := Real.pi_pos
  norm_num
  field_simp
  ring

theorem latitude_chan (R : ℝ) (e : Event ℝ) {n : Nat} (hn : 0 < n) :
    ⌊n * (Real.arcsin (e.r.y / R) + Real.pi / 2) / Real.pi + 0.5⌋ = ⌊latitude R e / (180 / n) + n / 2 + 1 / 2⌋ := by
  have hn' : (0 : ℝ) < n := by exact_mod_cast hn
  unfold latitude
  congr 1
  have := Real.pi_pos
  norm_num
  field_simp

theorem limit_range {x : ℤ} {n : Nat} (hn : 0 < n) : 0 ≤ limit x n ∧ limit x n < n := by
  unfold limit
  split_ifs <;> omega

theorem sphere_times {e : Event ℝ} (hv : e.v ≠ 0) (R : ℝ) :
    (sphereIntersect e.r e.v R = some none ∧ ∀ s, ¬ OnSphere R e s) ∨
    ∃ t0 t1, sphereIntersect e.r e.v R = some (some (t0, t1)) ∧ t0 ≤ t1 ∧ ∀ s, OnSphere R e s ↔ s = t0 ∨ s = t1 := by
  have hA : √(e.v.x * e.v.x + e.v.y * e.v.y + e.v.z * e.v.z) * √(e.v.x * e.v.x + e.v.y * e.v.y + e.v.z * e.v.z) = e.v.dot e.v :=
    Real.mul_self_sqrt (McStas.dot_self_pos hv).le
  have hA0 := McStas.dot_self_pos hv
  have h : ∀ s, OnSphere R e s ↔ e.v.dot e.v * s ^ 2 + 2 * (e.r.x * e.v.x + e.r.y * e.v.y + e.r.z * e.v.z) * s +
      (e.r.x * e.r.x + e.r.y * e.r.y + e.r.z * e.r.z - R * R) = 0 := by
    intro s
    unfold OnSphere
    simp only [V3.dot]
    constructor <;> intro h <;> linarith
  unfold sphereIntersect
  simp only [hA]
  split
  · next hD =>
    refine .inl ⟨rfl, fun s hs => ?_⟩
    rw [h] at hs
    linarith [quad_pos hA0 hD s]
  · next hD =>
    push Not at hD
    right
    simp only [divD_ok (show 2 * e.v.dot e.v ≠ 0 by positivity), Option.bind_eq_bind, Option.bind_some]
    refine ⟨_, _, rfl, quad_order hA0, fun s => ?_⟩
    rw [h]
    have hr := quad_root hA0 hD
    refine ⟨fun hs => ?_, ?_⟩
    · generalize e.v.dot e.v = A at *
      generalize 2 * (e.r.x * e.v.x + e.r.y * e.v.y + e.r.z * e.v.z) = B at *
      generalize e.r.x * e.r.x + e.r.y * e.r.y + e.r.z * e.r.z - R * R = C at *
      have hq := Real.mul_self_sqrt hD
      have : (2 * A * s + B - √(B * B - 4 * A * C)) * (2 * A * s + B + √(B * B - 4 * A * C)) = 0 := by
        linear_combination 4 * A * hs - hq
      rw [eq_div_iff (by positivity), eq_div_iff (by positivity)]
      rcases mul_eq_zero.1 this with h | h
      · right; linarith
      · left; linarith
    · rintro (hs | hs)
      · exact hr.1 s hs
      · exact hr.2 s hs

theorem elevation_nonneg {v : V3 ℝ} (h : 0 ≤ v.y) : 0 ≤ elevation v := by
  unfold elevation
  have := Real.pi_pos
  have : 0 ≤ Real.arcsin (v.y / length v) := Real.arcsin_nonneg.2 (div_nonneg h (by rw [length_eq]; exact Real.sqrt_nonneg _))
  positivity

theorem elevation_up {v : V3 ℝ} (h : 0 < v.y) :
    90 - Real.arctan (√(v.x * v.x + v.z * v.z) / v.y) / Real.pi * 180 = elevation v := by
  have hp := Real.pi_pos
  have hl : √(1 + (√(v.x * v.x + v.z * v.z) / v.y) ^ 2) = length v / v.y := by
    rw [length_eq, div_pow, Real.sq_sqrt (by nlinarith [mul_self_nonneg v.x, mul_self_nonneg v.z]),
      show 1 + (v.x * v.x + v.z * v.z) / v.y ^ 2 = v.dot v / v.y ^ 2 by simp only [V3.dot]; field_simp; ring,
      Real.sqrt_div' _ (by positivity), Real.sqrt_sq h.le]
  rw [Real.arctan_eq_arccos (by positivity), hl, inv_div, Real.arccos]
  unfold elevation
  field_simp
  ring

theorem outOfPlane_eq (v : V3 ℝ) : outOfPlane v = |elevation v| := by
  unfold outOfPlane
  rcases lt_trichotomy v.y 0 with h | h | h
  · rw [if_pos h.ne]
    simp only [if_neg (not_lt.2 h.le), gt_iff_lt]
    have := elevation_up (v := ⟨v.x, -v.y, v.z⟩) (by simpa using h)
    have he : elevation ⟨v.x, -v.y, v.z⟩ = -elevation v := by
      unfold elevation
      have : length ⟨v.x, -v.y, v.z⟩ = length v := by
        rw [length_eq, length_eq]; simp only [V3.dot]; congr 1; ring
      rw [this, neg_div, Real.arcsin_neg]
      ring
    rw [he] at this
    simp only [div_neg, Real.arctan_neg, neg_div, neg_mul] at this
    have hn : elevation v ≤ 0 := by
      have := elevation_nonneg (v := ⟨v.x, -v.y, v.z⟩) (by simpa using h.le)
      rw [he] at this
      linarith
    rw [abs_of_nonpos hn]
    linarith
  · rw [if_neg (by rw [h]; simp)]
    unfold elevation
    rw [h]
    simp
  · rw [if_pos h.ne']
    simp only [gt_iff_lt, if_pos h]
    rw [elevation_up h, abs_of_nonneg (elevation_nonneg h.le)]

end Verif.McMon
