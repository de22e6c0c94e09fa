import Verif.Lemmas.Spheres
/-!
Property theorems C144 to C146: small angle scattering by spheres.
-/

namespace Verif.Broad
open Solid Flight Homog Kinem Sampling MeasureTheory Set

/-- the spheres of the examples, with a maximal angle of 60 degrees -/
noncomputable def balls : Spheres := ⟨0, 4 / v2k, 1 / 2, 1, 60⟩

theorem balls_proper : Proper balls ∧ 0 < balls.R := by
  have := v2k_pos
  unfold Proper balls
  exact ⟨by norm_num, by positivity⟩

/-- C144: scattering is elastic, keeps the place, and the cosine of the angle is distributed uniformly between that of the
maximal angle and 1 -/
theorem C144_elastic {k : Spheres} (hk : Proper k) (hR : 0 < k.R) {ev : Ev} (hv : ev.v ≠ 0) {u1 : ℝ} (h0 : 0 ≤ u1)
    (h1 : u1 < 1) (u2 : ℝ) :
    ∃ ev', k.S u1 u2 ev = some ev' ∧ SamePlace ev ev' ∧ energy ev'.v = energy ev.v ∧
      (wave ev'.v).dot (wave ev.v) =
        (Real.cos (k.maxAngle * (Real.pi / 180)) + u1 * (1 - Real.cos (k.maxAngle * (Real.pi / 180)))) * kOf ev.v ^ 2 := by
  obtain ⟨ev', e1, e2, e3, e4, -⟩ := spheres_eq hk hR hv h0 h1 rfl u2
  have : k.maxAngle * (Real.pi / 180) = k.angle := by unfold Spheres.angle; ring
  rw [this]
  exact ⟨ev', e1, e2, e3, e4⟩

/-- example -/
example : Proper balls ∧ 0 < balls.R ∧ evz.v ≠ 0 := ⟨balls_proper.1, balls_proper.2, evz_ne⟩

/-- C144 is false at the end of the range of the random numbers: the weight is not a number in forward direction -/
theorem C144_forward_false : Proper balls ∧ 0 < balls.R ∧ evz.v ≠ 0 ∧ ∀ u2, balls.S 1 u2 evz = none := by
  refine ⟨balls_proper.1, balls_proper.2, evz_ne, fun u2 => ?_⟩
  have hv2 := v2k_pos
  have hki := kOf_pos evz_ne
  have hkl : length (v2k • evz.v) = kOf evz.v := by rw [Bragg.length_smul', abs_of_pos hv2, kOf_eq]
  have ht : v2k • evz.v ≠ 0 := by
    intro h
    have := congrArg length h
    rw [hkl, length_eq] at this
    simp [V3.dot] at this
    exact hki.ne' this
  obtain ⟨d, e1, e2, e3⟩ := C140_cone ht (Real.tan balls.angle * length (v2k • evz.v)) zero_le_one le_rfl u2
  rw [edge_tan ht (proper_angle balls_proper.1), hkl] at e1
  rw [one_mul, add_sub_cancel, one_mul] at e3
  have hq : length (v2k • evz.v - d) = 0 := by
    rw [length_eq]
    have : (v2k • evz.v - d).dot (v2k • evz.v - d) = (v2k • evz.v).dot (v2k • evz.v) + d.dot d - 2 * d.dot (v2k • evz.v) := by
      simp only [V3.dot, V3.sub_x, V3.sub_y, V3.sub_z]; ring
    rw [this, e2, e3]
    simp [two_mul]
  unfold Spheres.S
  simp only [kOf_eq, e1, Option.bind_eq_bind, Option.bind_some, hq, zero_mul]
  simp [divD]

/-- C145, partial: the expectation of every observable of the momentum transfer is the integral of the differential cross
section over the directions within the maximal angle, divided by `4π`.  Missing: the factor `4π`, see `C145_weight_false`. -/
theorem C145_factor_partial {k : Spheres} (hk : Proper k) (hR : 0 < k.R) {ev : Ev} (hv : ev.v ≠ 0) (G : ℝ → ℝ) :
    k.coefficient ev * mean2 (fun u1 u2 => weighQ G ev (k.S u1 u2 ev)) =
      ev.p * spheresTruth k G (kOf ev.v) (Real.cos (k.maxAngle * (Real.pi / 180))) / (4 * Real.pi) := by
  have : k.maxAngle * (Real.pi / 180) = k.angle := by unfold Spheres.angle; ring
  rw [this]
  exact spheres_mean hk hR hv G

/-- C145, partial: the shape of the intensity is right -/
theorem C145_shape_partial {k : Spheres} (hk : Proper k) (hR : 0 < k.R) {ev : Ev} (hv : ev.v ≠ 0) (G H : ℝ → ℝ) :
    k.coefficient ev * mean2 (fun u1 u2 => weighQ G ev (k.S u1 u2 ev)) *
        spheresTruth k H (kOf ev.v) (Real.cos (k.maxAngle * (Real.pi / 180))) =
      k.coefficient ev * mean2 (fun u1 u2 => weighQ H ev (k.S u1 u2 ev)) *
        spheresTruth k G (kOf ev.v) (Real.cos (k.maxAngle * (Real.pi / 180))) := by
  rw [C145_factor_partial hk hR hv, C145_factor_partial hk hR hv]
  ring

/-- C146: the integral of the differential cross section over the directions within the angle whose cosine is `c0` -/
theorem C146_total {k : Spheres} (hR : 0 < k.R) (hp : 0 ≤ k.phi) {ev : Ev} (hv : ev.v ≠ 0) {c0 : ℝ} (hc : c0 < 1) :
    spheresTruth k (fun _ => 1) (kOf ev.v) c0 =
      k.coefficient ev * (1 - besselSq (kOf ev.v * √(2 * (1 - c0)) * k.R)) := by
  rw [total_cap hR hp (kOf_pos hv) hc, coefficient_eq]

theorem root_four : √(2 * (1 - (-1 : ℝ))) = 2 := by
  rw [show (2 : ℝ) * (1 - -1) = 2 ^ 2 by norm_num]
  exact Real.sqrt_sq (by norm_num)

/-- C146, partial: the scattering coefficient is the total cross section up to a relative error that vanishes for spheres
that are large compared with the wavelength.  Missing: equality, see `C146_coefficient_false`. -/
theorem C146_limit_partial {k : Spheres} (hR : 0 < k.R) (hp : 0 ≤ k.phi) {ev : Ev} (hv : ev.v ≠ 0) {x : ℝ}
    (hx : x = 2 * kOf ev.v * k.R) :
    |k.coefficient ev - spheresTruth k (fun _ => 1) (kOf ev.v) (-1)| ≤ k.coefficient ev * (1 / x ^ 2 + (1 + x) ^ 2 / x ^ 4) := by
  have hki := kOf_pos hv
  rw [C146_total hR hp hv (by norm_num), root_four, show kOf ev.v * 2 * k.R = x by rw [hx]; ring]
  have hx0 : 0 < x := by rw [hx]; positivity
  have hco : 0 ≤ k.coefficient ev := by rw [coefficient_eq]; positivity
  rw [show k.coefficient ev - k.coefficient ev * (1 - besselSq x) = k.coefficient ev * besselSq x by ring,
    abs_of_nonneg (mul_nonneg hco (besselSq_pos hx0).le)]
  exact mul_le_mul_of_nonneg_left (besselSq_le hx0) hco

/-- example -/
example : 0 < balls.R ∧ 0 ≤ balls.phi ∧ evz.v ≠ 0 ∧ (0 : ℝ) < 1 := by
  refine ⟨balls_proper.2, ?_, evz_ne, one_pos⟩
  unfold balls; norm_num

/-- C146 is false for all spheres and neutrons: the scattering coefficient is larger than the total cross section -/
theorem C146_coefficient_false {k : Spheres} (hR : 0 < k.R) (hp : 0 < k.phi) (hd : k.deltaRho ≠ 0) {ev : Ev} (hv : ev.v ≠ 0) :
    spheresTruth k (fun _ => 1) (kOf ev.v) (-1) < k.coefficient ev := by
  have hki := kOf_pos hv
  rw [C146_total hR hp.le hv (by norm_num), root_four]
  have hb := besselSq_pos (show 0 < kOf ev.v * 2 * k.R by positivity)
  have hco : 0 < k.coefficient ev := by rw [coefficient_eq]; have := Real.pi_pos; positivity
  nlinarith

/-- the witness -/
example : spheresTruth balls (fun _ => 1) (kOf evz.v) (-1) < balls.coefficient evz :=
  C146_coefficient_false balls_proper.2 (by norm_num [balls]) (by norm_num [balls]) evz_ne

/-- C145 is false: the expected weight is smaller than the cross section -/
theorem C145_weight_false : Proper balls ∧ 0 < balls.R ∧ evz.v ≠ 0 ∧ 0 < evz.p ∧
    balls.coefficient evz * mean2 (fun u1 u2 => weighQ (fun _ => 1) evz (balls.S u1 u2 evz)) <
      evz.p * spheresTruth balls (fun _ => 1) (kOf evz.v) (Real.cos (balls.maxAngle * (Real.pi / 180))) := by
  refine ⟨balls_proper.1, balls_proper.2, evz_ne, one_pos, ?_⟩
  rw [C145_factor_partial balls_proper.1 balls_proper.2 evz_ne]
  have hcos : Real.cos (balls.maxAngle * (Real.pi / 180)) = 1 / 2 := by
    rw [show balls.maxAngle * (Real.pi / 180) = Real.pi / 3 by unfold balls; ring, Real.cos_pi_div_three]
  have hpos : 0 < spheresTruth balls (fun _ => 1) (kOf evz.v) (Real.cos (balls.maxAngle * (Real.pi / 180))) := by
    rw [hcos, C146_total balls_proper.2 (by norm_num [balls]) evz_ne (by norm_num)]
    have hco : 0 < balls.coefficient evz := by
      rw [coefficient_eq]
      have := Real.pi_pos
      have := kOf_pos evz_ne
      have := balls_proper.2
      refine mul_pos (mul_pos (mul_pos ?_ ?_) (by positivity)) this <;> norm_num [balls]
    refine mul_pos hco ?_
    rw [evz_k, show √(2 * (1 - 1 / 2 : ℝ)) = 1 by norm_num, show v2k * 1 * balls.R = 4 by
      unfold balls; have := v2k_pos; field_simp]
    have := besselSq_le (x := 4) (by norm_num)
    norm_num at this
    linarith
  rw [show evz.p = 1 from rfl, one_mul, div_lt_iff₀ (by have := Real.pi_pos; positivity)]
  have := Real.two_le_pi
  nlinarith

end Verif.Broad
