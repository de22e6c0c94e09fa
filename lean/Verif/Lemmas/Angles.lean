import Verif.Lemmas.Frames
/-! Helper lemmas about rotation angles. -/

namespace Verif.Frames
variable {F : Type}

theorem det_transpose [CommRing F] (m : M3 F) : m.transpose.det = m.det := by
  simp only [M3.det, M3.transpose, V3.dot, V3.cross]; ring

theorem IsRotation.transpose [CommRing F] {m : M3 F} (h : IsRotation m) : IsRotation m.transpose :=
  ⟨h.1.cols, by rw [det_transpose]; exact h.2⟩

theorem IsRotation.cross [CommRing F] {m : M3 F} (h : IsRotation m) :
    V3.cross m.r1 m.r2 = m.r0 ∧ V3.cross m.r2 m.r0 = m.r1 ∧ V3.cross m.r0 m.r1 = m.r2 := by
  obtain ⟨ho, hd⟩ := h
  have key : ∀ a b, m.mulVec a = m.mulVec b → a = b := by
    intro a b e
    rw [← ho.labVec_mulVec a, e, ho.labVec_mulVec b]
  obtain ⟨⟨h00, h11, h22⟩, h01, h02, h12⟩ := ho
  simp only [M3.det, V3.dot, V3.cross] at *
  refine ⟨key _ _ ?_, key _ _ ?_, key _ _ ?_⟩
  · ext <;> simp only [M3.mulVec]
    · linear_combination hd - h00
    · linear_combination -h01
    · linear_combination -h02
  · ext <;> simp only [M3.mulVec]
    · linear_combination -h01
    · linear_combination hd - h11
    · linear_combination -h12
  · ext <;> simp only [M3.mulVec]
    · linear_combination -h02
    · linear_combination -h12
    · linear_combination hd - h22

theorem matrixCS_rotation [CommRing F] {cx sx cy sy cz sz : F} (hx : cx * cx + sx * sx = 1)
    (hy : cy * cy + sy * sy = 1) (hz : cz * cz + sz * sz = 1) :
    IsRotation (matrixCS cx sx cy sy cz sz) := by
  refine ⟨⟨⟨?_, ?_, ?_⟩, ?_, ?_, ?_⟩, ?_⟩ <;> simp only [matrixCS, M3.det, V3.dot, V3.cross]
  · linear_combination (cz * cz * sy * sy + sz * sz) * hx + cz * cz * hy + hz
  · linear_combination (cz * cz + sz * sz * sy * sy) * hx + sz * sz * hy + hz
  · linear_combination cy * cy * hx + hy
  · linear_combination (-cz * sz * sy * sy + cz * sz) * hx - cz * sz * hy
  · linear_combination (-sy * cy * cz) * hx
  · linear_combination (sy * cy * sz) * hx
  · linear_combination (sy ^ 2 * cz ^ 2 + sy ^ 2 * sz ^ 2 + cy ^ 2 * cz ^ 2 + cy ^ 2 * sz ^ 2) * hx + (cz ^ 2 + sz ^ 2) * hy + hz

theorem sq_add (a : ℝ) : Real.cos a * Real.cos a + Real.sin a * Real.sin a = 1 := by
  have := Real.cos_sq_add_sin_sq a; linarith [sq (Real.cos a), sq (Real.sin a)]

theorem toMatrixRad_rotation (a : V3 ℝ) : IsRotation (toMatrixRad a) :=
  matrixCS_rotation (sq_add _) (sq_add _) (sq_add _)

theorem arctan2_spec {y x c : ℝ} (hc : 0 ≤ c) (h : x * x + y * y = c * c) (h0 : c ≠ 0) :
    c * Real.cos (arctan2 y x) = x ∧ c * Real.sin (arctan2 y x) = y := by
  have hn : ‖(⟨x, y⟩ : ℂ)‖ = c := by
    rw [Complex.norm_def, Complex.normSq_mk, h, Real.sqrt_mul_self hc]
  have hz : (⟨x, y⟩ : ℂ) ≠ 0 := by
    intro e; rw [e, norm_zero] at hn; exact h0 hn.symm
  constructor
  · have := Complex.cos_arg hz
    rw [arctan2, this, hn]; field_simp
  · have := Complex.sin_arg ⟨x, y⟩
    rw [arctan2, this, hn]; field_simp

theorem toMatrix_degrees (a : V3 ℝ) :
    toMatrix ⟨todegree a.x, todegree a.y, todegree a.z⟩ = toMatrixRad a := by
  have h : ∀ x : ℝ, toradian (todegree x) = x := by
    intro x; have := Real.pi_ne_zero; simp only [toradian, todegree]; field_simp
  simp only [toMatrix, h]

theorem entryBad_self (a : ℝ) : ¬ entryBad a a := by
  simp only [entryBad, sub_self, zero_div, abs_zero]
  split <;> norm_num

theorem checkBad_self (m : M3 ℝ) : ¬ checkBad m m := by
  simp [checkBad, entryBad_self]

theorem abs_entry_le {m : M3 ℝ} (h : IsOrtho m) : -1 ≤ m.r2.x ∧ m.r2.x ≤ 1 := by
  have h22 := h.1.2.2
  simp only [V3.dot] at h22
  constructor <;> nlinarith [mul_self_nonneg m.r2.y, mul_self_nonneg m.r2.z]

/-- recovery away from gimbal lock -/
theorem rawAngles_generic {m : M3 ℝ} (h : IsRotation m) (h1 : m.r2.x ≤ 1 - 1 / 10 ^ 8)
    (h2 : 1 / 10 ^ 8 - 1 ≤ m.r2.x) : toMatrixRad (rawAngles m) = m := by
  have hb := abs_entry_le h.1
  have hrow := h.1.1.2.2
  have hcol := h.1.cols.1.1
  obtain ⟨-, c1, c2⟩ := h.transpose.cross
  simp only [M3.transpose, V3.dot, V3.cross, V3.ext_iff] at hrow hcol c1 c2
  obtain ⟨e01, e11, -⟩ := c1
  obtain ⟨e02, e12, -⟩ := c2
  have hs : Real.sin (Real.arcsin m.r2.x) = m.r2.x := Real.sin_arcsin hb.1 hb.2
  have hc0 : 0 ≤ Real.cos (Real.arcsin m.r2.x) := Real.cos_arcsin_nonneg _
  have hcc := sq_add (Real.arcsin m.r2.x)
  rw [hs] at hcc
  have hcne : Real.cos (Real.arcsin m.r2.x) ≠ 0 := by
    intro e; rw [e] at hcc; nlinarith
  obtain ⟨z1, z2⟩ := arctan2_spec (y := -m.r1.x) (x := m.r0.x) hc0 (by linarith) hcne
  obtain ⟨x1, x2⟩ := arctan2_spec (y := -m.r2.y) (x := m.r2.z) hc0 (by linarith) hcne
  have e1 : ¬ m.r2.x > 1 - 1 / 10 ^ 8 := not_lt.mpr h1
  have e2 : ¬ m.r2.x < 1 / 10 ^ 8 - 1 := not_lt.mpr h2
  simp only [rawAngles, e1, e2, if_false, toMatrixRad, hs]
  generalize Real.cos (Real.arcsin m.r2.x) = c at *
  generalize Real.cos (arctan2 (-m.r1.x) m.r0.x) = cz at *
  generalize Real.sin (arctan2 (-m.r1.x) m.r0.x) = sz at *
  generalize Real.cos (arctan2 (-m.r2.y) m.r2.z) = cx at *
  generalize Real.sin (arctan2 (-m.r2.y) m.r2.z) = sx at *
  have hcc2 : c * c ≠ 0 := mul_ne_zero hcne hcne
  ext <;> simp only [matrixCS]
  · exact z1
  · apply mul_left_cancel₀ hcc2
    linear_combination -m.r0.y * hcc + e01 + m.r2.x * e12 + (m.r2.x * c * cz) * x2 - (m.r2.x * m.r2.y) * z1
      + c * sz * x1 + m.r2.z * z2
  · apply mul_left_cancel₀ hcc2
    linear_combination -m.r0.z * hcc + e02 - m.r2.x * e11 + c * sz * x2 - m.r2.y * z2
      - m.r2.x * c * cz * x1 - m.r2.x * m.r2.z * z1
  · linear_combination -z2
  · apply mul_left_cancel₀ hcc2
    linear_combination -m.r1.y * hcc + e11 - m.r2.x * e02 + c * cz * x1 + m.r2.z * z1
      - m.r2.x * c * sz * x2 + m.r2.x * m.r2.y * z2
  · apply mul_left_cancel₀ hcc2
    linear_combination -m.r1.z * hcc + e12 + m.r2.x * e01 + c * cz * x2 - m.r2.y * z1
      + m.r2.x * c * sz * x1 + m.r2.x * m.r2.z * z2
  · linear_combination -x2
  · linear_combination x1

/-- recovery exactly at gimbal lock -/
theorem rawAngles_gimbal {m : M3 ℝ} (h : IsRotation m) (h1 : m.r2.x = 1 ∨ m.r2.x = -1) :
    toMatrixRad (rawAngles m) = m := by
  have hb := abs_entry_le h.1
  have hrow := h.1.1.2.2
  have hcol := h.1.cols.1.1
  have hcol1 := h.1.cols.1.2.1
  obtain ⟨-, c1, c2⟩ := h.transpose.cross
  simp only [M3.transpose, V3.dot, V3.cross, V3.ext_iff] at hrow hcol hcol1 c1 c2
  obtain ⟨e01, e11, -⟩ := c1
  obtain ⟨e02, e12, -⟩ := c2
  have hsq : m.r2.x * m.r2.x = 1 := by rcases h1 with e | e <;> rw [e] <;> norm_num
  have z00 : m.r0.x = 0 := by nlinarith [mul_self_nonneg m.r0.x, mul_self_nonneg m.r1.x]
  have z10 : m.r1.x = 0 := by nlinarith [mul_self_nonneg m.r0.x, mul_self_nonneg m.r1.x]
  have z21 : m.r2.y = 0 := by nlinarith [mul_self_nonneg m.r2.y, mul_self_nonneg m.r2.z]
  have z22 : m.r2.z = 0 := by nlinarith [mul_self_nonneg m.r2.y, mul_self_nonneg m.r2.z]
  have hs : Real.sin (Real.arcsin m.r2.x) = m.r2.x := Real.sin_arcsin hb.1 hb.2
  have hcc := sq_add (Real.arcsin m.r2.x)
  rw [hs] at hcc
  have hc : Real.cos (Real.arcsin m.r2.x) = 0 := by nlinarith
  obtain ⟨z1, z2⟩ := arctan2_spec (y := m.r0.y) (x := m.r1.y) (c := 1) (by norm_num)
    (by rw [z21] at hcol1; linarith) (by norm_num)
  rw [one_mul] at z1 z2
  have hr : rawAngles m = ⟨0, Real.arcsin m.r2.x, arctan2 m.r0.y m.r1.y⟩ := by
    simp only [rawAngles]
    rcases h1 with e | e
    · rw [if_pos (by rw [e]; norm_num)]
    · rw [if_neg (by rw [e]; norm_num), if_pos (by rw [e]; norm_num)]
  rw [hr]
  ext <;> simp only [toMatrixRad, matrixCS, Real.cos_zero, Real.sin_zero, hc, hs, z1, z2, z00, z10, z21, z22]
  · ring
  · ring
  · rw [← e02, z21]; ring
  · ring
  · ring
  · rw [← e12, z00]; ring
  · ring
  · ring

end Verif.Frames
