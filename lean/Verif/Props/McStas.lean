import Verif.Lemmas.McStasBox
import Verif.Lemmas.McStasNormal
/-!
Theorems about the library of the McStas components (C160...).
-/

namespace Verif.McStas
open Solid Flight Homog Kinem

/-- C160: `PROP_DT` moves the neutron along its trajectory; for a time before -1e-15 the neutron is absorbed -/
theorem C160_dt (G : Gravity) (dt : ℝ) (e : Event ℝ) :
    (-1e-15 ≤ dt → propDt G dt e = flown G e dt) ∧ (dt < -1e-15 → propDt G dt e = { e with p := -1 }) := by
  refine ⟨fun h => ?_, fun h => ?_⟩
  · unfold propDt
    rw [if_neg (not_lt.2 h)]
    cases hG : G.on
    · simp only [Bool.false_eq_true, if_false]; exact propDtFree_eq hG dt e
    · simp only [if_true]; exact propDtGrav_eq hG dt e
  · unfold propDt
    rw [if_pos h]
    rfl

/-- C160, partial: without gravity `PROP_Z0` and `PROP_X0` bring the neutron to the plane, at the first time if there is
one; a neutron that moves along the plane is absorbed.  Missing: a neutron that has passed the plane is brought back to it,
see `C160_back_false`. -/
theorem C160_free_partial {G : Gravity} (hG : G.on = false) (e : Event ℝ) :
    (e.v.z = 0 → propZ0 G e = { e with p := -1 }) ∧
    (e.v.z ≠ 0 → propZ0 G e = flown G e (-e.r.z / e.v.z) ∧ (flown G e (-e.r.z / e.v.z)).r.z = 0) ∧
    (e.v.z ≠ 0 → ∀ s, Arrives V3.z G e s → propZ0 G e = flown G e s) ∧
    (e.v.x = 0 → propX0 G e = { e with p := -1 }) ∧
    (e.v.x ≠ 0 → propX0 G e = flown G e (-e.r.x / e.v.x) ∧ (flown G e (-e.r.x / e.v.x)).r.x = 0) ∧
    (e.v.x ≠ 0 → ∀ s, Arrives V3.x G e s → propX0 G e = flown G e s) := by
  have h1 : e.v.z ≠ 0 → propZ0 G e = flown G e (-e.r.z / e.v.z) := by
    intro h
    unfold propZ0 propZ0Free
    rw [hG, if_neg h]
    exact propDtFree_eq hG _ e
  have h2 : e.v.x ≠ 0 → propX0 G e = flown G e (-e.r.x / e.v.x) := by
    intro h
    unfold propX0 propX0Free
    rw [hG, if_neg h]
    exact propDtFree_eq hG _ e
  refine ⟨fun h => ?_, fun h => ⟨h1 h, ?_⟩, fun h s hs => ?_, fun h => ?_, fun h => ⟨h2 h, ?_⟩, fun h s hs => ?_⟩
  · unfold propZ0 propZ0Free; rw [hG, if_pos h]; rfl
  · rw [flown_z, accel_off hG, V3.zero_z]; field_simp; ring
  · have := hs.2.1
    rw [flown_z, accel_off hG, V3.zero_z] at this
    rw [h1 h]
    congr 1
    field_simp
    linarith
  · unfold propX0 propX0Free; rw [hG, if_pos h]; rfl
  · rw [flown_x, accel_off hG, V3.zero_x]; field_simp; ring
  · have := hs.2.1
    rw [flown_x, accel_off hG, V3.zero_x] at this
    rw [h2 h]
    congr 1
    field_simp
    linarith

/-- example: a neutron 3 m before the plane -/
example : Arrives V3.z ⟨false, 0⟩ ⟨⟨0, 0, -3⟩, ⟨0, 0, 2⟩, 0, 0, 0, 1⟩ (3 / 2) ∧
    (⟨⟨0, 0, -3⟩, ⟨0, 0, 2⟩, 0, 0, 0, 1⟩ : Event ℝ).v.z ≠ 0 := by
  refine ⟨⟨by norm_num, ?_, fun s h1 h2 h3 => ?_⟩, by norm_num⟩
  · rw [flown_z, accel_off rfl]; norm_num
  · rw [flown_z, accel_off rfl] at h3; norm_num at h3; linarith

/-- C160 is false without gravity: a neutron that has passed the plane flies back in time and is not absorbed -/
theorem C160_back_false : ¬ ∀ (G : Gravity) (e : Event ℝ), 0 < e.p → 0 < (propZ0 G e).p → e.t ≤ (propZ0 G e).t := by
  intro h
  have h1 := (C160_free_partial (G := ⟨false, 0⟩) rfl ⟨⟨0, 0, 1⟩, ⟨0, 0, 1⟩, 0, 0, 0, 1⟩).2.1 (by norm_num)
  have := h ⟨false, 0⟩ ⟨⟨0, 0, 1⟩, ⟨0, 0, 1⟩, 0, 0, 0, 1⟩ (by norm_num)
  rw [h1.1] at this
  simp only [flown] at this
  norm_num at this

/-- C160, partial: with gravity a neutron that is not absorbed arrives at the plane for the first time after it has
started, and one that flies towards the plane and reaches it is not absorbed.  The acceleration along the normal of the
plane must be 0 or at least 2e-10.  Missing: a neutron that starts on the plane, or flies away from it and falls back, see
`C160_fall_false`. -/
theorem C160_gravity_partial {G : Gravity} (hG : G.on = true) (e : Event ℝ) :
    ((G.g.z = 0 ∨ 2e-10 ≤ |G.g.z|) →
      (propZ0 G e = { e with p := -1 } ∨ ∃ s, 0 < s ∧ Arrives V3.z G e s ∧ propZ0 G e = flown G e s) ∧
      (e.r.z * e.v.z < 0 → ∀ s, Arrives V3.z G e s → propZ0 G e = flown G e s)) ∧
    ((G.g.x = 0 ∨ 2e-10 ≤ |G.g.x|) →
      (propX0 G e = { e with p := -1 } ∨ ∃ s, 0 < s ∧ Arrives V3.x G e s ∧ propX0 G e = flown G e s) ∧
      (e.r.x * e.v.x < 0 → ∀ s, Arrives V3.x G e s → propX0 G e = flown G e s)) := by
  have cz : ∀ s, (flown G e s).r.z = e.r.z + s * e.v.z + s ^ 2 / 2 * G.g.z := by
    intro s; rw [flown_z, accel_on hG]
  have cx : ∀ s, (flown G e s).r.x = e.r.x + s * e.v.x + s ^ 2 / 2 * G.g.x := by
    intro s; rw [flown_x, accel_on hG]
  refine ⟨fun ha => ⟨?_, fun hq s hs => ?_⟩, fun ha => ⟨?_, fun hq s hs => ?_⟩⟩
  · unfold propZ0 propZ0Grav
    rw [hG]
    simp only [if_true]
    cases hp : planeGfast (-G.g.z / 2) (-e.v.z) (-e.r.z) with
    | none => left; rfl
    | some s =>
      simp only
      split
      · next hs => exact .inr ⟨s, hs, grav_sound V3.z cz ha hp hs, propDtGrav_eq hG s e⟩
      · left; rfl
  · obtain ⟨h1, h2⟩ := grav_complete V3.z cz ha hq hs
    unfold propZ0 propZ0Grav
    rw [hG, h1]
    simp only [if_true, gt_iff_lt, h2]
    exact propDtGrav_eq hG s e
  · unfold propX0 propX0Grav
    rw [hG]
    simp only [if_true]
    cases hp : planeGfast (-G.g.x / 2) (-e.v.x) (-e.r.x) with
    | none => left; rfl
    | some s =>
      simp only
      split
      · next hs => exact .inr ⟨s, hs, grav_sound V3.x cx ha hp hs, propDtGrav_eq hG s e⟩
      · left; rfl
  · obtain ⟨h1, h2⟩ := grav_complete V3.x cx ha hq hs
    unfold propX0 propX0Grav
    rw [hG, h1]
    simp only [if_true, gt_iff_lt, h2]
    exact propDtGrav_eq hG s e

/-- example: a neutron that is slowed down on its way to the plane -/
example : Arrives V3.z ⟨true, ⟨0, 0, -2⟩⟩ ⟨⟨0, 0, -2⟩, ⟨0, 0, 3⟩, 0, 0, 0, 1⟩ 1 ∧ (-2 : ℝ) * 3 < 0 ∧
    ((-2 : ℝ) = 0 ∨ 2e-10 ≤ |(-2 : ℝ)|) := by
  refine ⟨⟨by norm_num, ?_, fun s h1 h2 h3 => ?_⟩, by norm_num, .inr (by norm_num)⟩
  · rw [flown_z, accel_on rfl]; norm_num
  · rw [flown_z, accel_on rfl] at h3
    norm_num at h3
    nlinarith

/-- C160 is false with gravity: a neutron that flies away from the plane and falls back on it is absorbed -/
theorem C160_fall_false : ∃ (G : Gravity) (e : Event ℝ) (s : ℝ), G.on = true ∧ 0 < e.p ∧ 0 < s ∧ Arrives V3.z G e s ∧
    propZ0 G e = { e with p := -1 } := by
  refine ⟨⟨true, ⟨0, 0, -2⟩⟩, ⟨⟨0, 0, 2⟩, ⟨0, 0, 1⟩, 0, 0, 0, 1⟩, 2, rfl, by norm_num, by norm_num, ⟨by norm_num, ?_, fun s h1 h2 h3 => ?_⟩, ?_⟩
  · rw [flown_z, accel_on rfl]; norm_num
  · rw [flown_z, accel_on rfl] at h3
    norm_num at h3
    nlinarith
  · unfold propZ0 propZ0Grav
    simp only [if_true]
    cases hp : planeGfast (-(-2 : ℝ) / 2) (-1) (-2) with
    | none => rfl
    | some s =>
      have := plane_away (by norm_num) (.inr (by norm_num [abs_of_pos])) hp
      simp only
      rw [if_neg (not_lt.2 this)]
      rfl

/-- C160 is false with gravity: a neutron that is on the plane already is absorbed, so to propagate to the plane of one
component and then to the same plane of the next component absorbs every neutron -/
theorem C160_again_false {G : Gravity} (hG : G.on = true) (ha : G.g.z = 0 ∨ 2e-10 ≤ |G.g.z|) (e : Event ℝ) :
    propZ0 G (propZ0 G e) = { propZ0 G e with p := -1 } := by
  have key : ∀ e' : Event ℝ, 0 ≤ -e'.v.z * -e'.r.z → propZ0 G e' = { e' with p := -1 } := by
    intro e' h
    unfold propZ0 propZ0Grav
    rw [hG]
    simp only [if_true]
    cases hp : planeGfast (-G.g.z / 2) (-e'.v.z) (-e'.r.z) with
    | none => rfl
    | some s =>
      have := plane_away h (half_big ha) hp
      simp only
      rw [if_neg (not_lt.2 this)]
      rfl
  rcases (((C160_gravity_partial hG e).1 ha).1) with h | ⟨s, hs, hs', h⟩
  · rw [h]
    have h2 : ∀ e' : Event ℝ, propZ0 G { e' with p := -1 } = { propZ0 G e' with p := -1 } := by
      intro e'
      unfold propZ0 propZ0Grav
      rw [hG]
      simp only [if_true]
      cases hp : planeGfast (-G.g.z / 2) (-e'.v.z) (-e'.r.z) with
      | none => rfl
      | some s => simp only; split <;> rfl
    rw [h2, h]
  · rw [h]
    apply key
    have := hs'.2.1
    rw [show (flown G e s).r.z = 0 from this]
    simp

/-- C161: a vector turned around an axis keeps its length and its component along the axis, two rotations around the same axis
add their angles -/
theorem C161_rotate {a : V3 ℝ} (ha : a ≠ 0) (v w : V3 ℝ) (phi psi : ℝ) :
    rotate v phi a = turned ((1 / length a) • a) phi v ∧
    (rotate v phi a).dot (rotate w phi a) = v.dot w ∧ a.dot (rotate v phi a) = a.dot v ∧
    rotate (rotate v psi a) phi a = rotate v (phi + psi) a := by
  have hu := norm_unit ha
  simp only [rotate_turned]
  refine ⟨by rw [norm_eq ha], turned_dot hu _ _ _, ?_, turned_add hu _ _ _⟩
  have h := turned_axis hu phi v
  have hl := length_pos ha
  have e : ∀ b : V3 ℝ, a.dot b = length a * (norm a).dot b := by
    intro b
    rw [norm_eq ha]
    simp only [V3.dot, V3.smul_x, V3.smul_y, V3.smul_z]
    field_simp
  rw [e, e, h]

/-- example: a quarter of a turn around the vertical axis -/
example : (⟨0, 2, 0⟩ : V3 ℝ) ≠ 0 ∧ rotate ⟨0, 0, 1⟩ (Real.pi / 2) ⟨0, 2, 0⟩ = ⟨1, 0, 0⟩ := by
  have h : (⟨0, 2, 0⟩ : V3 ℝ) ≠ 0 := by intro h; have := congrArg V3.y h; norm_num at this
  refine ⟨h, ?_⟩
  have hl : length (⟨0, 2, 0⟩ : V3 ℝ) = 2 := by
    rw [length_eq]; simp only [V3.dot]; rw [show (0 * 0 + 2 * 2 + 0 * 0 : ℝ) = 2 ^ 2 by norm_num, Real.sqrt_sq (by norm_num)]
  rw [(C161_rotate h ⟨0, 0, 1⟩ 0 (Real.pi / 2) 0).1, hl]
  unfold turned
  ext <;> simp [V3.dot, V3.cross]

/-- C161 is false for an axis of length 0: the vector is shortened -/
theorem C161_axis_false : (∀ v phi, rotate v phi 0 = Real.cos phi • v) ∧
    ¬ ∀ (v : V3 ℝ) (phi : ℝ) (a : V3 ℝ), (rotate v phi a).dot (rotate v phi a) = v.dot v := by
  have h : ∀ v phi, rotate v phi 0 = Real.cos phi • v := by
    intro v phi
    rw [rotate_turned, norm_zero]
    unfold turned
    ext <;> simp [V3.dot, V3.cross]
  refine ⟨h, fun hc => ?_⟩
  have := hc ⟨1, 0, 0⟩ (Real.pi / 2) 0
  rw [h, Real.cos_pi_div_two] at this
  simp [V3.dot] at this

/-- C161: the matrix of the angles is a rotation, the same as that of the instrument; its transpose is the inverse, and a
product rotates twice -/
theorem C161_matrix (x y z : ℝ) (m : M3 ℝ) (v : V3 ℝ) :
    Frames.IsRotation (rotSet x y z) ∧ rotSet x y z = Frames.toMatrixRad ⟨x, y, z⟩ ∧
    rotMul (rotSet 0 0 z) (rotMul (rotSet 0 y 0) (rotSet x 0 0)) = rotSet x y z ∧
    rotApply (rotTranspose (rotSet x y z)) (rotApply (rotSet x y z) v) = v ∧
    rotApply (rotSet x y z) (rotApply (rotTranspose (rotSet x y z)) v) = v ∧
    rotApply (rotMul m (rotSet x y z)) v = rotApply m (rotApply (rotSet x y z) v) := by
  have hx := Real.cos_sq_add_sin_sq x
  have hy := Real.cos_sq_add_sin_sq y
  have hz := Real.cos_sq_add_sin_sq z
  have ho : Frames.IsOrtho (rotSet x y z) := by
    unfold rotSet
    generalize Real.cos x = cx at hx ⊢
    generalize Real.sin x = sx at hx ⊢
    generalize Real.cos y = cy at hy ⊢
    generalize Real.sin y = sy at hy ⊢
    generalize Real.cos z = cz at hz ⊢
    generalize Real.sin z = sz at hz ⊢
    refine ⟨⟨?_, ?_, ?_⟩, ?_, ?_, ?_⟩ <;> simp only [V3.dot]
    · linear_combination (sy ^ 2 * cz ^ 2 + sz ^ 2) * hx + cz ^ 2 * hy + hz
    · linear_combination (sy ^ 2 * sz ^ 2 + cz ^ 2) * hx + sz ^ 2 * hy + hz
    · linear_combination cy ^ 2 * hx + hy
    · linear_combination (cz * sz - sy ^ 2 * cz * sz) * hx - cz * sz * hy
    · linear_combination (-(cy * sy * cz)) * hx
    · linear_combination (cy * sy * sz) * hx
  refine ⟨⟨ho, ?_⟩, rfl, ?_, transpose_mulVec_mulVec ho v, mulVec_transpose_mulVec ho v, ?_⟩
  · unfold rotSet
    generalize Real.cos x = cx at hx ⊢
    generalize Real.sin x = sx at hx ⊢
    generalize Real.cos y = cy at hy ⊢
    generalize Real.sin y = sy at hy ⊢
    generalize Real.cos z = cz at hz ⊢
    generalize Real.sin z = sz at hz ⊢
    simp only [M3.det, V3.dot, V3.cross]
    linear_combination ((sy ^ 2 + cy ^ 2) * (cz ^ 2 + sz ^ 2)) * hx + (cz ^ 2 + sz ^ 2) * hy + hz
  · unfold rotMul rotSet
    simp only [Real.cos_zero, Real.sin_zero]
    ext <;> simp <;> ring
  · unfold rotMul rotApply
    ext <;> simp only <;> ring

/-- C161: a change to the coordinates of another component keeps the distance of two neutrons, their speed, time, spin and
probability; with the opposite change the neutron is as before -/
theorem C161_coordinates {m : M3 ℝ} (hm : Frames.IsOrtho m) (a : V3 ℝ) (e f : Event ℝ) :
    length ((coordsChange a m e).r - (coordsChange a m f).r) = length (e.r - f.r) ∧
    length (coordsChange a m e).v = length e.v ∧
    (coordsChange a m e).t = e.t ∧ (coordsChange a m e).p = e.p ∧ (coordsChange a m e).s1 = e.s1 ∧
    (coordsChange a m e).s2 = e.s2 ∧
    coordsChange (-(rotApply (rotTranspose m) a)) (rotTranspose m) (coordsChange a m e) = e := by
  refine ⟨?_, ?_, rfl, rfl, rfl, rfl, ?_⟩
  · have : (coordsChange a m e).r - (coordsChange a m f).r = m.mulVec (e.r - f.r) := by
      rw [mulVec_sub]
      unfold coordsChange
      ext <;> simp [rotApply_eq]
    rw [this, length_eq, ortho_dot hm, length_eq]
  · show length (m.mulVec e.v) = _
    rw [length_eq, ortho_dot hm, length_eq]
  · unfold coordsChange
    simp only [rotApply_eq, rotTranspose_eq, mulVec_add, transpose_mulVec_mulVec hm]
    ext <;> simp

/-- example: a rotation that is not the identity -/
example : Frames.IsOrtho (rotSet 0 (Real.pi / 2) 0) ∧ (rotSet 0 (Real.pi / 2) 0).r0 = ⟨0, 0, -1⟩ :=
  ⟨(C161_matrix 0 (Real.pi / 2) 0 M3.one 0).1.1, by unfold rotSet; ext <;> simp⟩

/-- C162: the direction towards a disk has the length of the target vector, lies in the cone of the disk, and the solid angle
is that of the cone -/
theorem C162_cone {t : V3 ℝ} (ht : t ≠ 0) {radius : ℝ} (hr : radius ≠ 0) {u1 : ℝ} (h0 : 0 ≤ u1) (h1 : u1 ≤ 1) (u2 : ℝ) :
    ∃ d, targetCircle t radius u1 u2 = some (d, 2 * Real.pi * (1 - Sampling.edge t radius)) ∧ d.dot d = t.dot t ∧
      d.dot t = (1 - (1 - Sampling.edge t radius) * u1) * t.dot t := by
  refine ⟨_, targetCircle_eq ht hr h0 h1 u2, ?_⟩
  apply Sampling.around_spec (Sampling.across_spec t)
  obtain ⟨a, b⟩ := abs_le.1 (Sampling.edge_range ht radius)
  rw [abs_le]
  constructor <;> nlinarith

/-- C162: the directions are uniformly distributed in the cone, also if it is narrow -/
theorem C162_uniform {t : V3 ℝ} (ht : t ≠ 0) {radius : ℝ} (hr : radius ≠ 0) : ∃ a b, Sampling.Across t a b ∧
    ∀ f : V3 ℝ → ℝ, mean2 (fun u1 u2 => Sampling.observe (fun r => r.2 * f r.1) (targetCircle t radius u1 u2)) =
      Sampling.capIntegral t a b (Sampling.edge t radius) f := by
  refine ⟨_, _, Sampling.across_spec t, fun f => ?_⟩
  rw [← cap_mean]
  unfold mean2
  rw [← mean_mul]
  apply mean_congr
  intro u1 h0 h1
  rw [← mean_mul]
  apply mean_congr
  intro u2 _ _
  beta_reduce
  rw [targetCircle_eq ht hr h0.le h1.le]
  rfl

/-- C162: with the radius 0 the directions are uniformly distributed in the full sphere (its pole is the vertical) -/
theorem C162_sphere {t : V3 ℝ} (ht : t ≠ 0) : ∃ a b, Sampling.Across ⟨0, length t, 0⟩ a b ∧
    (∀ u1 u2, 0 ≤ u1 → u1 ≤ 1 → ∃ d, targetCircle t 0 u1 u2 = some (d, 4 * Real.pi) ∧ length d = length t) ∧
    ∀ f : V3 ℝ → ℝ, mean2 (fun u1 u2 => Sampling.observe (fun r => r.2 * f r.1) (targetCircle t 0 u1 u2)) =
      Sampling.capIntegral ⟨0, length t, 0⟩ a b (-1) f := by
  obtain ⟨_, hl, hab⟩ := upright_spec ht
  refine ⟨_, _, hab, fun u1 u2 h0 h1 => ⟨_, targetSphere_eq ht h0 h1 u2, ?_⟩, fun f => ?_⟩
  · rw [length_eq, (Sampling.around_spec hab (by rw [abs_le]; constructor <;> linarith) _).1, ← length_eq, hl]
  · have := cap_mean (upright t) ((length (upright t) / length (⟨1, 0, 0⟩ : V3 ℝ)) • ⟨1, 0, 0⟩)
      ((1 / length (⟨1, 0, 0⟩ : V3 ℝ)) • (upright t).cross ⟨1, 0, 0⟩) (-1) f
    refine Eq.trans ?_ this
    unfold mean2
    rw [← mean_mul]
    apply mean_congr
    intro u1 h0 h1
    rw [← mean_mul]
    apply mean_congr
    intro u2 _ _
    beta_reduce
    rw [targetSphere_eq ht h0.le h1.le]
    simp only [Sampling.observe]
    rw [show 2 * Real.pi * (1 - -1) = 4 * Real.pi by ring, show (1 : ℝ) - (1 - -1) * u1 = 1 - 2 * u1 by ring]

/-- example: a disk straight ahead -/
example : (⟨0, 0, 3⟩ : V3 ℝ) ≠ 0 ∧ (4 : ℝ) ≠ 0 := by
  constructor
  · intro h; have := congrArg V3.z h; norm_num at this
  · norm_num

/-- C163, partial: the direction towards a window of given angular size lies in the window, has the length of the target
vector, and the solid angle is that of the window.  To get an integral over the window the direction has to be weighted with
the cosine of its latitude.  Missing: the directions themselves are not uniformly distributed, see `C163_uniform_false`; the
case of no window, see `C163_window_false`. -/
theorem C163_window_partial {t : V3 ℝ} (ht : t ≠ 0) {m : M3 ℝ} (hm : Frames.IsOrtho m) {width height : ℝ} (hw : 0 < width)
    (hh : 0 < height) (hh' : height ≤ Real.pi) : ∃ a b, Sampling.Across t a b ∧
    (∀ u1 u2, 0 ≤ u1 → u1 ≤ 1 → 0 ≤ u2 → u2 ≤ 1 → ∃ θ φ, |θ| ≤ width / 2 ∧ |φ| ≤ height / 2 ∧
      targetAngular t width height m u1 u2 = .ok (globe t a b θ φ, globeIntegral t a b width height fun _ => 1) ∧
      length (globe t a b θ φ) = length t) ∧
    ∀ f : V3 ℝ → ℝ, mean2 (fun u1 u2 => Real.cos (height * (2 * u2 - 1) / 2) * Sampling.observe
        (fun r => width * height * f r.1) (targetAngular t width height m u1 u2).toOption) =
      globeIntegral t a b width height f := by
  obtain ⟨a, b, hab, h⟩ := targetAngular_eq ht hm hw.ne' hh.ne'
  refine ⟨a, b, hab, fun u1 u2 h1 h2 h3 h4 => ⟨width * (2 * u1 - 1) / 2, height * (2 * u2 - 1) / 2, ?_, ?_, ?_, ?_⟩, fun f => ?_⟩
  · rw [abs_le]; constructor <;> nlinarith
  · rw [abs_le]; constructor <;> nlinarith
  · rw [globe_one, h, abs_of_nonneg]
    exact mul_nonneg hw.le (Real.sin_nonneg_of_nonneg_of_le_pi (by linarith) (by linarith))
  · rw [length_eq, length_eq]
    congr 1
    obtain ⟨a1, a2, a3, a4, a5⟩ := hab
    have hc1 := Real.cos_sq_add_sin_sq (width * (2 * u1 - 1) / 2)
    have hc2 := Real.cos_sq_add_sin_sq (height * (2 * u2 - 1) / 2)
    unfold globe
    generalize Real.cos (width * (2 * u1 - 1) / 2) = C at hc1 ⊢
    generalize Real.sin (width * (2 * u1 - 1) / 2) = S at hc1 ⊢
    generalize Real.cos (height * (2 * u2 - 1) / 2) = C' at hc2 ⊢
    generalize Real.sin (height * (2 * u2 - 1) / 2) = S' at hc2 ⊢
    simp only [V3.dot, V3.add_x, V3.add_y, V3.add_z, V3.smul_x, V3.smul_y, V3.smul_z] at a1 a2 a3 a4 a5 ⊢
    linear_combination 2 * C' ^ 2 * C * S * a1 + 2 * C' * C * S' * a2 + 2 * C' * S * S' * a3 + C' ^ 2 * S ^ 2 * a4 +
      S' ^ 2 * a5 + C' ^ 2 * (t.x * t.x + t.y * t.y + t.z * t.z) * hc1 + (t.x * t.x + t.y * t.y + t.z * t.z) * hc2
  · unfold globeIntegral mean2
    rw [← mean_affine]
    apply mean_congr
    intro u1 _ _
    beta_reduce
    rw [← mean_affine, ← mean_mul]
    apply mean_congr
    intro u2 _ _
    beta_reduce
    rw [h]
    simp only [Except.toOption, Sampling.observe]
    rw [show -height / 2 + u2 * (height / 2 - -height / 2) = height * (2 * u2 - 1) / 2 by ring,
      show -width / 2 + u1 * (width / 2 - -width / 2) = width * (2 * u1 - 1) / 2 by ring]
    ring

/-- example: a window ahead, as high as a half circle -/
example : (⟨0, 0, 1⟩ : V3 ℝ) ≠ 0 ∧ Frames.IsOrtho (M3.one : M3 ℝ) ∧ (0 : ℝ) < 1 ∧ 0 < Real.pi ∧ Real.pi ≤ Real.pi :=
  ⟨fun h => by have := congrArg V3.z h; norm_num at this, Frames.one_ortho, one_pos, Real.pi_pos, le_rfl⟩

/-- C163 is false: the directions towards a window are not uniformly distributed in it.  The second moment of the height is
1 instead of 2/3 for a window from pole to pole. -/
theorem C163_uniform_false : ∃ (t a b : V3 ℝ) (width height : ℝ), t ≠ 0 ∧ Sampling.Across t a b ∧
    (∀ u1 u2, 0 ≤ u1 → u1 ≤ 1 → 0 ≤ u2 → u2 ≤ 1 → ∃ θ φ, |θ| ≤ width / 2 ∧ |φ| ≤ height / 2 ∧
      targetAngular t width height M3.one u1 u2 =
        .ok (globe t a b θ φ, globeIntegral t a b width height fun _ => 1)) ∧
    mean2 (fun u1 u2 => Sampling.observe (fun r => r.2 * (r.1.dot b) ^ 2)
      (targetAngular t width height M3.one u1 u2).toOption) = 1 ∧
    globeIntegral t a b width height (fun d => (d.dot b) ^ 2) = 2 / 3 := by
  have ht : (⟨0, 0, 1⟩ : V3 ℝ) ≠ 0 := by intro h; have := congrArg V3.z h; norm_num at this
  obtain ⟨a, b, hab, h⟩ := targetAngular_eq ht Frames.one_ortho one_ne_zero Real.pi_pos.ne'
  have hpi := Real.pi_pos
  have hd : ∀ θ φ, (globe ⟨0, 0, 1⟩ a b θ φ).dot b = Real.sin φ := by
    intro θ φ
    obtain ⟨a1, a2, a3, a4, a5⟩ := hab
    unfold globe
    simp only [V3.dot, V3.add_x, V3.add_y, V3.add_z, V3.smul_x, V3.smul_y, V3.smul_z] at a1 a2 a3 a4 a5 ⊢
    linear_combination Real.cos φ * Real.cos θ * a2 + Real.cos φ * Real.sin θ * a3 + Real.sin φ * a5
  refine ⟨⟨0, 0, 1⟩, a, b, 1, Real.pi, ht, hab, fun u1 u2 h1 h2 h3 h4 =>
    ⟨1 * (2 * u1 - 1) / 2, Real.pi * (2 * u2 - 1) / 2, ?_, ?_, ?_⟩, ?_, ?_⟩
  · rw [abs_le]; constructor <;> linarith
  · rw [abs_le]; constructor <;> nlinarith
  · rw [globe_one, h, Real.sin_pi_div_two]; norm_num
  · have e : ∀ u1, mean (fun u2 => Sampling.observe (fun r => r.2 * (r.1.dot b) ^ 2)
        (targetAngular ⟨0, 0, 1⟩ 1 Real.pi M3.one u1 u2).toOption) = 1 := by
      intro u1
      have e2 := mean_affine (-Real.pi / 2) (Real.pi / 2) (fun φ => 2 / Real.pi * Real.sin φ ^ 2)
      rw [intervalIntegral.integral_const_mul, integral_sin_sq, show -Real.pi / 2 = -(Real.pi / 2) by ring, Real.sin_neg,
        Real.cos_neg, Real.cos_pi_div_two] at e2
      refine Eq.trans (mean_congr fun u2 _ _ => ?_) (e2.trans ?_)
      · rw [h, show -(Real.pi / 2) + u2 * (Real.pi / 2 - -(Real.pi / 2)) = Real.pi * (2 * u2 - 1) / 2 by ring]
        simp only [Except.toOption, Sampling.observe, hd, Real.sin_pi_div_two]
        rw [show |(1 : ℝ) * 1| = 1 by norm_num]
        field_simp
        ring
      · field_simp; ring
    unfold mean2
    simp only [e, mean_const]
  · unfold globeIntegral
    simp only [hd]
    have : ∫ φ in (-Real.pi / 2)..(Real.pi / 2), Real.cos φ * Real.sin φ ^ 2 = 2 / 3 := by
      have h1 := integral_sin_pow_mul_cos_pow_odd (a := -Real.pi / 2) (b := Real.pi / 2) 2 0
      simp only [mul_zero, zero_add, pow_one, pow_zero, mul_one] at h1
      rw [show -Real.pi / 2 = -(Real.pi / 2) by ring] at h1 ⊢
      rw [Real.sin_neg, Real.sin_pi_div_two] at h1
      simp only [mul_comm (Real.cos _)]
      rw [h1]
      simp only [integral_pow]
      norm_num
    rw [this]
    norm_num

/-- C163 is false without a window: the comment promises a direction in the full sphere, but the angles of the rotations have
no value -/
theorem C163_window_false (t : V3 ℝ) (m : M3 ℝ) (width u1 u2 : ℝ) :
    targetAngular t width 0 m u1 u2 = .error .undefinedBehaviour ∧
    targetAngular t 0 width m u1 u2 = .error .undefinedBehaviour := by
  unfold targetAngular
  simp

/-- C164, partial: the direction towards a rectangle ends in the rectangle, and with the solid angle as weight the mean is
the integral over the directions to the points of the rectangle.  The first edge is horizontal.  Missing: a target above or
below, see `C164_vertical_false`. -/
theorem C164_rectangle_partial {t : V3 ℝ} {m : M3 ℝ} (hm : Frames.IsOrtho m) (hv : t.cross (m.mulVec ⟨0, 1, 0⟩) ≠ 0)
    {width height : ℝ} (hw : 0 < width) (hh : 0 < height) :
    ∃ n k : V3 ℝ, n.dot n = 1 ∧ k.dot k = 1 ∧ n.dot t = 0 ∧ k.dot t = 0 ∧ n.dot k = 0 ∧ n.dot (m.mulVec ⟨0, 1, 0⟩) = 0 ∧
      (∀ u1 u2, 0 ≤ u1 → u1 ≤ 1 → 0 ≤ u2 → u2 ≤ 1 → ∃ x y w, |x| ≤ width / 2 ∧ |y| ≤ height / 2 ∧
        targetRect t width height m u1 u2 = some (t + x • n + y • k, w)) ∧
      ∀ f : V3 ℝ → ℝ, mean2 (fun u1 u2 => Sampling.observe (fun r => r.2 * f r.1) (targetRect t width height m u1 u2)) =
        rectIntegral t n k width height f := by
  obtain ⟨n, k, h1, h2, h3, h4, h5, h6, h⟩ := targetRect_eq hm hv hw.ne' hh.ne'
  refine ⟨n, k, h1, h2, h3, h4, h5, h6, fun u1 u2 g1 g2 g3 g4 => ⟨_, _, _, ?_, ?_, h u1 u2⟩, fun f => ?_⟩
  · rw [abs_le]; constructor <;> nlinarith
  · rw [abs_le]; constructor <;> nlinarith
  · unfold rectIntegral mean2
    rw [← mean_affine]
    apply mean_congr
    intro u1 _ _
    beta_reduce
    rw [← mean_affine, ← mean_mul]
    apply mean_congr
    intro u2 _ _
    beta_reduce
    rw [h]
    simp only [Sampling.observe]
    rw [show -height / 2 + u2 * (height / 2 - -height / 2) = height * (2 * u2 - 1) / 2 by ring,
      show -width / 2 + u1 * (width / 2 - -width / 2) = width * (2 * u1 - 1) / 2 by ring]
    rw [div_div, ← pow_succ']
    ring

/-- example: a rectangle straight ahead -/
example : (⟨0, 0, 2⟩ : V3 ℝ).cross ((M3.one : M3 ℝ).mulVec ⟨0, 1, 0⟩) ≠ 0 := by
  intro h
  have := congrArg V3.x h
  simp [V3.cross, M3.mulVec, M3.one] at this

/-- C164 is false for a target straight above: the direction is not a number -/
theorem C164_vertical_false (y width height u1 u2 : ℝ) (hw : 0 < width) (hh : 0 < height) :
    targetRect ⟨0, y, 0⟩ width height M3.one u1 u2 = none := by
  unfold targetRect
  rw [if_neg (by simp [hw.ne', hh.ne'])]
  simp [rotApply, rotTranspose, M3.one, V3.cross, divD]

/-- C166: `normal_vec` gives a unit vector perpendicular to the vector -/
theorem C166_normal {a : V3 ℝ} (ha : a ≠ 0) : ∃ n, normalVec a = some n ∧ n.dot n = 1 ∧ n.dot a = 0 := by
  have h0 : ¬ (a.x = 0 ∧ a.y = 0 ∧ a.z = 0) := by
    rintro ⟨h1, h2, h3⟩
    exact ha (by ext <;> simpa)
  have key : ∀ x y : ℝ, x ≠ 0 ∨ y ≠ 0 → 0 < x * x + y * y := by
    rintro x y (h | h)
    · have := mul_self_pos.2 h; have := mul_self_nonneg y; linarith
    · have := mul_self_pos.2 h; have := mul_self_nonneg x; linarith
  unfold normalVec
  rw [if_neg h0]
  split
  · next h =>
    have hp := key a.z a.y (.inr (by rintro hy; rw [hy, abs_zero] at h; exact absurd h.1 (not_lt.2 (abs_nonneg _))))
    have hs := Real.mul_self_sqrt hp.le
    have hs0 := Real.sqrt_pos.2 hp
    simp only [divD_ok hs0.ne', Option.bind_eq_bind, Option.bind_some]
    generalize √_ = l at hs hs0
    refine ⟨_, rfl, ?_, ?_⟩ <;> simp only [V3.dot] <;> field_simp
    · linarith
    · ring
  · next h =>
    split
    · next h' =>
      have hp := key a.z a.x (.inl (by rintro hz; rw [hz, abs_zero] at h'; exact absurd h'.2 (not_lt.2 (abs_nonneg _))))
      have hs := Real.mul_self_sqrt hp.le
      have hs0 := Real.sqrt_pos.2 hp
      simp only [divD_ok hs0.ne', Option.bind_eq_bind, Option.bind_some]
      generalize √_ = l at hs hs0
      refine ⟨_, rfl, ?_, ?_⟩ <;> simp only [V3.dot] <;> field_simp
      · linarith
      · ring
    · next h' =>
      have hne : a.y ≠ 0 ∨ a.x ≠ 0 := by
        by_contra hc
        push Not at hc
        rw [hc.1, hc.2] at h'
        simp only [abs_zero, lt_irrefl, not_false_eq_true, true_and, abs_pos, not_not] at h'
        exact h0 ⟨hc.2, hc.1, h'⟩
      have hp := key a.y a.x hne
      have hs := Real.mul_self_sqrt hp.le
      have hs0 := Real.sqrt_pos.2 hp
      simp only [divD_ok hs0.ne', Option.bind_eq_bind, Option.bind_some]
      generalize √_ = l at hs hs0
      refine ⟨_, rfl, ?_, ?_⟩ <;> simp only [V3.dot] <;> field_simp
      · linarith
      · ring

/-- example: a vector with three components -/
example : (⟨1, 2, 2⟩ : V3 ℝ) ≠ 0 := by intro h; have := congrArg V3.x h; norm_num at this

/-- C165: the two times of the sphere are exactly the ends of the flight through it -/
theorem C165_sphere {p v : V3 ℝ} (hv : v ≠ 0) (r : ℝ) :
    (sphereIntersect p v r = some none ∧ ∀ s, ¬ InSphere p v r s) ∨
    ∃ t0 t1, sphereIntersect p v r = some (some (t0, t1)) ∧ t0 ≤ t1 ∧ ∀ s, InSphere p v r s ↔ t0 ≤ s ∧ s ≤ t1 := by
  have hA : √(v.x * v.x + v.y * v.y + v.z * v.z) * √(v.x * v.x + v.y * v.y + v.z * v.z) = v.dot v :=
    Real.mul_self_sqrt (dot_self_pos hv).le
  have hA0 := dot_self_pos hv
  have e : ∀ s, InSphere p v r s ↔ v.dot v * s ^ 2 + 2 * (p.x * v.x + p.y * v.y + p.z * v.z) * s +
      (p.x * p.x + p.y * p.y + p.z * p.z - r * r) ≤ 0 := by
    intro s
    unfold InSphere
    simp only [V3.dot]
    constructor <;> intro h <;> linarith
  unfold sphereIntersect
  simp only [hA]
  split
  · next hD =>
    refine .inl ⟨rfl, fun s hs => ?_⟩
    rw [e] at hs
    linarith [quad_pos hA0 hD s]
  · next hD =>
    push Not at hD
    right
    simp only [divD_ok (show 2 * v.dot v ≠ 0 by positivity), Option.bind_eq_bind, Option.bind_some]
    refine ⟨_, _, rfl, quad_order hA0, fun s => ?_⟩
    rw [e]
    exact quad_le hA0 hD s

/-- example: a neutron through the middle of a sphere -/
example : (⟨0, 0, 2⟩ : V3 ℝ) ≠ 0 ∧ InSphere ⟨0, 0, -4⟩ ⟨0, 0, 2⟩ 1 2 := by
  refine ⟨fun h => by have := congrArg V3.z h; norm_num at this, ?_⟩
  unfold InSphere
  norm_num

/-- C165, partial: the two times of the cylinder are exactly the ends of the flight through it, and the number tells through
which part of the surface the neutron enters and leaves.  Missing: a flight parallel
to the axis, see `C165_axis_false`. -/
theorem C165_cylinder_partial {p v : V3 ℝ} (hv : v.x ≠ 0 ∨ v.z ≠ 0) (r : ℝ) {h : ℝ} (hh : 0 ≤ h) :
    (cylinderIntersect p v r h = some none ∧ ∀ s, ¬ InCylinder p v r h s) ∨
    ∃ k1 k2 t0 t1, cylinderIntersect p v r h = some (some (1 + k1 + k2, t0, t1)) ∧ OnCylinder p v r h t0 2 4 k1 ∧
      OnCylinder p v r h t1 8 16 k2 ∧ t0 ≤ t1 ∧
      ∀ s, InCylinder p v r h s ↔ t0 ≤ s ∧ s ≤ t1 := by
  have hA0 : 0 < v.x * v.x + v.z * v.z := by
    rcases hv with h | h
    · have := mul_self_pos.2 h; have := mul_self_nonneg v.z; linarith
    · have := mul_self_pos.2 h; have := mul_self_nonneg v.x; linarith
  have e : ∀ s, InCylinder p v r h s ↔ ((v.x * v.x + v.z * v.z) * s ^ 2 + (2 * v.x * p.x + 2 * v.z * p.z) * s +
      (p.x * p.x + p.z * p.z - r * r) ≤ 0 ∧ |p.y + s * v.y| ≤ h / 2) := by
    intro s
    unfold InCylinder
    refine and_congr ?_ Iff.rfl
    constructor <;> intro h <;> linarith
  have e0 : ∀ s, (v.x * v.x + v.z * v.z) * s ^ 2 + (2 * v.x * p.x + 2 * v.z * p.z) * s +
      (p.x * p.x + p.z * p.z - r * r) = 0 → (p.x + s * v.x) ^ 2 + (p.z + s * v.z) ^ 2 = r ^ 2 := by
    intro s h
    linear_combination h
  unfold cylinderIntersect
  simp only [show v.z * v.z + v.x * v.x = v.x * v.x + v.z * v.z by ring,
    show 2 * v.z * p.z + 2 * v.x * p.x = 2 * v.x * p.x + 2 * v.z * p.z by ring]
  generalize v.x * v.x + v.z * v.z = A at hA0 e e0 ⊢
  generalize 2 * v.x * p.x + 2 * v.z * p.z = B at e e0 ⊢
  generalize p.x * p.x + p.z * p.z - r * r = C at e e0 ⊢
  split
  swap
  · next hD =>
    push Not at hD
    refine .inl ⟨rfl, fun s hs => ?_⟩
    rw [e] at hs
    linarith [quad_pos hA0 hD s, hs.1]
  · next hD =>
    have hle := quad_order (B := B) (D := B * B - 4 * A * C) hA0
    obtain ⟨q1, q2⟩ := quad_root hA0 hD
    replace e := fun s => (e s).trans (and_congr (quad_le hA0 hD s) Iff.rfl)
    simp only [divD_ok (show 2 * A ≠ 0 by positivity), Option.bind_eq_bind, Option.bind_some]
    generalize (-B - √(B * B - 4 * A * C)) / (2 * A) = tin at hle e q1 ⊢
    generalize (-B + √(B * B - 4 * A * C)) / (2 * A) = tout at hle e q2 ⊢
    have hc := fun s => clip (vy := v.y) (py := p.y) hh hle s
    simp only at hc
    unfold cylinderEnds
    simp only
    split
    · next hn =>
      refine .inl ⟨rfl, fun s hs => ?_⟩
      rw [e] at hs
      exact (hc s).1 hn hs.1.1 hs.1.2 hs.2
    · next hn =>
      right
      have hc' := fun s => (hc s).2 hn
      obtain ⟨n1, n2, n3, n4, -⟩ := hc' 0
      obtain ⟨k1, e1, o1⟩ := capTime_eq (t := tin) (py := p.y) (top := 2) (bottom := 4) n1 n2
      obtain ⟨k2, e2, o2⟩ := capTime_eq (t := tout) (py := p.y) (top := 8) (bottom := 16) n3 n4
      rw [e1, e2]
      refine ⟨k1, k2, _, _, rfl, (o1 _ rfl).imp_left fun h => ⟨h.1, e0 _ (q1 _ h.2)⟩,
        (o2 _ rfl).imp_left fun h => ⟨h.1, e0 _ (q2 _ h.2)⟩, (hc' 0).2.2.2.2.1, fun s => ?_⟩
      rw [e, and_assoc]
      exact (hc' s).2.2.2.2.2

/-- example: a neutron that enters through the bottom of a cylinder -/
example : ((1 : ℝ) ≠ 0 ∨ (0 : ℝ) ≠ 0) ∧ InCylinder ⟨0, -2, 0⟩ ⟨1, 3, 0⟩ 1 2 (1 / 2) := by
  refine ⟨.inl one_ne_zero, ?_⟩
  unfold InCylinder
  norm_num [abs_le]

/-- C165 is false for a flight parallel to the axis of the cylinder: the times are not numbers, also if the flight is outside -/
theorem C165_axis_false : (∃ p v : V3 ℝ, v ≠ 0 ∧ cylinderIntersect p v 1 2 = none ∧ InCylinder p v 1 2 0) ∧
    ∃ p v : V3 ℝ, v ≠ 0 ∧ cylinderIntersect p v 1 2 = none ∧ ∀ s, ¬ InCylinder p v 1 2 s := by
  have hv : (⟨0, 1, 0⟩ : V3 ℝ) ≠ 0 := by intro h; have := congrArg V3.y h; norm_num at this
  refine ⟨⟨0, ⟨0, 1, 0⟩, hv, ?_, ?_⟩, ⟨5, 0, 0⟩, ⟨0, 1, 0⟩, hv, ?_, fun s hs => ?_⟩
  · unfold cylinderIntersect; simp [divD]
  · unfold InCylinder; norm_num
  · unfold cylinderIntersect; simp [divD]
  · unfold InCylinder at hs; norm_num at hs

/-- C165, partial: the two times of the box are exactly the ends of the flight through it.  Missing: a flight that meets an
edge, see `C165_edge_false`. -/
theorem C165_box_partial {r v d : V3 ℝ} (hx : 0 < d.x) (hy : 0 < d.y) (hz : 0 < d.z) (hv : v ≠ 0) (he : NoEdge r v d) :
    (boxIntersect r v d = none ∧ ∀ s, ¬ InBox r v d s) ∨
    ∃ t0 t1, boxIntersect r v d = some (t0, t1) ∧ t0 < t1 ∧ ∀ s, InBox r v d s ↔ t0 ≤ s ∧ s ≤ t1 := by
  rw [box_eq]
  by_cases h : ∃ t, InBox r v d t
  · obtain ⟨t, ht⟩ := h
    obtain ⟨a, b, hab, hita, hitb, hin⟩ := box_interval hx hy hz hv he ht
    refine .inr ⟨a, b, boxEnd_two hab (times_nodup hx hy hz) fun s => ?_, hab, hin⟩
    rw [times_mem hx hy hz]
    refine and_congr_right fun _ => ⟨fun hs => ?_, ?_⟩
    · obtain ⟨h1, h2⟩ := hit_end hx hy hz hs
      obtain ⟨h3, h4⟩ := (hin s).1 h1
      rcases h2 with ⟨_, h2⟩ | ⟨_, h2⟩
      · right
        by_contra hc
        exact h2 b (lt_of_le_of_ne h4 hc) ((hin b).2 ⟨hab.le, le_rfl⟩)
      · left
        by_contra hc
        exact h2 a (lt_of_le_of_ne h3 (Ne.symm hc)) ((hin a).2 ⟨le_rfl, hab.le⟩)
    · rintro (rfl | rfl)
      · exact hita
      · exact hitb
  · push Not at h
    refine .inl ⟨boxEnd_none fun s hs => ?_, h⟩
    rw [times_mem hx hy hz] at hs
    exact h s (hit_end hx hy hz hs.2).1

/-- example: a slanted flight through a cube -/
example : NoEdge ⟨-2, 0, 0⟩ ⟨1, 1 / 4, 0⟩ ⟨2, 2, 2⟩ ∧ InBox ⟨-2, 0, 0⟩ ⟨1, 1 / 4, 0⟩ ⟨2, 2, 2⟩ 2 := by
  constructor
  · rintro s ⟨h1, h2, h3⟩
    simp only [abs_le] at h1 h2 h3
    refine ⟨?_, ?_, ?_⟩
    · rintro ⟨_, h⟩
      rcases (abs_eq (by norm_num)).1 h with h | h <;> linarith [h1.1, h1.2]
    · rintro ⟨_, h⟩; norm_num at h
    · rintro ⟨_, h⟩; norm_num at h
  · unfold InBox; norm_num [abs_le]

/-- C165 is false for a flight through opposite edges of a box: no intersection is found -/
theorem C165_edge_false : ∃ r v d : V3 ℝ, 0 < d.x ∧ 0 < d.y ∧ 0 < d.z ∧ v ≠ 0 ∧ boxIntersect r v d = none ∧
    ∀ s, 1 ≤ s → s ≤ 3 → InBox r v d s := by
  refine ⟨⟨-2, -2, 0⟩, ⟨1, 1, 0⟩, ⟨2, 2, 2⟩, by norm_num, by norm_num, by norm_num,
    fun h => by have := congrArg V3.x h; norm_num at this, ?_, fun s h1 h2 => ?_⟩
  · unfold boxIntersect faces face
    norm_num [collect]
  · unfold InBox
    simp only [abs_le]
    norm_num
    constructor <;> linarith

/-- C167: two calls of `randnorm` give two independent numbers of the normal distribution, and then the static variables are
ready for the next pair.  With `n` rounds of the loop the probability to get numbers at all is `1 - (1 - π/4)^n`. -/
theorem C167_normal {st : NormState} (hst : st.phase = false) {F : ℝ × ℝ → ℝ} (hf : Measurable F) {C : ℝ}
    (hC : ∀ x, |F x| ≤ C) (n : Nat) :
    (meanN (2 * n) (fun us => Sampling.observe F (do
        let (x, st, us) ← randnorm st us
        let (y, _, _) ← randnorm st us
        some (x, y))) = (1 - (1 - Real.pi / 4) ^ n) * normalMean2 F) ∧
    (∀ f g : ℝ → ℝ, normalMean2 (fun p => f p.1 * g p.2) = Sampling.normalMean f * Sampling.normalMean g) ∧
    ∀ us x y st' st'' us' us'', randnorm st us = some (x, st', us') → randnorm st' us' = some (y, st'', us'') →
      st''.phase = false := by
  refine ⟨?_, normalMean2_mul, fun us x y st' st'' us' us'' h1 h2 => ?_⟩
  · show meanN (2 * n) (fun us => Sampling.observe F (two st us)) = _
    induction n with
    | zero =>
      have : two st [] = none := by unfold two randnorm polar; rw [if_pos hst]; rfl
      simp [meanN, this, Sampling.observe]
    | succ n ih => rw [two_step hst hf hC, ih]; ring
  · unfold randnorm at h1 h2
    rw [if_pos hst] at h1
    simp only [Option.bind_eq_bind, Option.bind_eq_some_iff, Option.some.injEq, Prod.mk.injEq] at h1
    obtain ⟨⟨⟨v1, v2, s⟩, us1⟩, _, _, rfl, _⟩ := h1
    simp only [Bool.true_eq_false, if_false, Option.some.injEq, Prod.mk.injEq] at h2
    rw [← h2.2.1]

/-- example: the static variables of a new process and a bounded observable of the pair -/
example : (⟨0, 0, false⟩ : NormState).phase = false ∧ Measurable (fun p : ℝ × ℝ => Real.cos (p.1 * p.2)) ∧
    ∀ p : ℝ × ℝ, |Real.cos (p.1 * p.2)| ≤ 1 :=
  ⟨rfl, by fun_prop, fun p => Real.abs_cos_le_one _⟩

/-- C167 is false for a new seed: the static variables keep the second number of a pair, so the same random numbers (the same
seed) give another result than in a new process -/
theorem C167_seed_false : ∃ (us us0 us' : List ℝ) (st : NormState) (x : ℝ),
    -- one call before the new seed
    randnorm ⟨0, 0, false⟩ us0 = some (x, st, us') ∧
    (randnorm st us).map (·.1) ≠ (randnorm ⟨0, 0, false⟩ us).map (·.1) := by
  refine ⟨[3 / 4, 3 / 4], [3 / 4, 1 / 4], [], ⟨-1 / 2, 1 / 2, true⟩, 1 / 2 * √(-2 * Real.log (1 / 2) / (1 / 2)), ?_, ?_⟩
  · unfold randnorm polar
    norm_num
  · unfold randnorm polar
    have hl : Real.log (1 / 2) < 0 := Real.log_neg (by norm_num) (by norm_num)
    have hp : 0 < √(-2 * Real.log (1 / 2) / (1 / 2)) := Real.sqrt_pos.2 (div_pos (by linarith) (by norm_num))
    generalize hq : √(-2 * Real.log (1 / 2) / (1 / 2)) = q at hp
    simp only [Bool.true_eq_false, if_false, Option.map_some, if_true, Option.bind_eq_bind]
    rw [show (2 * (3 / 4 : ℝ) - 1) * (2 * (3 / 4) - 1) + (2 * (3 / 4) - 1) * (2 * (3 / 4) - 1) = 1 / 2 by norm_num,
      if_neg (by norm_num), Option.bind_some]
    simp only [hq, Option.map_some, ne_eq, Option.some.injEq]
    intro h
    linarith

end Verif.McStas
