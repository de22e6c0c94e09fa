import Verif.Lemmas.McCrystal
import Mathlib.Tactic.NormNum
import Mathlib.Tactic.FieldSimp
/-!
Properties of the single crystal of McStas (C323 - C326).
-/

namespace Verif.McCrystal
open McStas McSample Kinem Solid Homog Flight
open McGuide (K2V V2K)
open McPowderN (num_div)
open Classical

/-! ### C323 -/

/-- C323: a cell that is made of lengths and angles has these lengths and angles -/
theorem C323_angles {la lb lc aa bb cc : ℝ} {a b c : V3 ℝ} (h : fromAngles la lb lc aa bb cc = .ok (a, b, c)) :
    HasShape a b c la lb lc aa bb cc := by
  unfold fromAngles at h
  dsimp only at h
  by_cases hs : Real.sin (cc * (Real.pi / 180)) = 0
  · rw [hs] at h; simp [divD, num, bind, Except.bind] at h
  rw [num_div hs] at h
  simp only [bind, Except.bind] at h
  set cy := lc * (Real.cos (aa * (Real.pi / 180)) - Real.cos (cc * (Real.pi / 180)) * Real.cos (bb * (Real.pi / 180))) /
    Real.sin (cc * (Real.pi / 180)) with hcy
  cases hq : sqrtD (lc * lc - lc * Real.cos (bb * (Real.pi / 180)) * (lc * Real.cos (bb * (Real.pi / 180))) - cy * cy) with
  | none => rw [hq] at h; simp [num] at h
  | some cz =>
    rw [hq] at h
    simp only [num, Except.ok.injEq, Prod.mk.injEq] at h
    obtain ⟨rfl, rfl, rfl⟩ := h
    have hz : cz * cz = lc * lc - lc * Real.cos (bb * (Real.pi / 180)) * (lc * Real.cos (bb * (Real.pi / 180))) - cy * cy := by
      unfold sqrtD at hq
      split at hq
      · simp at hq
      · simp only [Option.some.injEq] at hq
        rw [← hq]
        exact Real.mul_self_sqrt (by linarith)
    have hy : Real.sin (cc * (Real.pi / 180)) * cy =
        lc * (Real.cos (aa * (Real.pi / 180)) - Real.cos (cc * (Real.pi / 180)) * Real.cos (bb * (Real.pi / 180))) := by
      rw [hcy, mul_comm]; exact div_mul_cancel₀ _ hs
    have hsc := Real.sin_sq_add_cos_sq (cc * (Real.pi / 180))
    constructor <;> simp only [V3.dot]
    · ring
    · linear_combination lb ^ 2 * hsc
    · linear_combination hz
    · linear_combination lb * hy
    · ring
    · ring

/-- C323: three edges that are given as vectors are used as they are, if neither the parameters nor the table give angles -/
theorem C323_vectors {a b c : V3 ℝ} (ha : a ≠ 0) (hb : b ≠ 0) (hc : c ≠ 0) (la lb lc : Option ℝ) :
    cell a b c 0 0 0 ⟨la, lb, lc, none, none, none⟩ = .ok (a, b, c) := by
  have h1 : ¬ nil a := fun h => ha ((nil_iff a).1 h)
  have h2 : ¬ nil b := fun h => hb ((nil_iff b).1 h)
  have h3 : ¬ nil c := fun h => hc ((nil_iff c).1 h)
  simp [cell, params, Cell.read, Cell.defaults, Cell.edges, orElse, h1, h2, h3]

/-- C323: for a right-handed cell the reciprocal lattice is that of the cell -/
theorem C323_recip_partial {a b c : V3 ℝ} (h : 0 < a.dot (b.cross c)) :
    ∃ l, recip a b c = .ok l ∧ l.V0 = a.dot (b.cross c) ∧ IsRecip a b c l.ra l.rb l.rc := by
  unfold recip
  rw [abs_of_pos h]
  dsimp only
  rw [num_div h.ne']
  refine ⟨_, rfl, rfl, ?_⟩
  have hf : 2 * Real.pi / a.dot (b.cross c) * a.dot (b.cross c) = 2 * Real.pi := div_mul_cancel₀ _ h.ne'
  generalize 2 * Real.pi / a.dot (b.cross c) = f at hf
  simp only [V3.dot, V3.cross] at hf
  constructor <;> simp only [V3.dot, V3.cross, V3.smul_x, V3.smul_y, V3.smul_z] <;> first | linear_combination hf | ring

/-- C323: for a left-handed cell the reciprocal lattice has the wrong sign -/
theorem C323_hand_false : ∃ a b c : V3 ℝ, a.dot (b.cross c) ≠ 0 ∧ ∀ l, recip a b c = .ok l → a.dot l.ra = -(2 * Real.pi) ∧ ¬ IsRecip a b c l.ra l.rb l.rc := by
  refine ⟨⟨1, 0, 0⟩, ⟨0, 0, 1⟩, ⟨0, 1, 0⟩, by norm_num [V3.dot, V3.cross], fun l h => ?_⟩
  unfold recip at h
  dsimp only at h
  rw [num_div (by norm_num [V3.dot, V3.cross])] at h
  simp only [bind, Except.bind, Except.ok.injEq] at h
  subst h
  have e : (⟨1, 0, 0⟩ : V3 ℝ).dot ((2 * Real.pi / |(⟨1, 0, 0⟩ : V3 ℝ).dot (V3.cross ⟨0, 0, 1⟩ ⟨0, 1, 0⟩)|) • V3.cross ⟨0, 0, 1⟩ ⟨0, 1, 0⟩) = -(2 * Real.pi) := by
    norm_num [V3.dot, V3.cross]
  refine ⟨e, fun h => ?_⟩
  have := h.aa
  simp only at this
  rw [e] at this
  have := Real.pi_pos
  linarith

/-- C323: if the table gives angles, the edges of the parameters are turned: the orientation of the crystal is lost -/
theorem C323_orient_false : cell ⟨0, 0, 2⟩ ⟨0, 3, 0⟩ ⟨-4, 0, 0⟩ 0 0 0 ⟨none, none, none, some 90, some 90, some 90⟩ =
    .ok (⟨2, 0, 0⟩, ⟨0, 3, 0⟩, ⟨0, 0, 4⟩) := by
  have hp : (90 : ℝ) * (Real.pi / 180) = Real.pi / 2 := by ring
  have l1 : len (⟨0, 0, 2⟩ : V3 ℝ) = 2 := by
    unfold len; rw [show (0 * 0 + 0 * 0 + 2 * 2 : ℝ) = 2 * 2 by norm_num]; exact Real.sqrt_mul_self (by norm_num)
  have l2 : len (⟨0, 3, 0⟩ : V3 ℝ) = 3 := by
    unfold len; rw [show (0 * 0 + 3 * 3 + 0 * 0 : ℝ) = 3 * 3 by norm_num]; exact Real.sqrt_mul_self (by norm_num)
  have l3 : len (⟨-4, 0, 0⟩ : V3 ℝ) = 4 := by
    unfold len; rw [show (-4 * -4 + 0 * 0 + 0 * 0 : ℝ) = 4 * 4 by norm_num]; exact Real.sqrt_mul_self (by norm_num)
  simp only [cell, params, Cell.read, Cell.defaults, Cell.edges, orElse, nil, l1, l2, l3]
  norm_num [fromAngles, hp, divD, num, sqrtD, bind, Except.bind]
  rw [show (16 : ℝ) = 4 * 4 by norm_num]; exact Real.sqrt_mul_self (by norm_num)

/-- C323: if the third edge is not given, the second one is replaced, too -/
theorem C323_default_false : cell ⟨3, 0, 0⟩ ⟨0, 4, 0⟩ ⟨0, 0, 0⟩ 0 0 0 ⟨none, none, none, none, none, none⟩ =
    .ok (⟨3, 0, 0⟩, ⟨0, 3, 0⟩, ⟨0, 0, 3⟩) := by
  have hp : (90 : ℝ) * (Real.pi / 180) = Real.pi / 2 := by ring
  have l1 : len (⟨3, 0, 0⟩ : V3 ℝ) = 3 := by
    unfold len; rw [show (3 * 3 + 0 * 0 + 0 * 0 : ℝ) = 3 * 3 by norm_num]; exact Real.sqrt_mul_self (by norm_num)
  simp only [cell, params, Cell.read, Cell.defaults, Cell.edges, orElse, nil, l1]
  norm_num [fromAngles, hp, divD, num, sqrtD, bind, Except.bind]
  rw [show (9 : ℝ) = 3 * 3 by norm_num]; exact Real.sqrt_mul_self (by norm_num)

/-- example: a hexagonal cell -/
example : ∃ r, fromAngles 3 3 5 90 90 120 = .ok r := by
  have hp : (90 : ℝ) * (Real.pi / 180) = Real.pi / 2 := by ring
  have hq : (120 : ℝ) * (Real.pi / 180) = Real.pi - Real.pi / 3 := by ring
  unfold fromAngles
  dsimp only
  rw [hp, hq, Real.cos_pi_div_two, Real.sin_pi_sub, Real.sin_pi_div_three, num_div (by positivity)]
  simp only [bind, Except.bind, sqrtD, mul_zero, sub_zero, zero_div]
  rw [if_neg (by norm_num)]
  exact ⟨_, rfl⟩

/-- example: a cell of three different edges -/
example : 0 < (⟨3, 0, 0⟩ : V3 ℝ).dot ((⟨1, 4, 0⟩ : V3 ℝ).cross ⟨0, 1, 5⟩) := by norm_num [V3.dot, V3.cross]

/-! ### C324 -/

/-- C324: with three widths, the distribution of a lattice vector across its direction is that of the rotations of the mosaic blocks (around
axes perpendicular to it) which move it: the exponents agree.  Not covered: axes that are principal axes within the tolerance of the code, but
not exactly; rotations around the lattice vector itself. -/
theorem C324_mosaic_partial {m : Mosaic} {t : ℝ} (ht : 0 < t) {u1 b1 : V3 ℝ} (hu : u1.dot u1 = 1) (hb : normalVec u1 = some b1)
    (hi : m.iso ≤ 0) (hh : 0 < m.h) (hv : 0 < m.v) (hn : 0 < m.n)
    (hd : blockBi m b1 (u1.cross b1) = 0 ∨ ¬ blockBi m b1 (u1.cross b1) * blockBi m b1 (u1.cross b1) <
      1e-20 * (blockBi m b1 b1 * blockBi m b1 b1 + blockBi m (u1.cross b1) (u1.cross b1) * blockBi m (u1.cross b1) (u1.cross b1))) :
    ∃ u2 s2 u3 s3, m.axes t u1 = .ok (u2, s2, u3, s3) ∧ Bragg.Frame u1 u2 u3 ∧ 0 < s2 ∧ 0 < s3 ∧
      ∀ x : V3 ℝ, x.dot u1 = 0 → (x.dot u2 / s2) ^ 2 + (x.dot u3 / s3) ^ 2 = blockForm m ((1 / t) • u1.cross x) := by
  obtain ⟨hb1, hb2⟩ := normal_ok hu hb
  obtain ⟨d, da, dc⟩ := block_det hh hv hn hu hb1 hb2
  obtain ⟨f1, f2, f3, f4, f5, f6⟩ := Bragg.frame_of hu hb1 hb2
  set b2 := u1.cross b1 with hb2d
  set a := blockBi m b1 b1 with had
  set b := blockBi m b1 b2 with hbd
  set c := blockBi m b2 b2 with hcd
  obtain ⟨l1, l2, e1, e2, he⟩ : ∃ l1 l2 e1 e2, eigen a b c = (l1, l2, e1, e2) := ⟨_, _, _, _, rfl⟩
  obtain ⟨g1, g2, g3, g4, g5, g6⟩ := eigen_spec hd da dc he
  have hl : 0 < l1 ∧ 0 < l2 := by
    have hp : 0 < l1 * l2 := by rw [g6]; exact d
    rcases pos_and_pos_or_neg_and_neg_of_mul_pos hp with h | h
    · exact h
    · linarith [h.1, h.2]
  have q1 := Real.sqrt_pos.2 hl.1
  have q2 := Real.sqrt_pos.2 hl.2
  refine ⟨_, _, _, _, axes_eq hb hi hh hv hn he, ⟨f1, ?_, ?_, ?_, ?_, ?_⟩, by positivity, by positivity, fun x hx => ?_⟩
  · simp only [V3.dot, V3.add_x, V3.add_y, V3.add_z, V3.smul_x, V3.smul_y, V3.smul_z] at *
    linear_combination e2.1 ^ 2 * f2 + e2.2 ^ 2 * f3 + 2 * e2.1 * e2.2 * f6 + g3
  · simp only [V3.dot, V3.add_x, V3.add_y, V3.add_z, V3.smul_x, V3.smul_y, V3.smul_z] at *
    linear_combination e1.1 ^ 2 * f2 + e1.2 ^ 2 * f3 + 2 * e1.1 * e1.2 * f6 + g2
  · simp only [V3.dot, V3.add_x, V3.add_y, V3.add_z, V3.smul_x, V3.smul_y, V3.smul_z] at *
    linear_combination e2.1 * f4 + e2.2 * f5
  · simp only [V3.dot, V3.add_x, V3.add_y, V3.add_z, V3.smul_x, V3.smul_y, V3.smul_z] at *
    linear_combination e1.1 * f4 + e1.2 * f5
  · simp only [V3.dot, V3.add_x, V3.add_y, V3.add_z, V3.smul_x, V3.smul_y, V3.smul_z] at *
    linear_combination e1.1 * e2.1 * f2 + e1.2 * e2.2 * f3 + (e1.1 * e2.2 + e1.2 * e2.1) * f6 + g4
  · have hq1 := Real.mul_self_sqrt hl.1.le
    have hq2 := Real.mul_self_sqrt hl.2.le
    have key := g1 (x.dot b1) (x.dot b2)
    have hc : u1.cross x = (x.dot b1) • b2 + (-(x.dot b2)) • b1 := by
      obtain ⟨k1, k2⟩ := Bragg.cross_cross hu hb1 hb2
      rw [← hb2d] at k1 k2
      have hexp := Bragg.expand x u1 b1 b2
      rw [k1, k2, ← hb2d, hu, show (1 : ℝ) • x = x by ext <;> simp] at hexp
      have hx' : u1.dot x = 0 := by rw [← hx]; simp only [V3.dot]; ring
      rw [hx'] at hexp
      have s1 : b1.dot x = x.dot b1 := by simp only [V3.dot]; ring
      have s2 : b2.dot x = x.dot b2 := by simp only [V3.dot]; ring
      rw [s1, s2] at hexp
      have k3 : u1.cross b2 = -b1 := by
        rw [← k2]; ext <;> simp only [V3.cross, V3.neg_x, V3.neg_y, V3.neg_z] <;> ring
      have e3 : u1.cross x = (x.dot b1) • u1.cross b1 + (x.dot b2) • u1.cross b2 := by
        conv_lhs => rw [hexp]
        ext <;> simp only [V3.cross, V3.add_x, V3.add_y, V3.add_z, V3.smul_x, V3.smul_y, V3.smul_z] <;> ring
      rw [e3, k3, ← hb2d]
      ext <;> simp
    have hbf : blockForm m ((1 / t) • u1.cross x) = (c * (x.dot b1) ^ 2 - 2 * b * (x.dot b1) * (x.dot b2) + a * (x.dot b2) ^ 2) / t ^ 2 := by
      rw [hc, had, hbd, hcd]
      have r1 := (radians_pos hh).ne'
      have r2 := (radians_pos hv).ne'
      have r3 := (radians_pos hn).ne'
      generalize x.dot b1 = P
      generalize x.dot b2 = Q
      simp only [blockForm, blockBi, V3.add_x, V3.add_y, V3.add_z, V3.smul_x, V3.smul_y, V3.smul_z]
      field_simp
      ring
    rw [hbf, ← key]
    have s1 : x.dot (e2.1 • b1 + e2.2 • b2) = x.dot b1 * e2.1 + x.dot b2 * e2.2 := by
      simp only [V3.dot, V3.add_x, V3.add_y, V3.add_z, V3.smul_x, V3.smul_y, V3.smul_z]; ring
    have s2 : x.dot (e1.1 • b1 + e1.2 • b2) = x.dot b1 * e1.1 + x.dot b2 * e1.2 := by
      simp only [V3.dot, V3.add_x, V3.add_y, V3.add_z, V3.smul_x, V3.smul_y, V3.smul_z]; ring
    rw [s1, s2]
    generalize √l1 = r1 at *
    generalize √l2 = r2 at *
    rw [← hq1, ← hq2]
    field_simp

/-- C324: with one width, the distribution is the same in all directions across -/
theorem C324_iso {m : Mosaic} {t : ℝ} (ht : 0 < t) {u1 : V3 ℝ} (hu : u1.dot u1 = 1) (hi : 0 < m.iso) :
    ∃ u2 u3 s, m.axes t u1 = .ok (u2, s, u3, s) ∧ Bragg.Frame u1 u2 u3 ∧ s = t * radians m.iso ∧ 0 < s := by
  have hu0 : u1 ≠ 0 := by rintro rfl; simp [V3.dot] at hu
  obtain ⟨b1, h1, -, -⟩ := C166_normal hu0
  obtain ⟨h2, h3⟩ := normal_ok hu h1
  have hr := radians_pos hi
  refine ⟨b1, u1.cross b1, t * radians m.iso, ?_, Bragg.frame_of hu h2 h3, rfl, by positivity⟩
  unfold Mosaic.axes
  simp only [h1, num, bind, Except.bind]
  rw [if_pos hi]
  have : FWHM2RMS * t * MIN2RAD * m.iso = t * radians m.iso := by unfold radians MIN2RAD; ring
  rw [this]

/-- C324: the widths are documented as standard deviations, but the code takes them for full widths: the standard deviation is smaller -/
theorem C324_rms_false {m : Mosaic} {t : ℝ} (ht : 0 < t) {u1 : V3 ℝ} (hu : u1.dot u1 = 1) (hi : 0 < m.iso) :
    ∃ u2 u3 s, m.axes t u1 = .ok (u2, s, u3, s) ∧ s < 0.43 * (t * (m.iso * (Real.pi / 10800))) := by
  obtain ⟨u2, u3, s, h, -, hs, -⟩ := C324_iso ht hu hi
  refine ⟨u2, u3, s, h, ?_⟩
  rw [hs]
  unfold radians FWHM2RMS
  have := mul_pos ht (mul_pos hi Real.pi_pos)
  norm_num at this ⊢
  nlinarith

/-- C324: a table with the row 0 0 0 gives something that is not a number -/
theorem C324_zero_false (lat : Bragg.Lat) (m : Mosaic) (dd : ℝ) (F : Option ℝ) (F2 : ℝ) :
    reflection lat m dd 0 0 0 F F2 = .error .undefinedBehaviour := by
  have h0 : (0 : ℝ) • lat.ra + (0 : ℝ) • lat.rb + (0 : ℝ) • lat.rc = 0 := by ext <;> simp
  unfold reflection
  simp [h0, len, divD, num, bind, Except.bind]

/-- example: widths of 10, 20 and 30 minutes, a lattice vector along (1 0 0) -/
example : ∃ b1 : V3 ℝ, normalVec ⟨1, 0, 0⟩ = some b1 ∧ blockBi ⟨-1, 10, 20, 30⟩ b1 (V3.cross ⟨1, 0, 0⟩ b1) = 0 := by
  refine ⟨⟨0, -1, 0⟩, ?_, ?_⟩
  · simp [normalVec, divD]
  · simp [blockBi, V3.cross]

/-! ### C325 -/

/-- C325: one turn of the loop.  The part exp(-S l) of the neutrons goes through without interaction, and the others interact after a way x with
the density S exp(-S x): whatever the probability that is used for the transmission. -/
theorem C325_turn {c : Crystal} {G : Gravity} {v Sa Si l S : ℝ} {n : ℕ} {d : Draw} {e : Event ℝ} {ki : V3 ℝ} {ts : List Bragg.Tau}
    (hki : c.ki e.v d = .ok ki) (hn : c.near ki (V2K * v) = .ok ts) (hts : ∀ t ∈ ts, 0 < t.refl ∧ 0 ≤ t.xs) (hV : 0 < c.V0) (hSi : 0 ≤ Si)
    (hv : 0 < v) (hp : 0 ≤ e.p) (hS : S = Sa + Si + 1e2 * Bragg.totalXs ts / c.V0) (hS0 : 0 < S) (hl : 1e-6 ≤ S * l)
    (hmc : ¬ (n = 0 ∧ (c.p_transmit = 0 ∨ c.p_transmit = 1))) (f : Event ℝ → ℝ) :
    mean2 (fun ut ul => weighT f (c.turn G v Sa Si n l { d with ut := ut, ul := ul } e)) =
      e.p * (Real.exp (-S * l) * f { e with p := 1 } + ∫ x in (0 : ℝ)..l, S * Real.exp (-S * x) *
        weighE f (kick (V2K * v) (1e2 * Bragg.totalXs ts / c.V0) Si S ts d (propDt G (x / v) { e with p := 1 }))) := by
  have hX : 0 ≤ Bragg.totalXs ts := List.sum_nonneg (by simpa using fun t ht => (hts t ht).2)
  have hSc : 0 ≤ 1e2 * Bragg.totalXs ts / c.V0 := by positivity
  obtain ⟨pt, hpt⟩ : ∃ pt, pt = Real.exp (-S * l) := ⟨_, rfl⟩
  have hpt0 : 0 < pt := by rw [hpt]; exact Real.exp_pos _
  have hpt1 : pt < 1 := by rw [hpt, Real.exp_lt_one_iff]; norm_num at hl; linarith
  obtain ⟨mc, hm⟩ : ∃ mc, mc = c.chance n pt := ⟨_, rfl⟩
  have hmc01 : 0 < mc ∧ mc < 1 := by
    rw [hm]
    unfold Crystal.chance
    split
    · next h =>
      obtain ⟨h1, h2, h3⟩ := h
      have h4 : c.p_transmit ≠ 0 := fun h => hmc ⟨h1, .inl h⟩
      have h5 : c.p_transmit ≠ 1 := fun h => hmc ⟨h1, .inr h⟩
      exact ⟨lt_of_le_of_ne h2 (Ne.symm h4), lt_of_le_of_ne h3 h5⟩
    · exact ⟨hpt0, hpt1⟩
  obtain ⟨A, hA⟩ : ∃ A : ℝ, A = if n = 0 then |1 - pt| / (1 - mc) else 1 := ⟨_, rfl⟩
  have hA0 : 0 ≤ A := by
    rw [hA]; split
    · have : 0 < 1 - mc := by linarith [hmc01.2]
      positivity
    · norm_num
  have hA1 : (1 - mc) * A = 1 - pt := by
    have h1 : 1 - mc ≠ 0 := by linarith [hmc01.2]
    rw [hA]
    split
    · rw [abs_of_pos (by linarith)]; field_simp
    · next h =>
      have : mc = pt := by rw [hm]; unfold Crystal.chance; rw [if_neg (fun q => h q.1)]
      rw [this]; ring
  obtain ⟨K, hK⟩ : ∃ K : ℝ → ℝ, K = fun x => weighE f (kick (V2K * v) (1e2 * Bragg.totalXs ts / c.V0) Si S ts d (propDt G (x / v) { e with p := 1 })) := ⟨_, rfl⟩
  have low : ∀ ut, 0 < ut → ut < mc → mean (fun ul => weighT f (c.turn G v Sa Si n l { d with ut := ut, ul := ul } e)) = e.p * (pt / mc) * f { e with p := 1 } := by
    intro ut _ h2
    rw [← mean_const (e.p * (pt / mc) * f { e with p := 1 })]
    apply mean_congr
    intro ul _ _
    have hk' : c.ki e.v { d with ut := ut, ul := ul } = .ok ki := hki
    unfold Crystal.turn
    simp only [hk', bind, Except.bind, hn, ← hS, ← hpt, ← hm]
    rw [if_pos ⟨hmc01.1, .inr h2⟩]
    show (if e.p * (pt / mc) = -1 then 0 else e.p * (pt / mc) * f { e with p := 1 }) = _
    have : 0 ≤ e.p * (pt / mc) := mul_nonneg hp (div_nonneg hpt0.le hmc01.1.le)
    rw [if_neg (by linarith)]
  have high : ∀ ut, mc < ut → ut < 1 → mean (fun ul => weighT f (c.turn G v Sa Si n l { d with ut := ut, ul := ul } e)) =
      e.p * A * mean (fun ul => K (place S l ul)) := by
    intro ut h1 _
    rw [← mean_mul]
    apply mean_congr
    intro ul q0 q1
    have hk' : c.ki e.v { d with ut := ut, ul := ul } = .ok ki := hki
    have hpl := place_nonneg hS0 hl q0.le q1.le
    have hdt : 0 ≤ place S l ul / v := div_nonneg hpl hv.le
    have hif : (if n = 0 then { e with p := e.p * (|1 - pt| / (1 - mc)) } else e) = { e with p := e.p * A } := by
      rw [hA]; split <;> simp
    unfold Crystal.turn
    simp only [hk', bind, hn, Except.bind, ← hS, ← hpt, ← hm]
    rw [if_neg (fun h => by rcases h.2 with h | h <;> linarith [hmc01.2]), if_neg (by linarith), if_neg (by linarith [hmc01.2]), hif]
    have hw := weighT_bind f (kick (V2K * v) (1e2 * Bragg.totalXs ts / c.V0) Si S ts { d with ut := ut, ul := ul } (propDt G (place S l ul / v) { e with p := e.p * A }))
      (c.order ≠ 0 ∧ n + 1 ≥ c.order)
    have hd : ∀ e', kick (V2K * v) (1e2 * Bragg.totalXs ts / c.V0) Si S ts { d with ut := ut, ul := ul } e' =
      kick (V2K * v) (1e2 * Bragg.totalXs ts / c.V0) Si S ts d e' := fun _ => rfl
    rw [hd] at hw
    rw [hd]
    have hks := kick_scale f (V2K * v) hSc hSi hS0 hts d (e := propDt G (place S l ul / v) { e with p := e.p * A })
      (by rw [propDt_keep G hdt]; exact mul_nonneg hp hA0)
    rw [propDt_keep G hdt, ← propDt_p G hdt] at hks
    rw [hK]
    dsimp only at hks ⊢
    rw [← hks, ← hw]
    rfl
  unfold mean2
  rw [mean_two hmc01.1.le hmc01.2.le low high]
  have hpm := place_mean hS0 hl K
  rw [← hpt] at hpm ⊢
  rw [hK] at hpm
  rw [hK, ← hpm]
  have := hmc01.1.ne'
  rw [show (1 - mc) * (e.p * A * mean fun ul => (fun x => weighE f (kick (V2K * v) (1e2 * Bragg.totalXs ts / c.V0) Si S ts d (propDt G (x / v) { e with p := 1 }))) (place S l ul)) =
    e.p * ((1 - mc) * A * mean fun ul => (fun x => weighE f (kick (V2K * v) (1e2 * Bragg.totalXs ts / c.V0) Si S ts d (propDt G (x / v) { e with p := 1 }))) (place S l ul)) by ring, hA1]
  field_simp

/-- C325: an interaction is incoherent scattering with the probability Si / S, and diffraction with Sc / S; absorption takes the rest -/
theorem C325_kind {k Sc Si S : ℝ} (hSc : 0 < Sc) (hSi : 0 ≤ Si) (hS : 0 < S) {ts : List Bragg.Tau} (hts : ∀ t ∈ ts, 0 < t.refl ∧ 0 ≤ t.xs) (d : Draw) {e : Event ℝ}
    (hp : 0 ≤ e.p) (f : Event ℝ → ℝ) : mean (fun u => weighE f (kick k Sc Si S ts { d with uc := u } e)) =
      Si / S * evenly f e d.i1 d.i2 + Sc / S * weighE f (coherent k ts d e) := by
  have hw : 0 ≤ (Sc + Si) / S := by positivity
  have hq : 0 < Sc + Si := by linarith
  rw [mean_two (a := Si / (Sc + Si)) (A := (Sc + Si) / S * evenly f e d.i1 d.i2) (B := (Sc + Si) / S * weighE f (coherent k ts d e)) (by positivity)
    (by rw [div_le_one hq]; linarith)]
  · have : Si / (Sc + Si) * (Sc + Si) = Si := div_mul_cancel₀ _ hq.ne'
    field_simp
    ring
  · intro u _ h
    rw [lt_div_iff₀ hq] at h
    unfold kick
    simp only [bind, Except.bind]
    rw [num_div hS.ne']
    dsimp only
    rw [if_pos (.inr h.le)]
    unfold evenly
    cases targetCircle e.v 0 d.i1 d.i2 with
    | none => simp [num, weighE, Sampling.observe]
    | some r =>
      simp only [num, Sampling.observe]
      rw [weighE_ok f (by exact mul_nonneg hp hw)]
      ring
  · intro u h _
    rw [div_lt_iff₀ hq] at h
    unfold kick
    simp only [bind, Except.bind]
    rw [num_div hS.ne']
    dsimp only
    rw [if_neg (not_or.2 ⟨hSc.ne', not_le.2 h⟩)]
    show weighE f (coherent k ts d _) = _
    rw [coherent_scale f k hts d (by exact mul_nonneg hp hw), coherent_scale f k hts d hp]
    ring

/-- C325: incoherent scattering has no preferred direction -/
theorem C325_even {e : Event ℝ} (hv : e.v ≠ 0) : ∃ a b, Sampling.Across ⟨0, length e.v, 0⟩ a b ∧ ∀ f : Event ℝ → ℝ,
    mean2 (fun i1 i2 => evenly f e i1 i2) = e.p * (Sampling.capIntegral ⟨0, length e.v, 0⟩ a b (-1) (fun w => f { e with v := w, p := 1 }) / (4 * Real.pi)) := by
  obtain ⟨a, b, hab, h1, h2⟩ := C162_sphere hv
  refine ⟨a, b, hab, fun f => ?_⟩
  rw [← h2, ← mul_div_assoc, eq_div_iff (by have := Real.pi_pos; positivity)]
  unfold mean2
  rw [← mean_mul, mul_comm, ← mean_mul]
  apply mean_congr
  intro i1 h0 h3
  rw [← mean_mul, ← mean_mul]
  apply mean_congr
  intro i2 _ _
  obtain ⟨w, hw, -⟩ := h1 i1 i2 h0.le h3.le
  dsimp only [evenly]
  rw [hw]
  simp only [Sampling.observe]
  ring

/-- C325: if the probability of transmission is set to 0, the neutrons that should go through are lost: every neutron interacts, but the weights
are those of the part which does -/
theorem C325_zero_false {c : Crystal} (hc : c.p_transmit = 0) (G : Gravity) {v Sa Si l : ℝ} (hSi : 0 < Si) (hSa : 0 ≤ Sa) (hV : 0 < c.V0) (hv : 0 < v) {d : Draw} {e : Event ℝ}
    {ki : V3 ℝ} (hki : c.ki e.v d = .ok ki) (hn : c.near ki (V2K * v) = .ok []) (hp : 0 < e.p) (hev : e.v ≠ 0) (hl : 1e-6 ≤ (Sa + Si) * l)
    (hi1 : 0 ≤ d.i1 ∧ d.i1 ≤ 1) (hg : G.on = false) :
    mean2 (fun ut ul => weighT (fun _ => 1) (c.turn G v Sa Si 0 l { d with ut := ut, ul := ul } e)) = e.p * ((1 - Real.exp (-(Sa + Si) * l)) * (Si / (Sa + Si))) ∧
    mean2 (fun ut ul => weighT (fun _ => 1) (c.turn G v Sa Si 0 l { d with ut := ut, ul := ul } e)) <
      e.p * (Real.exp (-(Sa + Si) * l) + (1 - Real.exp (-(Sa + Si) * l)) * (Si / (Sa + Si))) := by
  have hS : 0 < Sa + Si := by linarith
  suffices hmain : mean2 (fun ut ul => weighT (fun _ => 1) (c.turn G v Sa Si 0 l { d with ut := ut, ul := ul } e)) =
      e.p * ((1 - Real.exp (-(Sa + Si) * l)) * (Si / (Sa + Si))) by
    refine ⟨hmain, ?_⟩
    rw [hmain]
    apply mul_lt_mul_of_pos_left _ hp
    linarith [Real.exp_pos (-(Sa + Si) * l)]
  have hpt1 : Real.exp (-(Sa + Si) * l) < 1 := by rw [Real.exp_lt_one_iff]; norm_num at hl; linarith
  rw [← mean_const (e.p * _)]
  unfold mean2
  apply mean_congr
  intro ut q0 q1
  rw [← mean_const (e.p * _)]
  apply mean_congr
  intro ul r0 r1
  have hk' : c.ki e.v { d with ut := ut, ul := ul } = .ok ki := hki
  have hpl := place_nonneg hS hl r0.le r1.le
  have hdt : 0 ≤ place (Sa + Si) l ul / v := div_nonneg hpl hv.le
  have hSe : Sa + Si + 1e2 * Bragg.totalXs [] / c.V0 = Sa + Si := by simp [Bragg.totalXs]
  have hch : c.chance 0 (Real.exp (-(Sa + Si) * l)) = 0 := by
    unfold Crystal.chance
    rw [if_pos ⟨rfl, by rw [hc], by rw [hc]; norm_num⟩, hc]
  unfold Crystal.turn
  simp only [hk', bind, hn, Except.bind, hSe, hch]
  rw [if_neg (fun h => lt_irrefl _ h.1), if_neg (not_le.2 hS), if_neg (by norm_num), if_pos trivial]
  have hw := weighT_bind (fun _ => 1) (kick (V2K * v) (1e2 * Bragg.totalXs [] / c.V0) Si (Sa + Si) [] { d with ut := ut, ul := ul }
    (propDt G (place (Sa + Si) l ul / v) { e with p := e.p * (|1 - Real.exp (-(Sa + Si) * l)| / (1 - 0)) })) (c.order ≠ 0 ∧ 0 + 1 ≥ c.order)
  refine Eq.trans (by exact hw) ?_
  have hvel : (propDt G (place (Sa + Si) l ul / v) e).v = e.v := by
    unfold propDt
    rw [if_neg (by norm_num; linarith), hg]
    rfl
  obtain ⟨a, b, -, h1, -⟩ := C162_sphere hev
  obtain ⟨w, hw', -⟩ := h1 d.i1 d.i2 hi1.1 hi1.2
  rw [propDt_p G hdt]
  unfold kick
  simp only [bind, Except.bind]
  rw [num_div hS.ne']
  dsimp only
  rw [if_pos (.inl (by simp [Bragg.totalXs])), hvel, hw']
  simp only [num]
  have hX : (1e2 * Bragg.totalXs [] / c.V0 + Si) / (Sa + Si) = Si / (Sa + Si) := by simp [Bragg.totalXs]
  rw [hX, abs_of_pos (by linarith), sub_zero, div_one]
  have : 0 ≤ e.p * (1 - Real.exp (-(Sa + Si) * l)) * (Si / (Sa + Si)) := by
    have : 0 < 1 - Real.exp (-(Sa + Si) * l) := by linarith
    positivity
  rw [weighE_ok _ (by exact this)]
  dsimp only
  ring

/-- C325: with a limit of one collision, a neutron leaves from the place where it is scattered, and its weight does not depend on the way out -/
theorem C325_order_false {c : Crystal} (hc : c.order = 1) (hpt : ¬ (c.p_transmit ≥ 0 ∧ c.p_transmit ≤ 1)) {v Sa Si l : ℝ} (hSi : 0 < Si) (hSa : 0 ≤ Sa) (hv : 0 < v) {d : Draw} {e : Event ℝ}
    {ki : V3 ℝ} (hki : c.ki e.v d = .ok ki) (hn : c.near ki (V2K * v) = .ok []) (hp : 0 < e.p) (hev : e.v ≠ 0) (hl : 1e-6 ≤ (Sa + Si) * l)
    (hi1 : 0 ≤ d.i1 ∧ d.i1 ≤ 1) (hut : Real.exp (-(Sa + Si) * l) ≤ d.ut) (g : V3 ℝ) {ul : ℝ} (h0 : 0 ≤ ul) (h1 : ul ≤ 1) :
    ∃ w, c.turn ⟨false, g⟩ v Sa Si 0 l { d with ul := ul } e =
      .ok (.left { e with r := e.r + (place (Sa + Si) l ul / v) • e.v, t := e.t + place (Sa + Si) l ul / v, v := w, p := e.p * (Si / (Sa + Si)) }) := by
  have hS : 0 < Sa + Si := by linarith
  have hE0 := Real.exp_pos (-(Sa + Si) * l)
  have hpt1 : Real.exp (-(Sa + Si) * l) < 1 := by rw [Real.exp_lt_one_iff]; norm_num at hl; linarith
  have hk' : c.ki e.v { d with ul := ul } = .ok ki := hki
  have hpl := place_nonneg hS hl h0 h1
  have hdt : 0 ≤ place (Sa + Si) l ul / v := div_nonneg hpl hv.le
  have hSe : Sa + Si + 1e2 * Bragg.totalXs [] / c.V0 = Sa + Si := by simp [Bragg.totalXs]
  have hch : c.chance 0 (Real.exp (-(Sa + Si) * l)) = Real.exp (-(Sa + Si) * l) := by
    unfold Crystal.chance
    rw [if_neg (fun h => hpt h.2)]
  obtain ⟨a, b, -, hs, -⟩ := C162_sphere hev
  obtain ⟨w, hw', -⟩ := hs d.i1 d.i2 hi1.1 hi1.2
  refine ⟨w, ?_⟩
  have hprop : propDt ⟨false, g⟩ (place (Sa + Si) l ul / v) { e with p := e.p * (|1 - Real.exp (-(Sa + Si) * l)| / (1 - Real.exp (-(Sa + Si) * l))) } =
      { e with r := e.r + (place (Sa + Si) l ul / v) • e.v, t := e.t + place (Sa + Si) l ul / v } := by
    rw [abs_of_pos (by linarith), div_self (by linarith), mul_one]
    unfold propDt
    rw [if_neg (by norm_num; linarith)]
    simp only [propDtFree, Bool.false_eq_true, if_false]
    ext <;> simp [V3.add_x, mul_comm]
  unfold Crystal.turn
  simp only [hk', bind, hn, Except.bind, hSe, hch]
  rw [if_neg (fun h => by rcases h.2 with h | h <;> linarith), if_neg (not_le.2 hS), if_neg (by linarith), if_pos trivial, hprop]
  have hkick : kick (V2K * v) (1e2 * Bragg.totalXs [] / c.V0) Si (Sa + Si) [] { d with ul := ul }
      { e with r := e.r + (place (Sa + Si) l ul / v) • e.v, t := e.t + place (Sa + Si) l ul / v } =
      .ok { e with r := e.r + (place (Sa + Si) l ul / v) • e.v, t := e.t + place (Sa + Si) l ul / v, v := w, p := e.p * (Si / (Sa + Si)) } := by
    unfold kick
    simp only [bind, Except.bind]
    rw [num_div hS.ne']
    dsimp only
    rw [if_pos (.inl (by simp [Bragg.totalXs])), hw']
    simp [num, Bragg.totalXs]
  rw [hkick]
  dsimp only
  have hpp : 0 ≤ e.p * (Si / (Sa + Si)) := by positivity
  rw [if_neg (by linarith), if_pos (by rw [hc]; norm_num)]

/-- example: a crystal without reflections near, a neutron of 1000 m/s with 1 cm to go, cross sections that give 1/(1 m) and 2/(1 m) -/
example : ∃ (c : Crystal) (e : Event ℝ) (d : Draw) (ki : V3 ℝ), c.order = 1 ∧ ¬ (c.p_transmit ≥ 0 ∧ c.p_transmit ≤ 1) ∧ c.ki e.v d = .ok ki ∧
    c.near ki (V2K * 1000) = .ok [] ∧ 0 < e.p ∧ e.v ≠ 0 ∧ (0 ≤ d.i1 ∧ d.i1 ≤ 1) ∧ (1e-6 : ℝ) ≤ (1 + 2) * 0.01 ∧ Real.exp (-(1 + 2) * 0.01) ≤ d.ut ∧ 0 < c.V0 := by
  refine ⟨⟨⟨0.01, 0.01, 0.01⟩, 100, 1e-3, 1, 1, -1, 1, false, []⟩, ⟨0, ⟨0, 0, 1000⟩, 0, 0, 0, 1⟩, ⟨0, 0, 1, 0.5, 0, 0.5, 0, 0, 0, 0⟩, _, rfl, by norm_num, rfl, ?_,
    by norm_num, ?_, by norm_num, by norm_num, ?_, by norm_num⟩
  · unfold Crystal.near V2K
    simp only [bind, Except.bind]
    rw [num_div (by norm_num), num_div (by norm_num)]
    simp [Bragg.tauLoop, num]
  · intro h; have := congrArg V3.z h; norm_num at this
  · rw [Real.exp_le_one_iff]; norm_num

/-! ### C326 -/

/-- C326: with one mosaic width, the strength of a reflection is `(2π)³/(V₀ k²)` times the integral of the density of lattice vectors over the plane that
touches the sphere of constant energy, times the structure factor (fm² to barns) -/
theorem C326_section {c : Crystal} {lat : Bragg.Lat} {m : Mosaic} (hi : 0 < m.iso)
    (hp : ∀ p ∈ c.peaks, ∃ h k l F F2, reflection lat m c.dd h k l F F2 = .ok p) {ki : V3 ℝ} {k : ℝ} (hk : k = length ki) {ts : List Bragg.Tau}
    (h : c.near ki k = .ok ts) : ∀ t ∈ ts, ∃ n b1 b2 : V3 ℝ, Bragg.Frame n b1 b2 ∧
      (∀ y1 y2 : ℝ, Bragg.OnPlane ki t.peak.tau (length ki • n + y1 • b1 + y2 • b2)) ∧
      t.xs = (2 * Real.pi) ^ 3 / (c.V0 * (ki.dot ki)) *
        (∫ y1 : ℝ, ∫ y2 : ℝ, Bragg.density (m.iso * (Real.pi / 10800)) c.dd t.peak.tau (length ki • n + y1 • b1 + y2 • b2 - (ki - t.peak.tau))) *
          (t.peak.F2 / 100) := by
  have hgood : ∀ p ∈ c.peaks, Bragg.Good (MIN2RAD * m.iso) c.dd p := by
    intro p hpm
    obtain ⟨_, _, _, _, _, e⟩ := hp p hpm
    exact reflection_good hi e
  intro t htm
  obtain ⟨hpm, hV, n, α, hst⟩ := near_facts hgood h t htm
  have hg := hgood _ hpm
  have hmos : m.iso * (Real.pi / 10800) = MIN2RAD * m.iso := by unfold MIN2RAD; ring
  rw [hmos]
  refine ⟨t.peak.toWorld n, t.peak.toWorld t.b1, t.peak.toWorld t.b2, Bragg.Peak.toWorld_frame hg.frame hst.frame, fun y1 y2 => ?_, ?_⟩
  · rw [← Bragg.Peak.toWorld_smul, ← Bragg.Peak.toWorld_smul, ← Bragg.Peak.toWorld_smul, ← Bragg.Peak.toWorld_add, ← Bragg.Peak.toWorld_add]
    apply (hst.plane hg _).2
    obtain ⟨h1, -, -, h4, h5, -⟩ := hst.frame
    simp only [V3.dot, V3.add_x, V3.add_y, V3.add_z, V3.smul_x, V3.smul_y, V3.smul_z] at *
    linear_combination length ki * h1 + y1 * h4 + y2 * h5
  · have e : ∀ y1 y2 : ℝ, length ki • t.peak.toWorld n + y1 • t.peak.toWorld t.b1 + y2 • t.peak.toWorld t.b2 -
        (ki - t.peak.tau) = t.peak.toWorld (t.o + y1 • t.b1 + y2 • t.b2) := by
      intro y1 y2
      rw [show ki - t.peak.tau = t.peak.toWorld t.rho from hst.rho.symm, ← Bragg.Peak.toWorld_smul, ← Bragg.Peak.toWorld_smul,
        ← Bragg.Peak.toWorld_smul, ← Bragg.Peak.toWorld_add, ← Bragg.Peak.toWorld_add, ← Bragg.Peak.toWorld_sub, hst.o, hst.rhoN]
      congr 1
      ext <;> simp only [V3.add_x, V3.add_y, V3.add_z, V3.sub_x, V3.sub_y, V3.sub_z, V3.smul_x, V3.smul_y, V3.smul_z] <;> ring
    simp only [e, Bragg.density, hg.exponent, hg.length, MeasureTheory.integral_div]
    have h1 : (2 * Real.pi) ^ (5 / 2 : ℝ) * (2 * Real.pi) ^ (3 / 2 : ℝ) = (2 * Real.pi) ^ 3 * (2 * Real.pi) := by
      have := Real.pi_pos
      rw [← Real.rpow_add (by positivity), ← pow_succ, ← Real.rpow_natCast]
      norm_num
    have h2 : 0 < (2 * Real.pi) ^ (3 / 2 : ℝ) := by have := Real.pi_pos; positivity
    have s1 := hg.s1
    have s2 := hg.s2
    have hV0 : c.V0 ≠ 0 := by rintro e; simp [e] at hV
    have hk0 : k ≠ 0 := by rintro e; simp [e] at hV
    rw [hst.int, hst.xs, hst.refl, hg.sig, ← length_mul_self, ← hk]
    norm_num
    field_simp
    linear_combination t.l11 * t.l22 * t.peak.F2 * h1

/-- C326: the reflections are chosen by their strengths, whatever the random numbers for the wave vector -/
theorem C326_choice {k : ℝ} {ts : List Bragg.Tau} (hts : ∀ t ∈ ts, 0 < t.refl ∧ 0 ≤ t.xs) (hX : 0 < Bragg.totalXs ts) (d : Draw) {e : Event ℝ} (hp : 0 ≤ e.p)
    (hkf : ∀ t ∈ ts, t.kf d.z1 d.z2 ≠ 0) (f : Event ℝ → ℝ) : mean (fun u => weighE f (coherent k ts { d with ur := u } e)) =
      e.p * (ts.map fun t => t.xs / Bragg.totalXs ts * f { e with v := K2V • t.peak.toWorld ((k / length (t.kf d.z1 d.z2)) • t.kf d.z1 d.z2), p := 1 }).sum := by
  have hne : ts ≠ [] := by rintro rfl; simp [Bragg.totalXs] at hX
  have hR := Bragg.totalRefl_pos (fun t ht => (hts t ht).1) hne
  obtain ⟨B, hB⟩ : ∃ B : Option Bragg.Tau → ℝ, B = fun o => match o with
    | some t => e.p * (t.xs * Bragg.totalRefl ts / (Bragg.totalXs ts * t.refl)) *
        f { e with v := K2V • t.peak.toWorld ((k / length (t.kf d.z1 d.z2)) • t.kf d.z1 d.z2), p := 1 }
    | none => 0 := ⟨_, rfl⟩
  have hch : ∀ u, choose ts u = Bragg.pick ts u := by
    intro u
    unfold choose Bragg.pick
    rw [Kinem.random_eq, show 0 + u * (Bragg.totalRefl ts - 0) = u * Bragg.totalRefl ts by ring]
    cases Bragg.pickLoop (u * Bragg.totalRefl ts) 0 0 (ts.map fun x => x.refl) <;> rfl
  have e1 : mean (fun u => weighE f (coherent k ts { d with ur := u } e)) = mean (fun u => B ts[Bragg.pick ts u]?) := by
    apply mean_congr
    intro u _ _
    unfold coherent
    rw [if_neg (not_le.2 hR), hB]
    dsimp only
    rw [hch]
    cases ht : ts[Bragg.pick ts u]? with
    | none => rfl
    | some t =>
      have htm := List.mem_of_getElem? ht
      have h1 : len (t.kf d.z1 d.z2) ≠ 0 := by rw [len_eq]; exact (length_pos (hkf t htm)).ne'
      have hm := hts t htm
      have q1 := hm.1
      have q2 := hm.2
      simp only [bind, Except.bind]
      rw [num_div h1]
      dsimp only
      rw [num_div (mul_pos hX hm.1).ne']
      dsimp only
      rw [weighE_ok f (by dsimp only; positivity), len_eq]
  rw [e1, Bragg.pick_mean (fun t ht => (hts t ht).1) hne, hB, div_eq_iff hR.ne', ← List.sum_map_mul_left, ← List.sum_map_mul_right]
  congr 1
  apply List.map_congr_left
  intro t htm
  have := (hts t htm).1.ne'
  have := hX.ne'
  field_simp

/-- C326: the speed after diffraction is that of the wave number before, up to the constants of the conversion; place, time and spin are kept.  Not covered: that it is
the speed before, which is false. -/
theorem C326_elastic_partial {k : ℝ} (hk : 0 < k) {ts : List Bragg.Tau} (hf : ∀ t ∈ ts, Bragg.Frame t.peak.u1 t.peak.u2 t.peak.u3) {d : Draw} {e e' : Event ℝ}
    (h : coherent k ts d e = .ok e') (hR : 0 < Bragg.totalRefl ts) : length e'.v = K2V * k ∧ e'.r = e.r ∧ e'.t = e.t ∧ e'.s1 = e.s1 ∧ e'.s2 = e.s2 := by
  unfold coherent at h
  rw [if_neg (not_le.2 hR)] at h
  cases ht : ts[choose ts d.ur]? with
  | none => simp [ht] at h
  | some t =>
    rw [ht] at h
    simp only [bind, Except.bind] at h
    by_cases h1 : len (t.kf d.z1 d.z2) = 0
    · simp [divD, h1, num] at h
    rw [num_div h1] at h
    dsimp only at h
    by_cases h2 : Bragg.totalXs ts * t.refl = 0
    · simp [divD, h2, num] at h
    rw [num_div h2] at h
    simp only [Except.ok.injEq] at h
    subst h
    refine ⟨?_, rfl, rfl, rfl, rfl⟩
    dsimp only
    rw [len_eq] at h1 ⊢
    have hfr := hf t (List.mem_of_getElem? ht)
    have hl : 0 < length (t.kf d.z1 d.z2) := lt_of_le_of_ne (Kinem.length_nonneg _) (Ne.symm h1)
    have e2 : length (t.peak.toWorld ((k / length (t.kf d.z1 d.z2)) • t.kf d.z1 d.z2)) = k := by
      rw [Bragg.Peak.toWorld_smul, Bragg.length_smul', show length (t.peak.toWorld (t.kf d.z1 d.z2)) = length (t.kf d.z1 d.z2) by
        rw [length_eq, length_eq, Bragg.Peak.toWorld_dot hfr], abs_of_pos (by positivity)]
      field_simp
    rw [Bragg.length_smul', e2, abs_of_pos (by unfold K2V; norm_num)]

/-- C326: so the speed changes in each diffraction, since the two factors of the conversion are not inverse to each other -/
theorem C326_energy_false {v : ℝ} (hv : 0 < v) {ts : List Bragg.Tau} (hf : ∀ t ∈ ts, Bragg.Frame t.peak.u1 t.peak.u2 t.peak.u3) {d : Draw} {e e' : Event ℝ}
    (h : coherent (V2K * v) ts d e = .ok e') (hR : 0 < Bragg.totalRefl ts) : length e'.v ≠ v := by
  have hk : 0 < V2K * v := by unfold V2K; positivity
  rw [(C326_elastic_partial hk hf h hR).1]
  intro h
  have : (K2V * V2K - 1) * v = 0 := by linarith
  rcases mul_eq_zero.1 this with h | h
  · unfold K2V V2K at h; norm_num at h
  · linarith

/-- C326: in the mode for powders the direction of the incoming neutron plays no role, so that there is no fixed angle between the velocity before and after (no
Debye-Scherrer cone): a neutron of the same speed that flies in the direction in which the first one is scattered has the same reflections, and with the same random
numbers it is not deflected -/
theorem C326_powder_false {c : Crystal} (hc : c.powder = true) {k : ℝ} {ts : List Bragg.Tau} {d : Draw} {e e' : Event ℝ} (h : coherent k ts d e = .ok e')
    (hR : 0 < Bragg.totalRefl ts) (hv : e.v ≠ 0) (hv' : e'.v ≠ 0) : ∃ w s : ℝ, ∃ e2 : Event ℝ, 0 < w ∧ 0 < s ∧ length (s • e'.v) = length e.v ∧ c.ki (s • e'.v) d = c.ki e.v d ∧
      coherent k ts d { e with v := s • e'.v } = .ok e2 ∧ e2.v = w • (s • e'.v) := by
  have l1 := length_pos hv
  have l2 := length_pos hv'
  have hs : 0 < length e.v / length e'.v := by positivity
  have hl : length ((length e.v / length e'.v) • e'.v) = length e.v := by
    rw [Bragg.length_smul', abs_of_pos hs]; field_simp
  refine ⟨length e'.v / length e.v, length e.v / length e'.v, e', by positivity, hs, hl, ?_, ?_, ?_⟩
  · have hd : ∀ t : V3 ℝ, √(t.x * t.x + t.y * t.y + t.z * t.z) = length t := fun t => (length_eq t).symm
    unfold Crystal.ki
    rw [if_pos hc, if_pos hc]
    unfold targetCircle
    rw [if_pos rfl, if_pos rfl, hd, hd, hl]
  · rw [← h]
    unfold coherent
    rw [if_neg (not_le.2 hR), if_neg (not_le.2 hR)]
  · ext <;> simp only [V3.smul_x, V3.smul_y, V3.smul_z] <;> field_simp

/-- C326: a table need not be sorted by length, and the search stops at the first vector that is too long: reflections behind it are not seen, even those that are exactly on
the sphere -/
theorem C326_sorted_false {c : Crystal} {ki : V3 ℝ} {k : ℝ} (hV : 0 < c.V0) (hk : 0 < k) (hd : 1 - 5 * c.dd ≠ 0) {p : Bragg.Peak} {ps : List Bragg.Peak} (hp : c.peaks = p :: ps)
    (h : 2 * k / (1 - 5 * c.dd) < p.tauLength) : c.near ki k = .ok [] := by
  unfold Crystal.near
  simp only [bind, Except.bind]
  rw [num_div hd, num_div (by positivity), hp]
  dsimp only
  unfold Bragg.tauLoop
  rw [if_pos h]
  rfl

/-- example: a cube with the edge 2π, a mosaic width of 10 minutes, and a neutron of wave number 1/2 along the edge, which is reflected backwards -/
theorem cube_near (powder : Bool) (order : ℕ) : ∃ (c : Crystal) (p : Bragg.Peak) (t : Bragg.Tau), c.peaks = [p] ∧ c.powder = powder ∧ c.order = order ∧ 0 < c.V0 ∧ 0 < c.dd ∧
    reflection ⟨⟨1, 0, 0⟩, ⟨0, 1, 0⟩, ⟨0, 0, 1⟩, 100⟩ ⟨10, 0, 0, 0⟩ c.dd 1 0 0 none 100 = .ok p ∧ c.near ⟨1 / 2, 0, 0⟩ (1 / 2) = .ok [t] ∧ 0 < t.refl ∧ 0 < t.xs := by
  have hr : ∃ p, reflection ⟨⟨1, 0, 0⟩, ⟨0, 1, 0⟩, ⟨0, 0, 1⟩, 100⟩ ⟨10, 0, 0, 0⟩ 1e-3 1 0 0 none 100 = .ok p ∧ p.tau = ⟨1, 0, 0⟩ ∧ p.F2 = 100 ∧ p.tauLength = 1 := by
    have htau : (1 : ℝ) • (⟨1, 0, 0⟩ : V3 ℝ) + (0 : ℝ) • (⟨0, 1, 0⟩ : V3 ℝ) + (0 : ℝ) • (⟨0, 0, 1⟩ : V3 ℝ) = ⟨1, 0, 0⟩ := by ext <;> simp
    have hlen : len ⟨1, 0, 0⟩ = 1 := by simp [len]
    obtain ⟨u2, u3, s, e1, -, -, e2⟩ := C324_iso (m := ⟨10, 0, 0, 0⟩) (t := 1) one_pos (u1 := ⟨1, 0, 0⟩) (by simp [V3.dot]) (by norm_num)
    unfold reflection
    simp only [htau, hlen, bind, Except.bind, divD, one_ne_zero, if_false, div_one, num, e1]
    rw [if_neg (by unfold FWHM2RMS; norm_num), if_neg (by positivity)]
    exact ⟨_, rfl, rfl, rfl, rfl⟩
  obtain ⟨p, hp, h1, h2, h3⟩ := hr
  have hg := reflection_good (by norm_num) hp
  have hl : length (⟨1 / 2, 0, 0⟩ : V3 ℝ) = 1 / 2 := by
    rw [length_eq, show V3.dot (⟨1 / 2, 0, 0⟩ : V3 ℝ) ⟨1 / 2, 0, 0⟩ = (1 / 2) ^ 2 by simp only [V3.dot]; norm_num, Real.sqrt_sq (by norm_num)]
  have hl2 : length ((⟨1 / 2, 0, 0⟩ : V3 ℝ) - p.tau) = 1 / 2 := by
    rw [h1, show (⟨1 / 2, 0, 0⟩ : V3 ℝ) - ⟨1, 0, 0⟩ = ⟨-(1 / 2), 0, 0⟩ by ext <;> simp <;> norm_num, length_eq,
      show V3.dot (⟨-(1 / 2), 0, 0⟩ : V3 ℝ) ⟨-(1 / 2), 0, 0⟩ = (1 / 2) ^ 2 by simp only [V3.dot]; norm_num, Real.sqrt_sq (by norm_num)]
  obtain ⟨t, ht⟩ := Bragg.tauOf_ok ((2 * Real.pi) ^ (5 / 2 : ℝ) / (100 * (1 / 2) * (1 / 2))) hg (ki := ⟨1 / 2, 0, 0⟩) (by rw [hl2]; norm_num)
  have hn : Crystal.near ⟨⟨0.01, 0.01, 0.01⟩, 100, 1e-3, 1, 1, -1, order, powder, [p]⟩ ⟨1 / 2, 0, 0⟩ (1 / 2) = .ok [t] := by
    unfold Crystal.near
    simp only [bind, Except.bind]
    rw [num_div (by norm_num), num_div (by norm_num)]
    dsimp only
    unfold Bragg.tauLoop
    rw [if_neg (by rw [h3]; norm_num), if_neg (by rw [hl, hl2, hg.cut, sub_self, abs_zero, h3]; unfold Bragg.alongWidth; have := le_max_left (Bragg.fwhm2rms * 1e-3 * 1) (Bragg.acrossWidth (MIN2RAD * 10) 1); have := Bragg.fwhm2rms_pos; push Not; apply mul_nonneg (by norm_num); refine le_trans ?_ (le_max_left _ _); positivity), ht]
    rfl
  obtain ⟨c, hc⟩ : ∃ c : Crystal, c = ⟨⟨0.01, 0.01, 0.01⟩, 100, 1e-3, 1, 1, -1, order, powder, [p]⟩ := ⟨_, rfl⟩
  rw [← hc] at hn
  have c1 : c.peaks = [p] := by rw [hc]
  have c2 : c.dd = 1e-3 := by rw [hc]
  have c3 : c.V0 = 100 := by rw [hc]
  have hg' : ∀ q ∈ c.peaks, Bragg.Good (MIN2RAD * 10) c.dd q := by rw [c1, c2]; intro q hq; rw [List.mem_singleton.1 hq]; exact hg
  have hpos := near_pos hg' (by rw [c1]; intro q hq; rw [List.mem_singleton.1 hq, h2]; norm_num) (by rw [c2]; norm_num) (by rw [c3]; norm_num) hn t (by simp)
  refine ⟨c, p, t, c1, by rw [hc], by rw [hc], by rw [c3]; norm_num, by rw [c2]; norm_num, by rw [c2]; exact hp, hn, hpos.1, ?_⟩
  obtain ⟨hm, -, n, α, hst⟩ := near_facts hg' hn t (by simp)
  rw [c1] at hm
  simp only [List.mem_singleton] at hm
  rw [hst.xs, hm, h2]
  have := hpos.1
  positivity

/-- example: the neutron of the cube is scattered, in either mode -/
example (powder : Bool) : ∃ (c : Crystal) (ts : List Bragg.Tau) (d : Draw) (e e' : Event ℝ), c.powder = powder ∧ c.near ⟨1 / 2, 0, 0⟩ (1 / 2) = .ok ts ∧
    (∀ t ∈ ts, 0 < t.refl ∧ 0 ≤ t.xs) ∧ 0 < Bragg.totalXs ts ∧ 0 < Bragg.totalRefl ts ∧ (∀ t ∈ ts, t.kf d.z1 d.z2 ≠ 0) ∧
    (∀ t ∈ ts, Bragg.Frame t.peak.u1 t.peak.u2 t.peak.u3) ∧ coherent (1 / 2) ts d e = .ok e' ∧ e.v ≠ 0 ∧ e'.v ≠ 0 := by
  obtain ⟨c, p, t, h1, h2, -, hV, hd, h3, h4, h5, h6⟩ := cube_near powder 0
  have hg := reflection_good (by norm_num) h3
  obtain ⟨hm, -, n, α, hst⟩ := near_facts (by rw [h1]; simpa using hg) h4 t (by simp)
  have hl : 0 < length (⟨1 / 2, 0, 0⟩ : V3 ℝ) := length_pos (fun h => by have := congrArg V3.x h; norm_num at this)
  have hk := hst.kf_pos hl 0 0
  have hk0 : t.kf 0 0 ≠ 0 := by intro h; rw [h] at hk; simp [length_eq, V3.dot] at hk
  have hpk : t.peak = p := by rw [h1] at hm; simpa using hm
  have hR : Bragg.totalRefl [t] = t.refl := by simp [Bragg.totalRefl]
  have hX : Bragg.totalXs [t] = t.xs := by simp [Bragg.totalXs]
  have hc : ∃ e', coherent (1 / 2) [t] ⟨0, 0, 0, 0, 0, 0, 0, 1 / 2, 0, 0⟩ ⟨0, ⟨1, 0, 0⟩, 0, 0, 0, 1⟩ = .ok e' := by
    have hch : choose [t] (1 / 2) = 0 := by
      unfold choose
      simp [Bragg.pickLoop, hR]
      split <;> simp_all
    unfold coherent
    rw [if_neg (by rw [hR]; linarith)]
    dsimp only
    rw [hch]
    simp only [List.getElem?_cons_zero, bind, Except.bind]
    rw [num_div (by rw [len_eq]; exact hk.ne')]
    dsimp only
    rw [num_div (by rw [hX]; exact (mul_pos h6 h5).ne')]
    exact ⟨_, rfl⟩
  obtain ⟨e', he'⟩ := hc
  have hf : ∀ s ∈ [t], Bragg.Frame s.peak.u1 s.peak.u2 s.peak.u3 := by
    intro s hs
    simp only [List.mem_singleton] at hs
    subst hs
    rw [hpk]; exact hg.frame
  have hsp := (C326_elastic_partial (by norm_num) hf he' (by rw [hR]; exact h5)).1
  refine ⟨c, [t], _, _, e', h2, h4, by simpa using ⟨h5, h6.le⟩, by rw [hX]; exact h6, by rw [hR]; exact h5, by simpa using hk0, hf, he',
    fun h => by have := congrArg V3.x h; norm_num at this, fun h => ?_⟩
  rw [h] at hsp
  unfold K2V at hsp
  simp [length_eq, V3.dot] at hsp
  norm_num at hsp

/-- example: a table in which (3 0 0) stands before (1 0 0) -/
example : ∃ (c : Crystal) (p q : Bragg.Peak), c.peaks = [p, q] ∧ 0 < c.V0 ∧ 1 - 5 * c.dd ≠ 0 ∧ 2 * (1 / 2) / (1 - 5 * c.dd) < p.tauLength ∧
    q.tauLength = 1 ∧ q.tau = ⟨1, 0, 0⟩ :=
  ⟨⟨⟨0.01, 0.01, 0.01⟩, 100, 1e-3, 1, 1, -1, 0, false, [⟨1, ⟨3, 0, 0⟩, 3, ⟨1, 0, 0⟩, ⟨0, 1, 0⟩, ⟨0, 0, 1⟩, 1, 1, 1, 1, 1⟩,
    ⟨1, ⟨1, 0, 0⟩, 1, ⟨1, 0, 0⟩, ⟨0, 1, 0⟩, ⟨0, 0, 1⟩, 1, 1, 1, 1, 1⟩]⟩, _, _, rfl, by norm_num, by norm_num, by norm_num, rfl, rfl⟩

end Verif.McCrystal
