import Verif.Lemmas.McMono
/-!
Property theorems: the monochromator of McStas.
-/

namespace Verif.McGuide
open McStas Kinem Flight Solid Homog McMon McOpt

/-- C183: the crystal that is constructed: the scattering vector from the lattice spacing if it is given, the widths from the mosaicities in
minutes of arc (full width at half maximum), the larger of the two, and the sizes from width and height if they are given -/
theorem C183_new {zmin zmax ymin ymax mosaich mosaicv r0 Q DM width height : ℝ} {m : Mono}
    (h : Mono.new zmin zmax ymin ymax mosaich mosaicv r0 Q DM width height = .ok m) :
    (DM ≠ 0 → m.Q * DM = 2 * Real.pi) ∧ (DM = 0 → m.Q = Q) ∧ m.r0 = r0 ∧ m.rmsMax = max m.rmsY m.rmsZ ∧
    m.rmsY * √(8 * Real.log 2) = mosaich / 60 * (Real.pi / 180) ∧ m.rmsZ * √(8 * Real.log 2) = mosaicv / 60 * (Real.pi / 180) ∧
    (0 < width → m.zmin = -(width / 2) ∧ m.zmax = width / 2) ∧ (width ≤ 0 → m.zmin = zmin ∧ m.zmax = zmax) ∧
    (0 < height → m.ymin = -(height / 2) ∧ m.ymax = height / 2) ∧ (height ≤ 0 → m.ymin = ymin ∧ m.ymax = ymax) := by
  have hs : √(8 * Real.log 2) ≠ 0 := by
    have := Real.log_pos (by norm_num : (1 : ℝ) < 2)
    positivity
  unfold Mono.new at h
  simp only at h
  by_cases hc : (if width > 0 then (-(width / 2), width / 2) else (zmin, zmax)).1 =
    (if width > 0 then (-(width / 2), width / 2) else (zmin, zmax)).2 ∨
    (if height > 0 then (-(height / 2), height / 2) else (ymin, ymax)).1 =
    (if height > 0 then (-(height / 2), height / 2) else (ymin, ymax)).2
  · rw [if_pos hc] at h
    cases h
  · rw [if_neg hc] at h
    simp only [Except.ok.injEq] at h
    subst h
    refine ⟨fun hD => ?_, fun hD => ?_, rfl, ?_, ?_, ?_, fun hw => ?_, fun hw => ?_, fun hh => ?_, fun hh => ?_⟩
    · simp only [hD, ne_eq, not_false_eq_true, if_true]
      field_simp
    · simp [hD]
    · simp only
      split
      · next hgt => exact (max_eq_left hgt.le).symm
      · next hgt => exact (max_eq_right (not_lt.1 hgt)).symm
    · simp only; field_simp; ring
    · simp only; field_simp; ring
    · simp [hw]
    · simp [not_lt.2 hw]
    · simp [hh]
    · simp [not_lt.2 hh]

example : ∃ m, Mono.new (-1) 1 (-1) 1 40 30 0.7 1.8734 3.355 0.1 0.2 = .ok m := by
  unfold Mono.new
  simp only
  rw [if_neg (by norm_num)]
  exact ⟨_, rfl⟩

/-- C183: a neutron that does not move towards the crystal or passes outside of it is not changed -/
theorem C183_misses (m : Mono) (fuel : Nat) (u g : ℝ) (e : Event ℝ)
    (h : ∀ s, 0 ≤ s → (flown Off e s).r.x = 0 → e.v.x ≠ 0 → ¬ ((m.zmin < (flown Off e s).r.z ∧ (flown Off e s).r.z < m.zmax) ∧
      m.ymin < (flown Off e s).r.y ∧ (flown Off e s).r.y < m.ymax)) : mono m fuel u g e = some (e, some 1) := by
  unfold mono
  split
  · next h1 =>
    have hx : (flown Off e (-e.r.x / e.v.x)).r.x = 0 := by
      rw [off_r]; simp only [V3.add_x, V3.smul_x]; rw [div_mul_cancel₀ _ h1.1]; ring
    have h2 := h _ h1.2 hx h1.1
    simp only
    rw [if_neg]
    rintro ⟨a1, a2, a3, a4⟩
    apply h2
    rw [off_r]
    simp only [V3.add_z, V3.smul_z, V3.add_y, V3.smul_y]
    exact ⟨⟨by linarith, by linarith⟩, by linarith, by linarith⟩
  · rfl

/-- C183, partial: of a neutron that meets the crystal, not exactly along the normal, at the random number `u`: if no order of reflection is
possible it is not changed; otherwise the order is the one nearest to the condition of Bragg, it is changed only if `u` is less than the
reflectivity of the mosaic crystal, and then it is scattered elastically with the scattering vector of this order.  Missing: that the trace
ends and neutrons along the normal (`C183_ends_false`, `C183_normal_false`), and the weight, for which the code takes a quadrature with 15
nodes. -/
theorem C183_partial (m : Mono) (hQ : 0 < m.Q) (hy : m.rmsY ≠ 0) (hz : m.rmsZ ≠ 0) (fuel : Nat) (u g : ℝ) (e : Event ℝ) (s : ℝ)
    (hv : e.v.x ≠ 0) (hs : 0 ≤ s) (hx : (flown Off e s).r.x = 0) (h1 : m.zmin < (flown Off e s).r.z ∧ (flown Off e s).r.z < m.zmax)
    (h2 : m.ymin < (flown Off e s).r.y ∧ (flown Off e s).r.y < m.ymax) (hyz : e.v.y ≠ 0 ∨ e.v.z ≠ 0) :
    ((∀ n, ¬ Nearest m.Q (V2K • e.v) n) → mono m fuel u g e = some (e, some 1)) ∧
    ((∃ n, Nearest m.Q (V2K • e.v) n) → ∃ n, Nearest m.Q (V2K • e.v) n ∧
      (mosaicR m.r0 m.rmsY m.rmsZ (misset m.Q (V2K • e.v) n) (V2K • e.v) ≤ u → mono m fuel u g e = some (e, some 1)) ∧
      (u < mosaicR m.r0 m.rmsY m.rmsZ (misset m.Q (V2K • e.v) n) (V2K • e.v) →
        ∀ r f, mono m fuel u g e = some (r, f) → Bragg m.Q n e r)) := by
  have hV : V2K ≠ 0 := by norm_num [V2K]
  have hk : (V2K • e.v).y ^ 2 + (V2K • e.v).z ^ 2 ≠ 0 := by
    have hV2 : 0 < V2K ^ 2 := by positivity
    have : (V2K • e.v).y ^ 2 + (V2K • e.v).z ^ 2 = V2K ^ 2 * (e.v.y ^ 2 + e.v.z ^ 2) := by
      simp only [V3.smul_y, V3.smul_z]; ring
    rw [this]
    rcases hyz with h | h
    · have := sq_pos_of_ne_zero h
      have := sq_nonneg e.v.z
      exact (mul_pos hV2 (by linarith)).ne'
    · have := sq_pos_of_ne_zero h
      have := sq_nonneg e.v.y
      exact (mul_pos hV2 (by linarith)).ne'
  have hc := mono_cases hQ fuel u g hv hs hx h1.1 h1.2 h2.1 h2.2
  rw [peak_eq m hy hz hk] at hc
  rcases monoOrder_nearest hQ (x_le (V2K • e.v)) with ⟨n, hn, ho⟩ | ⟨ho, hno⟩
  · refine ⟨fun h => absurd hn (h n), fun _ => ⟨n, hn, ?_⟩⟩
    rw [ho] at hc
    have hn0 : (n : ℤ) > 0 := by have := hn.1; omega
    rw [if_pos hn0] at hc
    simp only [Int.cast_natCast] at hc
    constructor
    · intro hu
      rw [hc]
      exact if_neg (not_lt.2 hu)
    · intro hu r f hr
      rw [hc] at hr
      rw [if_pos (show u < mosaicR m.r0 m.rmsY m.rmsZ (Real.arcsin (|(V2K • e.v).x| / length (V2K • e.v)) -
        Real.arcsin (n * m.Q / (2 * length (V2K • e.v)))) (V2K • e.v) from hu)] at hr
      simp only [Option.map_eq_some_iff, Prod.exists, Prod.mk.injEq] at hr
      obtain ⟨v, f', hr, rfl, -⟩ := hr
      have hnR : (0:ℝ) < n := by exact_mod_cast hn.1
      have hq0 : 0 < n * m.Q := mul_pos hnR hQ
      obtain ⟨q, hq1, hq2, hq3⟩ := reflect_some hk (by split <;> [exact (neg_neg_of_pos hq0).ne; exact hq0.ne']) hr
      have hl : 0 < length (V2K • e.v) := length_pos (by intro h; rw [h] at hk; simp at hk)
      refine ⟨s, q, hs, hx, rfl, hq1, ?_, ?_⟩
      · rw [length_eq, hq2, Real.sqrt_sq_eq_abs, Real.sin_arcsin]
        · rw [abs_of_nonneg (by positivity)]
          field_simp
        · have : 0 ≤ n * m.Q / (2 * length (V2K • e.v)) := by positivity
          linarith
        · rw [div_le_one (by positivity)]; exact hn.2.1
      · rw [length_eq, length_eq, hq3]
  · refine ⟨fun _ => ?_, fun ⟨n, hn⟩ => absurd hn (hno n)⟩
    rw [hc, ho]
    rfl

/-- C183: for a neutron that fulfils the condition of Bragg exactly, and in the middle of the distribution of the directions, the reflection is
that of a mirror (up to the product of the constants `K2V` and `V2K`, which is 1 up to 7e-8), from both sides of the crystal -/
theorem C183_specular (m : Mono) (hQ : 0 < m.Q) (hy : m.rmsY ≠ 0) (hz : m.rmsZ ≠ 0) (fuel : Nat) (u : ℝ) (e : Event ℝ) (s : ℝ)
    (hv : e.v.x ≠ 0) (hs : 0 ≤ s) (hx : (flown Off e s).r.x = 0) (h1 : m.zmin < (flown Off e s).r.z ∧ (flown Off e s).r.z < m.zmax)
    (h2 : m.ymin < (flown Off e s).r.y ∧ (flown Off e s).r.y < m.ymax) (hyz : e.v.y ≠ 0 ∨ e.v.z ≠ 0) (n : Nat)
    (hn : n * m.Q = 2 * |V2K * e.v.x|) (hu : u < m.r0) (r : Event ℝ) (f : Option ℝ) (hr : mono m fuel u 0 e = some (r, f)) :
    r = { flown Off e s with v := (K2V * V2K) • (⟨-e.v.x, e.v.y, e.v.z⟩ : V3 ℝ) } := by
  have hV : 0 < V2K := by norm_num [V2K]
  have hkx : (V2K • e.v).x ≠ 0 := mul_ne_zero hV.ne' hv
  have hk : (V2K • e.v).y ^ 2 + (V2K • e.v).z ^ 2 ≠ 0 := by
    have hV2 : 0 < V2K ^ 2 := by positivity
    have : (V2K • e.v).y ^ 2 + (V2K • e.v).z ^ 2 = V2K ^ 2 * (e.v.y ^ 2 + e.v.z ^ 2) := by
      simp only [V3.smul_y, V3.smul_z]; ring
    rw [this]
    rcases hyz with h | h
    · have := sq_pos_of_ne_zero h
      have := sq_nonneg e.v.z
      exact (mul_pos hV2 (by linarith)).ne'
    · have := sq_pos_of_ne_zero h
      have := sq_nonneg e.v.y
      exact (mul_pos hV2 (by linarith)).ne'
  have hl : 0 < length (V2K • e.v) := length_pos (by intro h; rw [h] at hk; simp at hk)
  have hc := mono_cases hQ fuel u 0 hv hs hx h1.1 h1.2 h2.1 h2.2
  rw [peak_eq m hy hz hk] at hc
  have hn' : (n : ℝ) = 2 * |(V2K • e.v).x| / m.Q := by rw [eq_div_iff hQ.ne']; exact hn
  have hn0 : 0 < n := by
    rcases Nat.eq_zero_or_pos n with h | h
    · exfalso
      rw [h] at hn
      have := abs_pos.2 hkx
      simp only [Nat.cast_zero, zero_mul, V3.smul_x] at hn this
      linarith
    · exact h
  have ho : monoOrder m.Q (length (V2K • e.v)) (-2 * (V2K • e.v).x / m.Q) = n := by
    rcases monoOrder_nearest hQ (x_le (V2K • e.v)) with ⟨j, hj, ho⟩ | ⟨-, hno⟩
    · rw [ho]
      have h5 := hj.2.2 n hn0 (by rw [hn]; have := x_le (V2K • e.v); simp only [V3.smul_x] at this; linarith)
      rw [← hn', sub_self, abs_zero] at h5
      have h6 := abs_eq_zero.1 (le_antisymm h5 (abs_nonneg _))
      have : (j : ℝ) = n := by linarith
      exact_mod_cast this
    · exfalso
      apply hno n
      refine ⟨hn0, by rw [hn]; have := x_le (V2K • e.v); simp only [V3.smul_x] at this; linarith, ?_⟩
      intro j _ _
      rw [← hn', sub_self, abs_zero]
      exact abs_nonneg _
  rw [ho] at hc
  simp only [Int.cast_natCast] at hc
  have hang : n * m.Q / (2 * length (V2K • e.v)) = |(V2K • e.v).x| / length (V2K • e.v) := by
    rw [hn]; simp only [V3.smul_x]; field_simp
  have hq : (if -2 * (V2K • e.v).x / m.Q < 0 then -(n * m.Q) else n * m.Q) = -2 * (V2K • e.v).x := by
    rw [hn]
    split
    · next h =>
      have : 0 < V2K * e.v.x := by
        by_contra h3
        push Not at h3
        have : 0 ≤ -2 * (V2K • e.v).x / m.Q := div_nonneg (by simp only [V3.smul_x]; linarith) hQ.le
        linarith
      rw [abs_of_pos this]; simp only [V3.smul_x]; ring
    · next h =>
      have : V2K * e.v.x ≤ 0 := by
        by_contra h3
        push Not at h3
        apply h
        exact div_neg_of_neg_of_pos (by simp only [V3.smul_x]; linarith) hQ
      rw [abs_of_nonpos this]; simp only [V3.smul_x]; ring
  rw [hang, sub_self, if_pos (by omega), hq] at hc
  have hR : mosaicR m.r0 m.rmsY m.rmsZ 0 (V2K • e.v) = m.r0 := by unfold mosaicR; simp
  rw [hR, if_pos hu] at hc
  rw [hc] at hr
  simp only [Option.map_eq_some_iff, Prod.exists, Prod.mk.injEq] at hr
  obtain ⟨v, f', hr, rfl, -⟩ := hr
  rw [reflect_specular hk hkx hr]
  congr 1
  ext
  · simp only [V3.smul_x]; ring
  · simp only [V3.smul_y]; ring
  · simp only [V3.smul_z]; ring

example : ((1 : ℕ) : ℝ) * 1.6 = 2 * |V2K * (-0.8 / V2K)| := by
  have : V2K * (-0.8 / V2K) = -0.8 := by norm_num [V2K]
  rw [this]; norm_num

/-- a crystal with the mosaic 0.03 -/
noncomputable def crystal : Mono := ⟨-1, 1, -1, 1, 0.7, 1.2, 0.03, 0.03, 0.03⟩

/-- a neutron with the wave vector (-0.8, 0, 0.6) on the crystal -/
noncomputable def offBragg : Event ℝ := ⟨⟨0, 0, 0⟩, ⟨-0.8 / V2K, 0, 0.6 / V2K⟩, 0, 0, 0, 1⟩

theorem offBragg_k : V2K • offBragg.v = ⟨-0.8, 0, 0.6⟩ := by
  ext <;> norm_num [offBragg, V2K]

theorem offBragg_len : length (⟨-0.8, 0, 0.6⟩ : V3 ℝ) = 1 := by
  rw [length_eq]; norm_num [V3.dot]

example : (flown Off offBragg 0).r.x = 0 ∧ offBragg.v.z ≠ 0 ∧ Nearest crystal.Q (V2K • offBragg.v) 1 := by
  refine ⟨by rw [off_r]; simp [offBragg], by norm_num [offBragg, V2K], ?_⟩
  rw [offBragg_k]
  refine ⟨by norm_num, by rw [offBragg_len]; norm_num [crystal], ?_⟩
  intro j hj hj2
  rw [offBragg_len] at hj2
  have : (j : ℝ) < 2 := by
    simp only [crystal] at hj2
    linarith
  have h2 : j < 2 := by exact_mod_cast this
  have : j = 1 := by omega
  rw [this]

/-- C183 is false: a neutron whose angle is several mosaic widths away from the angle of Bragg, and for which the random number is small,
never leaves the loop that looks for the width of the distribution of the directions -/
theorem C183_ends_false : ∃ u : ℝ, 0 < u ∧ u < 1 ∧ ∀ fuel g, mono crystal fuel u g offBragg = none := by
  have hx : (flown Off offBragg 0).r = ⟨0, 0, 0⟩ := by rw [off_r]; ext <;> simp [offBragg]
  have hord : monoOrder crystal.Q 1 (-2 * -0.8 / crystal.Q) = 1 := by
    have : ⌊(-2 * -0.8 / crystal.Q + 0.5 : ℝ)⌋ = 1 := by
      rw [Int.floor_eq_iff]
      constructor <;> norm_num [crystal]
    unfold monoOrder
    simp only [this]
    norm_num [crystal]
  have hpos : 0 < mosaicR crystal.r0 crystal.rmsY crystal.rmsZ (Real.arcsin (|(-0.8 : ℝ)| / 1) - Real.arcsin (1 * crystal.Q / (2 * 1)))
      ⟨-0.8, 0, 0.6⟩ := by
    unfold mosaicR
    exact mul_pos (by norm_num [crystal]) (Real.exp_pos _)
  set R := mosaicR crystal.r0 crystal.rmsY crystal.rmsZ (Real.arcsin (|(-0.8 : ℝ)| / 1) - Real.arcsin (1 * crystal.Q / (2 * 1)))
      ⟨-0.8, 0, 0.6⟩ with hR
  refine ⟨min R 1 / 2, by positivity, ?_, ?_⟩
  · have := min_le_right R 1
    linarith
  · intro fuel g
    have hlt : min R 1 / 2 < R := by
      have := min_le_left R 1
      linarith
    have hc := mono_cases (m := crystal) (by norm_num [crystal]) fuel (min R 1 / 2) g (e := offBragg) (s := 0)
      (by norm_num [offBragg, V2K]) le_rfl (by rw [hx]) (by rw [hx]; norm_num [crystal]) (by rw [hx]; norm_num [crystal])
      (by rw [hx]; norm_num [crystal]) (by rw [hx]; norm_num [crystal])
    rw [peak_eq crystal (by norm_num [crystal]) (by norm_num [crystal]) (by rw [offBragg_k]; norm_num), offBragg_k, offBragg_len] at hc
    simp only [hord, Int.cast_one] at hc
    rw [← hR] at hc
    rw [hc, if_pos one_pos, if_pos hlt]
    have hq : (if -2 * -0.8 / crystal.Q < 0 then -(1 * crystal.Q) else 1 * crystal.Q) = (1.2 : ℝ) := by
      rw [if_neg (by norm_num [crystal])]; norm_num [crystal]
    have hang : (1 : ℝ) * crystal.Q / (2 * 1) = 0.6 := by norm_num [crystal]
    rw [hq, hang]
    have hsin : Real.sin (Real.arcsin 0.6) = 0.6 := Real.sin_arcsin (by norm_num) (by norm_num)
    have hcos : Real.cos (Real.arcsin 0.6) = 0.8 := by
      rw [Real.cos_arcsin]
      rw [show (1 - 0.6 ^ 2 : ℝ) = 0.8 ^ 2 by norm_num, Real.sqrt_sq (by norm_num)]
    have hs2 : Real.sin (2 * Real.arcsin 0.6) = 0.96 := by rw [Real.sin_two_mul, hsin, hcos]; norm_num
    have hc2 : Real.cos (2 * Real.arcsin 0.6) = 0.28 := by rw [Real.cos_two_mul, hcos]; norm_num
    have hnorm : McStas.norm ((⟨-0.8, 0, 0.6⟩ : V3 ℝ).cross ⟨1.2, 0, 0⟩) = ⟨0, 1, 0⟩ := by
      have : (⟨-0.8, 0, 0.6⟩ : V3 ℝ).cross ⟨1.2, 0, 0⟩ = ⟨0, 0.72, 0⟩ := by
        ext <;> norm_num [V3.cross]
      rw [this]
      unfold McStas.norm
      have : √((0:ℝ) * 0 + 0.72 * 0.72 + 0 * 0) = 0.72 := by
        rw [show (0:ℝ) * 0 + 0.72 * 0.72 + 0 * 0 = 0.72 ^ 2 by norm_num, Real.sqrt_sq (by norm_num)]
      simp only [this]
      rw [if_pos (by norm_num)]
      ext <;> norm_num
    have hloop : ∀ fuel s, crystal.sampleWidth ((0.28 - 1 : ℝ) • (⟨-0.8, 0, 0.6⟩ : V3 ℝ))
        (((1 * 0.96 : ℝ) • (⟨0, 1, 0⟩ : V3 ℝ)).cross ((1 / 1 : ℝ) • (⟨-0.8, 0, 0.6⟩ : V3 ℝ))) ((1 * 0.96 : ℝ) • (⟨0, 1, 0⟩ : V3 ℝ)) fuel s = none := by
      intro fuel
      induction fuel with
      | zero => intro s; rfl
      | succ n ih =>
        intro s
        rw [Mono.sampleWidth, if_neg, ih]
        have h1 := Real.sin_sq_add_cos_sq (5 * s)
        have h2 := Real.neg_one_le_cos (5 * s)
        have h3 := Real.cos_le_one (5 * s)
        simp only [onCone, V3.add_x, V3.add_y, V3.add_z, V3.smul_x, V3.smul_y, V3.smul_z, V3.cross, crystal]
        generalize Real.cos (5 * s) = c at h1 h2 h3 ⊢
        generalize Real.sin (5 * s) = d at h1 ⊢
        push Not
        norm_num
        nlinarith [mul_nonneg (by linarith : 0 ≤ 1 - c) (by linarith : 0 ≤ 1 + c)]
    unfold Mono.reflect
    rw [hs2, hc2, hnorm]
    simp only [hloop]
    rfl

/-- C183 is false: neutrons along the normal of the crystal are never reflected, even if they fulfil the condition of Bragg exactly -/
theorem C183_normal_false : ∃ (m : Mono) (e : Event ℝ), m.r0 = 1 ∧ 0 < m.rmsY ∧ 0 < m.rmsZ ∧ (flown Off e 0).r = ⟨0, 0, 0⟩ ∧
    (m.zmin < 0 ∧ 0 < m.zmax) ∧ (m.ymin < 0 ∧ 0 < m.ymax) ∧ Nearest m.Q (V2K • e.v) 1 ∧ misset m.Q (V2K • e.v) 1 = 0 ∧
    ∀ fuel u g, mono m fuel u g e = some (e, some 1) := by
  have hV : V2K * (-1 / V2K) = -1 := by norm_num [V2K]
  have hk : V2K • (⟨-1 / V2K, 0, 0⟩ : V3 ℝ) = ⟨-1, 0, 0⟩ := by
    ext
    · exact hV
    · simp
    · simp
  have hl : length (⟨-1, 0, 0⟩ : V3 ℝ) = 1 := by rw [length_eq]; norm_num [V3.dot]
  have hx : (flown Off ⟨⟨0, 0, 0⟩, ⟨-1 / V2K, 0, 0⟩, 0, 0, 0, 1⟩ 0).r = ⟨0, 0, 0⟩ := by rw [off_r]; ext <;> simp
  refine ⟨⟨-1, 1, -1, 1, 1, 2, 0.01, 0.01, 0.01⟩, ⟨⟨0, 0, 0⟩, ⟨-1 / V2K, 0, 0⟩, 0, 0, 0, 1⟩, rfl, by norm_num, by norm_num, hx,
    by norm_num, by norm_num, ?_, ?_, ?_⟩
  · rw [hk]
    refine ⟨by norm_num, by rw [hl]; norm_num, ?_⟩
    intro j _ _
    norm_num
  · rw [hk]
    unfold misset
    rw [hl]; norm_num
  · intro fuel u g
    have hc := mono_cases (m := ⟨-1, 1, -1, 1, 1, 2, 0.01, 0.01, 0.01⟩) (by norm_num) fuel u g
      (e := ⟨⟨0, 0, 0⟩, ⟨-1 / V2K, 0, 0⟩, 0, 0, 0, 1⟩) (s := 0) (by norm_num [V2K]) le_rfl (by rw [hx]) (by rw [hx]; norm_num)
      (by rw [hx]; norm_num) (by rw [hx]; norm_num) (by rw [hx]; norm_num)
    rw [hk, peak_none _ (by norm_num)] at hc
    rw [hc]
    split <;> rfl

end Verif.McGuide
