import Verif.Spec.McCurved
import Verif.Lemmas.McMono
import Verif.Props.McStas
/-!
Lemmas for the curved monochromator of McStas.
-/

namespace Verif.McCurved
open McStas Kinem Flight Solid Homog McMon McOpt McGuide
open Classical

theorem rotApply_inSlab (h v : ℝ) (w : V3 ℝ) : rotApply (rotSet 0 h v) w = inSlab h v w := by
  unfold rotApply rotSet inSlab normal upward along
  ext <;> simp only [V3.dot, Real.cos_zero, Real.sin_zero] <;> ring

theorem back (h v : ℝ) (w : V3 ℝ) : rotApply (rotTranspose (rotSet 0 h v)) (inSlab h v w) = w := by
  rw [← rotApply_inSlab]
  exact (C161_matrix 0 h v M3.one w).2.2.2.1

theorem forth (h v : ℝ) (w : V3 ℝ) : inSlab h v (rotApply (rotTranspose (rotSet 0 h v)) w) = w := by
  rw [← rotApply_inSlab]
  exact (C161_matrix 0 h v M3.one w).2.2.2.2.1

theorem inSlab_add (h v : ℝ) (w w' : V3 ℝ) : inSlab h v (w + w') = inSlab h v w + inSlab h v w' := by
  unfold inSlab
  ext <;> simp only [V3.dot, V3.add_x, V3.add_y, V3.add_z] <;> ring

theorem inSlab_smul (h v c : ℝ) (w : V3 ℝ) : inSlab h v (c • w) = c • inSlab h v w := by
  unfold inSlab
  ext <;> simp only [V3.dot, V3.smul_x, V3.smul_y, V3.smul_z] <;> ring

theorem inSlab_dot (h v : ℝ) (w : V3 ℝ) : (inSlab h v w).dot (inSlab h v w) = w.dot w := by
  have h1 := Real.cos_sq_add_sin_sq h
  have h2 := Real.cos_sq_add_sin_sq v
  unfold inSlab normal upward along
  simp only [V3.dot]
  generalize Real.cos h = a at *
  generalize Real.sin h = b at *
  generalize Real.cos v = c at *
  generalize Real.sin v = d at *
  have ha : a ^ 2 = 1 - b ^ 2 := by linarith
  have hc : c ^ 2 = 1 - d ^ 2 := by linarith
  ring_nf
  simp only [ha, hc]
  ring

theorem inSlab_length (h v : ℝ) (w : V3 ℝ) : length (inSlab h v w) = length w := by
  rw [length_eq, length_eq, inSlab_dot]

theorem reflectivity_eq (c : Curved) (k : ℝ) : c.reflectivity k = capped (c.r0 * tabled c.rTable k) := by
  have h1 : c.rTable.elim c.r0 (fun f => c.r0 * f k) = c.r0 * tabled c.rTable k := by
    unfold tabled
    rcases c.rTable with _ | f <;> simp
  unfold Curved.reflectivity capped
  simp only [h1]
  by_cases h : 1 < c.r0 * tabled c.rTable k
  · simp only [gt_iff_lt, h, if_true]; norm_num
  · simp only [gt_iff_lt, h, if_false]
    split
    · next h2 => rw [max_eq_right h2.le]
    · next h2 => rw [max_eq_left (not_lt.1 h2)]

theorem transmission_eq (c : Curved) (k : ℝ) :
    c.transmission k = if 1 < c.t0 * tabled c.tTable k then 0.999 else c.t0 * tabled c.tTable k := by
  have h1 : c.tTable.elim c.t0 (fun f => c.t0 * f k) = c.t0 * tabled c.tTable k := by
    unfold tabled
    rcases c.tTable with _ | f <;> simp
  unfold Curved.transmission
  simp only [h1, gt_iff_lt]

theorem capped_nonneg (x : ℝ) : 0 ≤ capped x := by
  unfold capped; split
  · norm_num
  · exact le_max_right _ _

/-- the choice to reflect or not -/
theorem choose_cases {c : Curved} (hQ : 0 < c.Q) (hy : c.rmsY ≠ 0) (hz : c.rmsZ ≠ 0) (u g : ℝ) {v : V3 ℝ} (hyz : v.y ≠ 0 ∨ v.z ≠ 0) :
    ((∀ n, ¬ Nearest c.Q (V2K • v) n) → c.choose u g v = some none) ∧
    ((∃ n, Nearest c.Q (V2K • v) n) → ∃ n, Nearest c.Q (V2K • v) n ∧
      (mosaicR (capped (c.r0 * tabled c.rTable (length (V2K • v)))) c.rmsY c.rmsZ (misset c.Q (V2K • v) n) (V2K • v) < u →
        c.choose u g v = some none) ∧
      (u ≤ mosaicR (capped (c.r0 * tabled c.rTable (length (V2K • v)))) c.rmsY c.rmsZ (misset c.Q (V2K • v) n) (V2K • v) →
        ∃ v' f q, c.choose u g v = some (some (v', f)) ∧ v' = K2V • (V2K • v + q) ∧ length q = n * c.Q ∧
          length (V2K • v + q) = length (V2K • v))) := by
  have hk : (V2K • v).y ^ 2 + (V2K • v).z ^ 2 ≠ 0 := by
    have hV : 0 < V2K ^ 2 := by norm_num [V2K]
    have : (V2K • v).y ^ 2 + (V2K • v).z ^ 2 = V2K ^ 2 * (v.y ^ 2 + v.z ^ 2) := by
      simp only [V3.smul_y, V3.smul_z]; ring
    rw [this]
    have h3 := sq_nonneg v.z
    have h4 := sq_nonneg v.y
    rcases hyz with h | h
    · have := sq_pos_of_ne_zero h
      exact (mul_pos hV (by linarith)).ne'
    · have := sq_pos_of_ne_zero h
      exact (mul_pos hV (by linarith)).ne'
  set ki := V2K • v with hki
  have h0 : ki ≠ 0 := by intro h; rw [h] at hk; simp at hk
  have hl := length_pos h0
  have hlen : √(ki.x * ki.x + ki.y * ki.y + ki.z * ki.z) = length ki := rfl
  have habs : |((1 / length ki) • ki).x| = |ki.x| / length ki := by
    rw [V3.smul_x, abs_mul, abs_of_pos (by positivity)]; ring
  have hunf : c.choose u g v = if monoOrder c.Q (length ki) (-2 * ki.x / c.Q) > 0 then
      (Powder.asinD (monoOrder c.Q (length ki) (-2 * ki.x / c.Q) * c.Q / (2 * length ki))).bind fun theta =>
        ((c.flat |c.reflectivity (length ki)|).peak ki.y ki.z (Real.arcsin (|ki.x| / length ki) - theta)).elim (some none) fun pr =>
          if u ≤ pr then some (some (c.reflect g (length ki) (if -2 * ki.x / c.Q < 0 then
            -(monoOrder c.Q (length ki) (-2 * ki.x / c.Q) * c.Q) else monoOrder c.Q (length ki) (-2 * ki.x / c.Q) * c.Q) theta ki
            ((1 / length ki) • ki))) else some none
      else some none := by
    unfold Curved.choose
    simp only [divD_ok hQ.ne', Option.bind_eq_bind, Option.bind_some, ← hki, hlen, habs]
    split
    · congr 1
      funext θ
      cases (c.flat |c.reflectivity (length ki)|).peak ki.y ki.z (Real.arcsin (|ki.x| / length ki) - θ) <;> rfl
    · rfl
  rcases monoOrder_nearest hQ (x_le ki) with ⟨n, hn, ho⟩ | ⟨ho, hno⟩
  · refine ⟨fun h => absurd hn (h n), fun _ => ⟨n, hn, ?_⟩⟩
    rw [ho] at hunf
    have hn0 : (n : ℤ) > 0 := by have := hn.1; omega
    rw [if_pos hn0] at hunf
    simp only [Int.cast_natCast] at hunf
    have hnR : (0:ℝ) < n := by exact_mod_cast hn.1
    have hq0 : 0 < n * c.Q := mul_pos hnR hQ
    have hq1 : n * c.Q / (2 * length ki) ≤ 1 := by rw [div_le_one (by positivity)]; exact hn.2.1
    have hq2 : 0 ≤ n * c.Q / (2 * length ki) := by positivity
    have has : Powder.asinD (n * c.Q / (2 * length ki)) = some (Real.arcsin (n * c.Q / (2 * length ki))) := by
      unfold Powder.asinD
      rw [if_neg]
      rintro (h | h) <;> linarith
    rw [has, Option.bind_some, peak_eq (c.flat |c.reflectivity (length ki)|) hy hz hk, Option.elim_some] at hunf
    have hR : mosaicR (c.flat |c.reflectivity (length ki)|).r0 (c.flat |c.reflectivity (length ki)|).rmsY
        (c.flat |c.reflectivity (length ki)|).rmsZ (Real.arcsin (|ki.x| / length ki) - Real.arcsin (n * c.Q / (2 * length ki))) ki =
        mosaicR (capped (c.r0 * tabled c.rTable (length ki))) c.rmsY c.rmsZ (misset c.Q ki n) ki := by
      rw [reflectivity_eq, abs_of_nonneg (capped_nonneg _)]
      rfl
    rw [hR] at hunf
    constructor
    · intro hu
      rw [hunf, if_neg (not_le.2 hu)]
    · intro hu
      rw [if_pos hu] at hunf
      set q0x : ℝ := if -2 * ki.x / c.Q < 0 then -(n * c.Q) else n * c.Q with hq0x
      have hq : q0x ≠ 0 := by rw [hq0x]; split <;> [exact (neg_neg_of_pos hq0).ne; exact hq0.ne']
      set θ := Real.arcsin (n * c.Q / (2 * length ki)) with hθ
      have hll : ki.dot ki = length ki ^ 2 := by rw [sq, length_mul_self]
      have hcr : ki.cross ⟨q0x, 0, 0⟩ ≠ 0 := by
        intro hc
        have h1 := congrArg V3.y hc
        have h2 := congrArg V3.z hc
        simp only [V3.cross, V3.zero_y, V3.zero_z, mul_zero, sub_zero, zero_sub, neg_eq_zero, mul_eq_zero, hq, or_false] at h1 h2
        apply hk
        rw [h1, h2]; ring
      set b := (length ki * Real.sin (2 * θ)) • McStas.norm (ki.cross ⟨q0x, 0, 0⟩) with hb
      have h1 : b.dot ki = 0 := by
        have h2 := norm_dot (ki.cross ⟨q0x, 0, 0⟩) ki (by simp only [V3.dot, V3.cross]; ring)
        have : b.dot ki = length ki * Real.sin (2 * θ) * (McStas.norm (ki.cross ⟨q0x, 0, 0⟩)).dot ki := by
          simp only [hb, V3.dot, V3.smul_x, V3.smul_y, V3.smul_z]; ring
        rw [this, h2, mul_zero]
      have h2 : b.dot b = (length ki * Real.sin (2 * θ)) ^ 2 := by
        have h3 := norm_unit hcr
        have : b.dot b = (length ki * Real.sin (2 * θ)) ^ 2 *
            (McStas.norm (ki.cross ⟨q0x, 0, 0⟩)).dot (McStas.norm (ki.cross ⟨q0x, 0, 0⟩)) := by
          simp only [hb, V3.dot, V3.smul_x, V3.smul_y, V3.smul_z]; ring
        rw [this, h3, mul_one]
      set φ := (c.narrow ((Real.cos (2 * θ) - 1) • ki) (b.cross ((1 / length ki) • ki)) b 100 (c.rmsMax / Real.cos θ)).1 * g with hφ
      obtain ⟨c1, c2⟩ := cone hl hll h1 h2 φ
      refine ⟨(c.reflect g (length ki) q0x θ ki ((1 / length ki) • ki)).1, (c.reflect g (length ki) q0x θ ki ((1 / length ki) • ki)).2, _,
        hunf, rfl, ?_, ?_⟩
      · refine (length_eq _).trans ?_
        refine (congrArg Real.sqrt c1).trans ?_
        rw [Real.sqrt_sq_eq_abs, hθ, Real.sin_arcsin (by linarith) hq1, abs_of_nonneg (by positivity)]
        field_simp
      · refine (length_eq _).trans ?_
        refine (congrArg Real.sqrt c2).trans ?_
        rw [← hll, ← length_eq]
  · refine ⟨fun _ => ?_, fun ⟨n, hn⟩ => absurd hn (hno n)⟩
    rw [hunf, ho]
    rfl

/-- a coordinate in a row of `n` cells of the width `w + gap` less the last gap -/
theorem cell_index {n : ℕ} {w gap x : ℝ} (hw : 0 < w) (hg : 0 ≤ gap) (h1 : -((n * (w + gap) - gap) / 2) < x)
    (h2 : x < (n * (w + gap) - gap) / 2) :
    ∃ j : ℕ, 1 ≤ j ∧ j ≤ n ∧ ⌈(x - -((n * (w + gap) - gap) / 2)) / (w + gap)⌉ = j ∧
      (j - (n + 1) / 2) * (w + gap) - w / 2 < x ∧ x ≤ (j - (n + 1) / 2) * (w + gap) + w / 2 + gap := by
  have hs : 0 < w + gap := by linarith
  set y := (x - -((n * (w + gap) - gap) / 2)) / (w + gap) with hy
  have hyx : y * (w + gap) = x + (n * (w + gap) - gap) / 2 := by rw [hy, div_mul_cancel₀ _ hs.ne']; ring
  have hy0 : 0 < y := by rw [hy]; apply div_pos _ hs; linarith
  have hyn : y ≤ n := by
    by_contra h
    push Not at h
    have := mul_lt_mul_of_pos_right h hs
    linarith
  have hc1 : 0 < ⌈y⌉ := Int.ceil_pos.2 hy0
  have hc2 : ⌈y⌉ ≤ n := Int.ceil_le.2 (by exact_mod_cast hyn)
  have hj : ((⌈y⌉.toNat : ℕ) : ℤ) = ⌈y⌉ := Int.toNat_of_nonneg hc1.le
  have hjr : ((⌈y⌉.toNat : ℕ) : ℝ) = (⌈y⌉ : ℝ) := by exact_mod_cast congrArg (Int.cast : ℤ → ℝ) hj
  have h3 := Int.ceil_lt_add_one y
  have h4 := Int.le_ceil y
  refine ⟨⌈y⌉.toNat, by omega, by omega, hj.symm, ?_, ?_⟩
  · rw [hjr]
    have := mul_lt_mul_of_pos_right h3 hs
    linarith
  · rw [hjr]
    have := mul_le_mul_of_nonneg_right h4 hs.le
    linarith

theorem center_eq {c : Curved} {nh nv : ℕ} (h1 : c.NH = nh) (h2 : c.NV = nv) (col row : ℕ) :
    c.center col row = place c nh nv col row := by
  unfold Curved.center place Curved.ymax Curved.zmax
  rw [h1, h2]
  ext
  · rfl
  · simp only [Int.cast_natCast]; ring
  · simp only [Int.cast_natCast]; ring

theorem asinD_some {x θ : ℝ} (h : Powder.asinD x = some θ) : Real.sin θ = x ∧ |θ| ≤ Real.pi / 2 := by
  unfold Powder.asinD at h
  split at h
  · cases h
  · next hx =>
    cases h
    push Not at hx
    exact ⟨Real.sin_arcsin (by linarith [hx.1]) (by linarith [hx.2]), abs_le.2 ⟨Real.neg_pi_div_two_le_arcsin _, Real.arcsin_le_pi_div_two _⟩⟩

theorem tilt_focused {c : Curved} {nh nv : ℕ} (h1 : c.NH = nh) (h2 : c.NV = nv) {col row : ℕ} {h v : ℝ} (ht : c.tilt col row = some (h, v)) :
    Focused c (place c nh nv col row) h v := by
  unfold Curved.tilt at ht
  simp only [Option.bind_eq_bind, Option.bind_eq_some_iff, Option.some.injEq, Prod.mk.injEq] at ht
  obtain ⟨h', hh, v', hv, rfl, rfl⟩ := ht
  unfold Curved.tiltH at hh
  unfold Curved.tiltV at hv
  rw [h1] at hh
  rw [h2] at hv
  refine ⟨?_, ?_⟩
  · by_cases hR : c.RH = 0
    · rw [if_neg (by simpa using hR)] at hh
      cases hh
      refine ⟨by rw [abs_zero]; positivity, by rw [if_pos hR]⟩
    · rw [if_pos hR] at hh
      obtain ⟨a, b⟩ := asinD_some hh
      refine ⟨b, ?_⟩
      rw [if_neg hR, a]
      simp only [place, Int.cast_natCast]
      field_simp
  · by_cases hR : c.RV = 0
    · rw [if_neg (by simpa using hR)] at hv
      cases hv
      refine ⟨by rw [abs_zero]; positivity, by rw [if_pos hR]⟩
    · rw [if_pos hR] at hv
      simp only [Option.map_eq_some_iff] at hv
      obtain ⟨a, ha, rfl⟩ := hv
      obtain ⟨a, b⟩ := asinD_some ha
      refine ⟨by rw [abs_neg]; exact b, ?_⟩
      rw [if_neg hR, Real.sin_neg, a]
      simp only [place, Int.cast_natCast]
      field_simp
      ring

/-- the angles are those of the slab if there are such angles -/
theorem tilt_some {c : Curved} {nh nv : ℕ} (h1 : c.NH = nh) (h2 : c.NV = nv) {col row : ℕ} {h v : ℝ}
    (hf : Focused c (place c nh nv col row) h v) : c.tilt col row = some (h, v) := by
  obtain ⟨⟨ha, hb⟩, hc, hd⟩ := hf
  have key : ∀ x θ : ℝ, |θ| ≤ Real.pi / 2 → x = Real.sin θ → Powder.asinD x = some θ := by
    intro x θ h1 h2
    unfold Powder.asinD
    rw [if_neg, h2, Real.arcsin_sin (abs_le.1 h1).1 (abs_le.1 h1).2]
    rw [h2]
    rintro (h | h)
    · linarith [Real.neg_one_le_sin θ]
    · linarith [Real.sin_le_one θ]
  unfold Curved.tilt
  have e1 : c.tiltH col = some h := by
    unfold Curved.tiltH
    by_cases hR : c.RH = 0
    · rw [if_neg (by simpa using hR)]
      rw [if_pos hR] at hb
      rw [hb]
    · rw [if_pos hR]
      rw [if_neg hR] at hb
      apply key _ _ ha
      rw [h1]
      simp only [place] at hb
      rw [Int.cast_natCast, ← hb]
      field_simp
  have e2 : c.tiltV row = some v := by
    unfold Curved.tiltV
    by_cases hR : c.RV = 0
    · rw [if_neg (by simpa using hR)]
      rw [if_pos hR] at hd
      rw [hd]
    · rw [if_pos hR]
      rw [if_neg hR] at hd
      rw [key _ (-v) (by rw [abs_neg]; exact hc)]
      · simp
      · rw [h2, Int.cast_natCast, Real.sin_neg]
        simp only [place] at hd
        field_simp
        linarith
  rw [e1]
  simp only [Option.bind_eq_bind, Option.bind_some]
  rw [e2]
  rfl

/-- the way to the slab: cell, angles, flight and what follows -/
theorem trace_eq {c : Curved} (hr : c.r0 ≠ 0) (u g : ℝ) {e : Event ℝ} {s : ℝ} (hx : e.v.x ≠ 0)
    (hs : 0 ≤ s) (h0 : (flown Off e s).r.x = 0) (hz : |(flown Off e s).r.z| < c.zmax) (hy : |(flown Off e s).r.y| < c.ymax) :
    c.trace Off u g e = (c.tilt (c.cell (flown Off e s).r.y (flown Off e s).r.z).1 (c.cell (flown Off e s).r.y (flown Off e s).r.z).2).bind fun hv =>
      let T := rotSet 0 hv.1 hv.2
      let a := c.center (c.cell (flown Off e s).r.y (flown Off e s).r.z).1 (c.cell (flown Off e s).r.y (flown Off e s).r.z).2
      let e2 := propX0 Off (toSlab T a e)
      if |e2.r.z| ≤ c.W / 2 ∧ |e2.r.y| ≤ c.H / 2 then
        (c.slab u g e2).bind fun x => some (if x.1 then x.2.1 else fromSlab T a x.2.1, x.2.2)
      else some (fromSlab T a e2, some 1) := by
  have hs' : s = -e.r.x / e.v.x := by
    rw [off_r] at h0; simp only [V3.add_x, V3.smul_x] at h0
    rw [eq_div_iff hx]; linarith
  have hp : propDt Off (-e.r.x / e.v.x) e = flown Off e s := by
    unfold propDt
    rw [← hs', if_neg (by norm_num; linarith), if_neg (by simp [Off])]
    exact propDtFree_eq rfl _ _
  unfold Curved.trace
  rw [if_pos ⟨hx, hs' ▸ hs, hr⟩]
  simp only [hp]
  rw [if_pos ⟨(abs_lt.1 hz).1, (abs_lt.1 hz).2, (abs_lt.1 hy).1, (abs_lt.1 hy).2⟩]
  rfl

/-- the flight to the plane of a slab -/
theorem prop_slab {h v : ℝ} {a : V3 ℝ} {e : Event ℝ} (hn : e.v.dot (normal h v) ≠ 0) {τ : ℝ}
    (hτ : ((flown Off e τ).r - a).dot (normal h v) = 0) :
    propX0 Off (toSlab (rotSet 0 h v) a e) = { flown Off e τ with r := inSlab h v ((flown Off e τ).r - a), v := inSlab h v e.v } := by
  have hx : (toSlab (rotSet 0 h v) a e).v.x = e.v.dot (normal h v) := by
    unfold toSlab; simp only [rotApply_inSlab]; rfl
  have hrx : (toSlab (rotSet 0 h v) a e).r.x = (e.r - a).dot (normal h v) := by
    unfold toSlab; simp only [rotApply_inSlab]; rfl
  have hsub : (flown Off e τ).r - a = (e.r - a) + τ • e.v := by
    rw [off_r]
    ext <;> simp only [V3.sub_x, V3.sub_y, V3.sub_z, V3.add_x, V3.add_y, V3.add_z, V3.smul_x, V3.smul_y, V3.smul_z] <;> ring
  have hdt : -(toSlab (rotSet 0 h v) a e).r.x / (toSlab (rotSet 0 h v) a e).v.x = τ := by
    rw [hx, hrx, div_eq_iff hn]
    rw [hsub] at hτ
    simp only [V3.dot, V3.add_x, V3.add_y, V3.add_z, V3.smul_x, V3.smul_y, V3.smul_z] at hτ ⊢
    linarith
  unfold propX0
  rw [if_neg (by simp [Off])]
  unfold propX0Free
  rw [if_neg (by rw [hx]; exact hn), hdt, propDtFree_eq (G := Off) rfl, hsub, inSlab_add, inSlab_smul]
  have e1 : (toSlab (rotSet 0 h v) a e).r = inSlab h v (e.r - a) := by unfold toSlab; simp only [rotApply_inSlab]
  have e2 : (toSlab (rotSet 0 h v) a e).v = inSlab h v e.v := by unfold toSlab; simp only [rotApply_inSlab]
  apply Event.ext
  · rw [off_r, e1, e2]
  · rw [off_v, e2]
  all_goals rfl

theorem back_slab (h v : ℝ) (a : V3 ℝ) (e : Event ℝ) (τ : ℝ) (w : V3 ℝ) :
    fromSlab (rotSet 0 h v) a { flown Off e τ with r := inSlab h v ((flown Off e τ).r - a), v := w } =
      { flown Off e τ with v := rotApply (rotTranspose (rotSet 0 h v)) w } := by
  unfold fromSlab
  simp only [back]
  congr 1
  ext <;> simp

/-- in the middle of the distribution of the directions and at the angle of Bragg the reflection is specular -/
theorem reflect_specular (c : Curved) {ki : V3 ℝ} (hk : ki.y ^ 2 + ki.z ^ 2 ≠ 0) (hx : ki.x ≠ 0) :
    (c.reflect 0 (length ki) (-2 * ki.x) (Real.arcsin (|ki.x| / length ki)) ki ((1 / length ki) • ki)).1 =
      K2V • (⟨-ki.x, ki.y, ki.z⟩ : V3 ℝ) := by
  have h0 : ki ≠ 0 := by rintro rfl; simp at hk
  have hl := length_pos h0
  have hll : ki.x ^ 2 + ki.y ^ 2 + ki.z ^ 2 = length ki ^ 2 := by rw [sq (length ki), length_mul_self]; simp only [V3.dot]; ring
  set k := length ki with hkdef
  have hρ : 0 < ki.y ^ 2 + ki.z ^ 2 := lt_of_le_of_ne (by positivity) (Ne.symm hk)
  set ρ := √(ki.y ^ 2 + ki.z ^ 2) with hρd
  have hρ2 : ρ ^ 2 = ki.y ^ 2 + ki.z ^ 2 := Real.sq_sqrt hρ.le
  have hρ0 : 0 < ρ := Real.sqrt_pos.2 hρ
  have hxa : 0 < |ki.x| := abs_pos.2 hx
  have hx2 : |ki.x| ^ 2 = ki.x ^ 2 := sq_abs _
  have hsin : Real.sin (Real.arcsin (|ki.x| / k)) = |ki.x| / k := by
    apply Real.sin_arcsin
    · have : 0 ≤ |ki.x| / k := by positivity
      linarith
    · rw [div_le_one hl]; exact x_le ki
  have hcos : Real.cos (Real.arcsin (|ki.x| / k)) = ρ / k := by
    rw [Real.cos_arcsin]
    have : 1 - (|ki.x| / k) ^ 2 = (ρ / k) ^ 2 := by
      rw [div_pow, div_pow, hx2, hρ2]; field_simp; linarith
    rw [this, Real.sqrt_sq (by positivity)]
  have hs2 : Real.sin (2 * Real.arcsin (|ki.x| / k)) = 2 * |ki.x| * ρ / k ^ 2 := by rw [Real.sin_two_mul, hsin, hcos]; field_simp
  have hc2 : Real.cos (2 * Real.arcsin (|ki.x| / k)) - 1 = -2 * ki.x ^ 2 / k ^ 2 := by
    rw [Real.cos_two_mul', hsin, hcos, div_pow, div_pow, hx2, hρ2]; field_simp; linarith
  have hc : ki.cross ⟨-2 * ki.x, 0, 0⟩ ≠ 0 := by
    intro hc
    have h1 := congrArg V3.y hc
    have h2 := congrArg V3.z hc
    simp only [V3.cross, V3.zero_y, V3.zero_z, mul_zero, sub_zero, zero_sub, neg_eq_zero, mul_eq_zero, hx, or_false] at h1 h2
    apply hk
    rcases h1 with h1 | h1 <;> rcases h2 with h2 | h2 <;> first | (norm_num at h1; done) | (norm_num at h2; done) | (rw [h1, h2]; ring)
  have hlen : length (ki.cross ⟨-2 * ki.x, 0, 0⟩) = 2 * |ki.x| * ρ := by
    rw [length_eq]
    have : (ki.cross ⟨-2 * ki.x, 0, 0⟩).dot (ki.cross ⟨-2 * ki.x, 0, 0⟩) = (2 * |ki.x| * ρ) ^ 2 := by
      rw [mul_pow, mul_pow, hx2, hρ2]; simp only [V3.dot, V3.cross]; ring
    rw [this, Real.sqrt_sq (by positivity)]
  have hb : (k * Real.sin (2 * Real.arcsin (|ki.x| / k))) • McStas.norm (ki.cross ⟨-2 * ki.x, 0, 0⟩) =
      (2 * ki.x / k) • (⟨0, -ki.z, ki.y⟩ : V3 ℝ) := by
    rw [McStas.norm_eq hc, hlen, hs2]
    ext
    · simp [V3.cross]
    · simp only [V3.smul_y, V3.cross]; field_simp; ring
    · simp only [V3.smul_z, V3.cross]; field_simp; ring
  unfold Curved.reflect
  simp only
  rw [hb, hc2]
  congr 1
  simp only [onCone, mul_zero, Real.cos_zero, Real.sin_zero]
  have hk2 : k ^ 2 ≠ 0 := by positivity
  ext
  · simp only [V3.add_x, V3.smul_x, V3.cross, V3.smul_y, V3.smul_z]; field_simp; linear_combination (-2) * hll
  · simp only [V3.add_y, V3.smul_x, V3.cross, V3.smul_y, V3.smul_z]; field_simp; ring
  · simp only [V3.add_z, V3.smul_x, V3.cross, V3.smul_y, V3.smul_z]; field_simp; ring

/-- the cell from its limits -/
theorem cell_of {n j : ℕ} {w gap x : ℝ} (hw : 0 < w) (hg : 0 ≤ gap) (h1 : (j - (n + 1) / 2) * (w + gap) - w / 2 < x)
    (h2 : x ≤ (j - (n + 1) / 2) * (w + gap) + w / 2 + gap) :
    ⌈(x - -((n * (w + gap) - gap) / 2)) / (w + gap)⌉ = j := by
  have hs : 0 < w + gap := by linarith
  rw [Int.ceil_eq_iff, lt_div_iff₀ hs, div_le_iff₀ hs]
  push_cast
  constructor <;> linarith

/-- the choice for a neutron that fulfils the condition of Bragg exactly -/
theorem choose_specular {c : Curved} (hQ : 0 < c.Q) (hy : c.rmsY ≠ 0) (hz : c.rmsZ ≠ 0) {u : ℝ} {v : V3 ℝ} (hx : v.x ≠ 0)
    (hyz : v.y ≠ 0 ∨ v.z ≠ 0) (n : ℕ) (hn : n * c.Q = 2 * |V2K * v.x|) (hu : u ≤ capped (c.r0 * tabled c.rTable (length (V2K • v)))) :
    ∃ f, c.choose u 0 v = some (some ((K2V * V2K) • ⟨-v.x, v.y, v.z⟩, f)) := by
  have hV : 0 < V2K := by norm_num [V2K]
  have hk : (V2K • v).y ^ 2 + (V2K • v).z ^ 2 ≠ 0 := by
    have hV : 0 < V2K ^ 2 := by positivity
    have : (V2K • v).y ^ 2 + (V2K • v).z ^ 2 = V2K ^ 2 * (v.y ^ 2 + v.z ^ 2) := by
      simp only [V3.smul_y, V3.smul_z]; ring
    rw [this]
    have h3 := sq_nonneg v.z
    have h4 := sq_nonneg v.y
    rcases hyz with h | h
    · have := sq_pos_of_ne_zero h
      exact (mul_pos hV (by linarith)).ne'
    · have := sq_pos_of_ne_zero h
      exact (mul_pos hV (by linarith)).ne'
  have hkx : (V2K • v).x ≠ 0 := mul_ne_zero hV.ne' hx
  have hn1 : n * c.Q = 2 * |(V2K • v).x| := hn
  have hfin : (K2V * V2K) • (⟨-v.x, v.y, v.z⟩ : V3 ℝ) = K2V • (⟨-(V2K • v).x, (V2K • v).y, (V2K • v).z⟩ : V3 ℝ) := by
    ext <;> simp only [V3.smul_x, V3.smul_y, V3.smul_z] <;> ring
  rw [hfin]
  unfold Curved.choose
  set ki := V2K • v with hki
  have h0 : ki ≠ 0 := by intro h; rw [h] at hk; simp at hk
  have hl := length_pos h0
  have hlen : √(ki.x * ki.x + ki.y * ki.y + ki.z * ki.z) = length ki := rfl
  have habs : |((1 / length ki) • ki).x| = |ki.x| / length ki := by
    rw [V3.smul_x, abs_mul, abs_of_pos (by positivity)]; ring
  have hn' : (n : ℝ) = 2 * |ki.x| / c.Q := by rw [eq_div_iff hQ.ne']; exact hn1
  have hn0 : 0 < n := by
    rcases Nat.eq_zero_or_pos n with h | h
    · exfalso
      rw [h] at hn1
      have := abs_pos.2 hkx
      simp only [Nat.cast_zero, zero_mul] at hn1
      linarith
    · exact h
  have ho : monoOrder c.Q (length ki) (-2 * ki.x / c.Q) = n := by
    rcases monoOrder_nearest hQ (x_le ki) with ⟨j, hj, ho⟩ | ⟨-, hno⟩
    · rw [ho]
      have h5 := hj.2.2 n hn0 (by rw [hn1]; have := x_le ki; linarith)
      rw [← hn', sub_self, abs_zero] at h5
      have h6 := abs_eq_zero.1 (le_antisymm h5 (abs_nonneg _))
      have : (j : ℝ) = n := by linarith
      exact_mod_cast this
    · exfalso
      apply hno n
      refine ⟨hn0, by rw [hn1]; have := x_le ki; linarith, ?_⟩
      intro j _ _
      rw [← hn', sub_self, abs_zero]
      exact abs_nonneg _
  have hang : n * c.Q / (2 * length ki) = |ki.x| / length ki := by rw [hn1]; field_simp
  have has : Powder.asinD (|ki.x| / length ki) = some (Real.arcsin (|ki.x| / length ki)) := by
    have h1 : |ki.x| / length ki ≤ 1 := by rw [div_le_one hl]; exact x_le ki
    have h2 : 0 ≤ |ki.x| / length ki := by positivity
    unfold Powder.asinD
    rw [if_neg]
    rintro (h | h) <;> linarith
  have hq : (if -2 * ki.x / c.Q < 0 then -(2 * |ki.x|) else 2 * |ki.x|) = -2 * ki.x := by
    split
    · next h =>
      have : 0 < ki.x := by
        by_contra h3
        push Not at h3
        have : 0 ≤ -2 * ki.x / c.Q := div_nonneg (by linarith) hQ.le
        linarith
      rw [abs_of_pos this]; ring
    · next h =>
      have : ki.x ≤ 0 := by
        by_contra h3
        push Not at h3
        apply h
        exact div_neg_of_neg_of_pos (by linarith) hQ
      rw [abs_of_nonpos this]; ring
  have hpk : (c.flat |c.reflectivity (length ki)|).peak ki.y ki.z 0 = some (capped (c.r0 * tabled c.rTable (length ki))) := by
    rw [peak_eq (c.flat |c.reflectivity (length ki)|) hy hz hk, reflectivity_eq, abs_of_nonneg (capped_nonneg _)]
    unfold mosaicR Curved.flat
    simp
  simp only [divD_ok hQ.ne', Option.bind_eq_bind, Option.bind_some, hlen, habs, ho, Int.cast_natCast, hang, has, sub_self, hpk]
  rw [if_pos (by exact_mod_cast hn0), if_pos hu]
  rw [hn1, hq]
  refine ⟨(c.reflect 0 (length ki) (-2 * ki.x) (Real.arcsin (|ki.x| / length ki)) ki ((1 / length ki) • ki)).2, ?_⟩
  rw [← reflect_specular c hk hkx]

end Verif.McCurved
