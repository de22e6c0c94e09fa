import Verif.Lemmas.McCurved
/-!
Property theorems: the curved monochromator of McStas.
-/

namespace Verif.McCurved
open McStas Kinem Flight Solid Homog McMon McOpt McGuide
open Classical

/-- C279: the crystal that is constructed: scattering vector, mosaic, and slabs that fill the given width and height with the gaps between them -/
theorem C279_new {zwidth yheight gap NH NV mosaich mosaicv r0 t0 Q RV RH DM mosaic width height : ℝ} {rT tT : Option (ℝ → ℝ)} {c : Curved}
    (h : Curved.new zwidth yheight gap NH NV mosaich mosaicv r0 t0 Q RV RH DM mosaic width height rT tT = .ok c) :
    0 < c.Q ∧ (DM ≠ 0 → c.Q * DM = 2 * Real.pi) ∧ (DM = 0 → c.Q = Q) ∧ c.r0 = r0 ∧ 0 ≤ r0 ∧ c.t0 = t0 ∧ c.RH = RH ∧ c.RV = RV ∧
    c.NH = NH ∧ c.NV = NV ∧ c.gap = gap ∧ NH ≠ 0 ∧ NV ≠ 0 ∧ c.rmsMax = max c.rmsY c.rmsZ ∧
    c.rmsY * √(8 * Real.log 2) = (if mosaic = 0 then mosaich else mosaic) / 60 * (Real.pi / 180) ∧
    c.rmsZ * √(8 * Real.log 2) = (if mosaic = 0 then mosaicv else mosaic) / 60 * (Real.pi / 180) ∧
    (if width = 0 then c.W = zwidth else NH * c.W + (NH - 1) * gap = width) ∧
    (if height = 0 then c.H = yheight else NV * c.H + (NV - 1) * gap = height) ∧
    (r0 ≠ 0 → c.rTable = rT) ∧ c.tTable = tT := by
  have hs : √(8 * Real.log 2) ≠ 0 := by
    have := Real.log_pos (by norm_num : (1 : ℝ) < 2)
    positivity
  unfold Curved.new at h
  simp only at h
  by_cases c1 : (if DM ≠ 0 then 2 * Real.pi / DM else Q) ≤ 0
  · rw [if_pos c1] at h; cases h
  rw [if_neg c1] at h
  by_cases c2 : r0 < 0
  · rw [if_pos c2] at h; cases h
  rw [if_neg c2] at h
  by_cases c3 : NH * NV = 0
  · rw [if_pos c3] at h; cases h
  rw [if_neg c3] at h
  simp only [Except.ok.injEq] at h
  subst h
  have n1 : NH ≠ 0 := fun h => c3 (by rw [h, zero_mul])
  have n2 : NV ≠ 0 := fun h => c3 (by rw [h, mul_zero])
  refine ⟨not_le.1 c1, fun hD => ?_, fun hD => ?_, rfl, not_lt.1 c2, rfl, rfl, rfl, rfl, rfl, rfl, n1, n2, ?_, ?_, ?_, ?_, ?_, ?_, rfl⟩
  · simp only [hD, ne_eq, not_false_eq_true, if_true]; field_simp
  · simp [hD]
  · simp only
    generalize (Real.pi / 10800 * (if mosaic ≠ 0 then mosaic else mosaich) / √(8 * Real.log 2)) = A
    generalize (if mosaic ≠ 0 then A else Real.pi / 10800 * mosaicv / √(8 * Real.log 2)) = B
    split
    · next hgt => exact (max_eq_left hgt.le).symm
    · next hgt => exact (max_eq_right (not_lt.1 hgt)).symm
  · by_cases hm : mosaic = 0
    · simp only [hm, ne_eq, not_true_eq_false, if_false, if_true]; field_simp; ring
    · simp only [hm, ne_eq, not_false_eq_true, if_false, if_true]; field_simp; ring
  · by_cases hm : mosaic = 0
    · simp only [hm, ne_eq, not_true_eq_false, if_false, if_true]; field_simp; ring
    · simp only [hm, ne_eq, not_false_eq_true, if_false, if_true]; field_simp; ring
  · by_cases hw : width = 0
    · simp only [hw, if_true]
    · simp only [hw, if_false]; field_simp; ring
  · by_cases hw : height = 0
    · simp only [hw, if_true]
    · simp only [hw, if_false]; field_simp; ring
  · intro h
    simp only [ne_eq, h, not_false_eq_true, if_true]

example : ∃ c, Curved.new 0.01 0.01 0.0005 11 11 30 30 0.7 1 1.8734 0 2 3.355 0 0.2 0.3 none none = .ok c := by
  unfold Curved.new
  simp only
  rw [if_neg (by rw [if_pos (by norm_num)]; push Not; positivity), if_neg (by norm_num), if_neg (by norm_num)]
  exact ⟨_, rfl⟩

/-- C279: a neutron that does not move towards the plane of the crystal or passes outside of the area of the slabs is not changed, and none is
if the reflectivity is 0 -/
theorem C279_misses (c : Curved) (u g : ℝ) (e : Event ℝ)
    (h : c.r0 = 0 ∨ ∀ s, 0 ≤ s → (flown Off e s).r.x = 0 → e.v.x ≠ 0 →
      ¬ (|(flown Off e s).r.z| < (c.NH * c.W + (c.NH - 1) * c.gap) / 2 ∧ |(flown Off e s).r.y| < (c.NV * c.H + (c.NV - 1) * c.gap) / 2)) :
    c.trace Off u g e = some (e, some 1) := by
  unfold Curved.trace
  by_cases h1 : e.v.x ≠ 0 ∧ -e.r.x / e.v.x ≥ 0 ∧ c.r0 ≠ 0
  · rw [if_pos h1]
    have hx : (flown Off e (-e.r.x / e.v.x)).r.x = 0 := by
      rw [off_r]; simp only [V3.add_x, V3.smul_x]; rw [div_mul_cancel₀ _ h1.1]; ring
    have hp : propDt Off (-e.r.x / e.v.x) e = flown Off e (-e.r.x / e.v.x) := by
      unfold propDt
      rw [if_neg (by norm_num; linarith [h1.2.1]), if_neg (by simp [Off])]
      exact propDtFree_eq rfl _ _
    have h2 := (h.resolve_left h1.2.2) _ h1.2.1 hx h1.1
    simp only [hp]
    rw [if_neg]
    rintro ⟨a1, a2, a3, a4⟩
    apply h2
    unfold Curved.zmax at a1 a2
    unfold Curved.ymax at a3 a4
    exact ⟨abs_lt.2 ⟨by linarith, by linarith⟩, abs_lt.2 ⟨by linarith, by linarith⟩⟩
  · rw [if_neg h1]

/-- C279: the slabs are focusing: the normal in the centre of a slab meets the horizontal plane of the beam at the distance `RV`, and seen from
above it meets the beam at the distance `RH` -/
theorem C279_focus (c : Curved) (nh nv : ℕ) (h1 : c.NH = nh) (h2 : c.NV = nv) (col row : ℕ) (h v : ℝ) (ht : c.tilt col row = some (h, v)) :
    let a := c.center col row
    (normal h v).dot (normal h v) = 1 ∧ 0 ≤ (normal h v).x ∧ (c.RV ≠ 0 → (a + c.RV • normal h v).y = 0) ∧
    (c.RH ≠ 0 → (a + c.RH • normal h 0).z = 0) ∧ (c.RV = 0 → (normal h v).y = 0) ∧ (c.RH = 0 → (normal h v).z = 0) := by
  have hf := tilt_focused h1 h2 ht
  intro a
  have ha : a = place c nh nv col row := center_eq h1 h2 col row
  obtain ⟨⟨p1, p2⟩, p3, p4⟩ := hf
  have hc1 := Real.cos_nonneg_of_neg_pi_div_two_le_of_le (abs_le.1 p1).1 (abs_le.1 p1).2
  have hc2 := Real.cos_nonneg_of_neg_pi_div_two_le_of_le (abs_le.1 p3).1 (abs_le.1 p3).2
  refine ⟨?_, mul_nonneg hc1 hc2, ?_, ?_, ?_, ?_⟩
  · have e1 := Real.cos_sq_add_sin_sq h
    have e2 := Real.cos_sq_add_sin_sq v
    simp only [normal, V3.dot]
    linear_combination Real.cos v ^ 2 * e1 + e2
  · intro hR
    rw [if_neg hR] at p4
    rw [ha]
    simpa [normal] using p4
  · intro hR
    rw [if_neg hR] at p2
    rw [ha]
    simp only [normal, V3.add_z, V3.smul_z, Real.cos_zero]
    linarith
  · intro hR
    rw [if_pos hR] at p4
    simp [normal, p4]
  · intro hR
    rw [if_pos hR] at p2
    simp [normal, p2]

/-- two slabs of width 1, each turned by the angle with the sine 0.6; `t` is the transmission -/
noncomputable def twoSlabs (t : ℝ) : Curved := ⟨2, 1, 1, 1, 0, 5 / 6, 0, 0.7, t, 1.8734, 0.01, 0.01, 0.01, none, none⟩

theorem twoSlabs_focused (t : ℝ) : Focused (twoSlabs t) (place (twoSlabs t) 2 1 2 1) (Real.arcsin 0.6) 0 ∧
    Focused (twoSlabs t) (place (twoSlabs t) 2 1 1 1) (-Real.arcsin 0.6) 0 := by
  have hs : Real.sin (Real.arcsin 0.6) = 0.6 := Real.sin_arcsin (by norm_num) (by norm_num)
  have hb : |Real.arcsin 0.6| ≤ Real.pi / 2 := abs_le.2 ⟨Real.neg_pi_div_two_le_arcsin _, Real.arcsin_le_pi_div_two _⟩
  have hR : (twoSlabs t).RH ≠ 0 := by norm_num [twoSlabs]
  have hV : (twoSlabs t).RV = 0 := rfl
  refine ⟨⟨⟨hb, ?_⟩, by rw [abs_zero]; positivity, by rw [if_pos hV]⟩, ⟨⟨by rw [abs_neg]; exact hb, ?_⟩, by rw [abs_zero]; positivity, by rw [if_pos hV]⟩⟩
  · rw [if_neg hR, hs]; norm_num [twoSlabs, place]
  · rw [if_neg hR, Real.sin_neg, hs]; norm_num [twoSlabs, place]

example : (twoSlabs 1).tilt (2 : ℕ) (1 : ℕ) = some (Real.arcsin 0.6, 0) :=
  tilt_some (nh := 2) (nv := 1) (by norm_num [twoSlabs]) (by norm_num [twoSlabs]) (twoSlabs_focused 1).1

/-- C279, partial: a neutron that meets the area of the slabs meets the cell of a slab (the slab or the gap behind it); with the angles of
this slab it flies to the plane of the slab.  If it is not on the slab there, nothing else happens; otherwise it is reflected only if the random
number is at most the reflectivity, in the order nearest to the condition of Bragg, elastically and with the scattering vector of this order,
and otherwise it passes, with the transmission as factor of its weight.  The trace always ends.  Missing: the weight of the reflected neutrons, for
which the code takes a quadrature with 15 nodes; that the flight is not back in time (`C279_time_false`), that the slab in whose cell the neutron
meets the plane `x = 0` is the one that it meets (`C279_neighbour_false`), that there are such angles (`C279_radius_false`), neutrons along
the normal of a slab (`C279_normal_false`), and gravity. -/
theorem C279_partial (c : Curved) (nh nv : ℕ) (hh : c.NH = nh) (hv : c.NV = nv) (hW : 0 < c.W) (hH : 0 < c.H) (hg : 0 ≤ c.gap) (hQ : 0 < c.Q)
    (hY : c.rmsY ≠ 0) (hZ : c.rmsZ ≠ 0) (hr : c.r0 ≠ 0) (u g : ℝ) (e : Event ℝ) (s : ℝ) (hx : e.v.x ≠ 0) (hs : 0 ≤ s)
    (h0 : (flown Off e s).r.x = 0) (hz : |(flown Off e s).r.z| < (nh * c.W + (nh - 1) * c.gap) / 2)
    (hy : |(flown Off e s).r.y| < (nv * c.H + (nv - 1) * c.gap) / 2) :
    ∃ col row : ℕ, (1 ≤ col ∧ col ≤ nh ∧ 1 ≤ row ∧ row ≤ nv) ∧
      ((place c nh nv col row).z - c.W / 2 < (flown Off e s).r.z ∧ (flown Off e s).r.z ≤ (place c nh nv col row).z + c.W / 2 + c.gap) ∧
      ((place c nh nv col row).y - c.H / 2 < (flown Off e s).r.y ∧ (flown Off e s).r.y ≤ (place c nh nv col row).y + c.H / 2 + c.gap) ∧
      ∀ h v, Focused c (place c nh nv col row) h v → e.v.dot (normal h v) ≠ 0 →
        ∃ τ, ((flown Off e τ).r - place c nh nv col row).dot (normal h v) = 0 ∧
          (¬ OnSlab c (place c nh nv col row) h v (flown Off e τ).r → c.trace Off u g e = some (flown Off e τ, some 1)) ∧
          (OnSlab c (place c nh nv col row) h v (flown Off e τ).r → (e.v.dot (upward h v) ≠ 0 ∨ e.v.dot (along h v) ≠ 0) →
            ((∀ n, ¬ Nearest c.Q (inSlab h v (V2K • e.v)) n) → ∃ res, c.trace Off u g e = some res ∧ Passes c e τ res) ∧
            ((∃ n, Nearest c.Q (inSlab h v (V2K • e.v)) n) → ∃ n, Nearest c.Q (inSlab h v (V2K • e.v)) n ∧
              (slabR c h v (V2K • e.v) n < u → ∃ res, c.trace Off u g e = some res ∧ Passes c e τ res) ∧
              (u ≤ slabR c h v (V2K • e.v) n → ∃ r f, c.trace Off u g e = some (r, f) ∧ BraggAt c.Q n e r τ))) := by
  have hzm : c.zmax = (nh * (c.W + c.gap) - c.gap) / 2 := by unfold Curved.zmax; rw [hh]
  have hym : c.ymax = (nv * (c.H + c.gap) - c.gap) / 2 := by unfold Curved.ymax; rw [hv]
  have hz' : |(flown Off e s).r.z| < c.zmax := by rw [hzm]; linarith
  have hy' : |(flown Off e s).r.y| < c.ymax := by rw [hym]; linarith
  have ht := trace_eq hr u g hx hs h0 hz' hy'
  obtain ⟨col, k1, k2, k3, k4, k5⟩ := cell_index (n := nh) (w := c.W) (gap := c.gap) (x := (flown Off e s).r.z) hW hg
    (by have := (abs_lt.1 hz').1; rw [hzm] at this; exact this) (by have := (abs_lt.1 hz').2; rw [hzm] at this; exact this)
  obtain ⟨row, j1, j2, j3, j4, j5⟩ := cell_index (n := nv) (w := c.H) (gap := c.gap) (x := (flown Off e s).r.y) hH hg
    (by have := (abs_lt.1 hy').1; rw [hym] at this; exact this) (by have := (abs_lt.1 hy').2; rw [hym] at this; exact this)
  have hcell : c.cell (flown Off e s).r.y (flown Off e s).r.z = ((col : ℤ), (row : ℤ)) := by
    unfold Curved.cell
    rw [hzm, hym, k3, j3]
  rw [hcell] at ht
  simp only [center_eq hh hv] at ht
  refine ⟨col, row, ⟨k1, k2, j1, j2⟩, ⟨k4, k5⟩, ⟨j4, j5⟩, ?_⟩
  intro h v hf hn
  rw [tilt_some hh hv hf] at ht
  simp only [Option.bind_some] at ht
  set a := place c nh nv col row with ha
  obtain ⟨τ, hτ⟩ : ∃ τ, ((flown Off e τ).r - a).dot (normal h v) = 0 := by
    refine ⟨-(e.r - a).dot (normal h v) / e.v.dot (normal h v), ?_⟩
    rw [off_r]
    have : ∀ x : ℝ, (e.r + x • e.v - a).dot (normal h v) = (e.r - a).dot (normal h v) + x * e.v.dot (normal h v) := by
      intro x
      simp only [V3.dot, V3.sub_x, V3.sub_y, V3.sub_z, V3.add_x, V3.add_y, V3.add_z, V3.smul_x, V3.smul_y, V3.smul_z]; ring
    rw [this, div_mul_cancel₀ _ hn]; ring
  rw [prop_slab hn hτ] at ht
  have hid : ({ flown Off e τ with v := rotApply (rotTranspose (rotSet 0 h v)) (inSlab h v e.v) } : Event ℝ) = flown Off e τ := by
    rw [back]
    apply Event.ext <;> first | rfl | rw [off_v]
  refine ⟨τ, hτ, ?_, ?_⟩
  · intro hns
    rw [ht, if_neg, back_slab, hid]
    rintro ⟨w1, w2⟩
    exact hns ⟨hτ, w1, w2⟩
  · rintro ⟨-, w1, w2⟩ hyz
    rw [if_pos ⟨w1, w2⟩] at ht
    obtain ⟨q1, q2⟩ := choose_cases hQ hY hZ u g (v := inSlab h v e.v) hyz
    simp only [← inSlab_smul, inSlab_length] at q1 q2
    have hlen : √((V2K • inSlab h v e.v).x * (V2K • inSlab h v e.v).x + (V2K • inSlab h v e.v).y * (V2K • inSlab h v e.v).y +
        (V2K • inSlab h v e.v).z * (V2K • inSlab h v e.v).z) = length (V2K • e.v) := by
      rw [← inSlab_length h v (V2K • e.v), inSlab_smul]
      rfl
    have hpass : c.choose u g (inSlab h v e.v) = some none → ∃ res, c.trace Off u g e = some res ∧ Passes c e τ res := by
      intro hc
      unfold Curved.slab at ht
      simp only [hc, Option.bind_eq_bind, Option.bind_some, hlen, transmission_eq] at ht
      unfold Passes capped
      set T := c.t0 * tabled c.tTable (length (V2K • e.v)) with hT
      by_cases h1 : 1 < T
      · simp only [h1, if_true] at ht ⊢
        rw [if_pos (by norm_num), Option.bind_some] at ht
        simp only [Bool.false_eq_true, if_false, back_slab, hid] at ht
        exact ⟨_, ht, fun _ => rfl, fun h => by norm_num at h⟩
      · simp only [h1, if_false] at ht ⊢
        by_cases h2 : T > 0
        · rw [if_pos h2, Option.bind_some] at ht
          simp only [Bool.false_eq_true, if_false, back_slab, hid] at ht
          refine ⟨_, ht, fun _ => by rw [max_eq_left h2.le], fun h => ?_⟩
          rw [max_eq_left h2.le] at h
          exact absurd h h2.ne'
        · rw [if_neg h2, Option.bind_some] at ht
          simp only [if_true] at ht
          refine ⟨_, ht, fun h => ?_, fun _ => ⟨rfl, rfl⟩⟩
          rw [max_eq_right (not_lt.1 h2)] at h
          exact absurd h (lt_irrefl _)
    refine ⟨fun hno => hpass (q1 hno), fun hex => ?_⟩
    obtain ⟨n, hn1, hn2, hn3⟩ := q2 hex
    refine ⟨n, hn1, fun hu => hpass (hn2 hu), fun hu => ?_⟩
    obtain ⟨v', f, q, hc, hv', hq1, hq2⟩ := hn3 hu
    unfold Curved.slab at ht
    simp only [hc, Option.bind_eq_bind, Option.bind_some, Bool.false_eq_true, if_false, back_slab] at ht
    refine ⟨_, _, ht, rotApply (rotTranspose (rotSet 0 h v)) q, rfl, ?_, ?_, ?_⟩
    · have : v' = inSlab h v (K2V • (V2K • e.v + rotApply (rotTranspose (rotSet 0 h v)) q)) := by
        rw [hv', inSlab_smul h v K2V, inSlab_add, forth, inSlab_smul]
      simp only
      rw [this, back]
    · rw [← inSlab_length h v, forth, hq1]
    · rw [← inSlab_length h v, inSlab_add, forth, hq2]

example : let c : Curved := twoSlabs 1
    let e : Event ℝ := ⟨⟨1, 0, 0.7⟩, ⟨-1, 0, 0⟩, 0, 0, 0, 1⟩
    c.NH = (2 : ℕ) ∧ c.NV = (1 : ℕ) ∧ 0 < c.W ∧ 0 < c.Q ∧ (flown Off e 1).r.x = 0 ∧ |(flown Off e 1).r.z| < (2 * c.W + (2 - 1) * c.gap) / 2 ∧
    Focused c (place c 2 1 2 1) (Real.arcsin 0.6) 0 := by
  refine ⟨by norm_num [twoSlabs], by norm_num [twoSlabs], by norm_num [twoSlabs], by norm_num [twoSlabs], ?_, ?_, (twoSlabs_focused 1).1⟩
  · rw [off_r]; simp
  · rw [off_r]; norm_num [twoSlabs, abs_lt]

/-- C279: for a neutron on a slab that fulfils the condition of Bragg exactly, and in the middle of the distribution of the directions, the
reflection is that of a mirror with the normal of the slab (up to the product of the constants `K2V` and `V2K`, which is 1 up to 7e-8) -/
theorem C279_specular (c : Curved) (nh nv : ℕ) (hh : c.NH = nh) (hv : c.NV = nv) (hW : 0 < c.W) (hH : 0 < c.H) (hg : 0 ≤ c.gap) (hQ : 0 < c.Q)
    (hY : c.rmsY ≠ 0) (hZ : c.rmsZ ≠ 0) (hr : c.r0 ≠ 0) (u : ℝ) (e : Event ℝ) (s : ℝ) (hx : e.v.x ≠ 0) (hs : 0 ≤ s)
    (h0 : (flown Off e s).r.x = 0) (hz : |(flown Off e s).r.z| < (nh * c.W + (nh - 1) * c.gap) / 2)
    (hy : |(flown Off e s).r.y| < (nv * c.H + (nv - 1) * c.gap) / 2) (col row : ℕ)
    (k : (place c nh nv col row).z - c.W / 2 < (flown Off e s).r.z ∧ (flown Off e s).r.z ≤ (place c nh nv col row).z + c.W / 2 + c.gap)
    (j : (place c nh nv col row).y - c.H / 2 < (flown Off e s).r.y ∧ (flown Off e s).r.y ≤ (place c nh nv col row).y + c.H / 2 + c.gap)
    (h v : ℝ) (hf : Focused c (place c nh nv col row) h v) (hn : e.v.dot (normal h v) ≠ 0)
    (hyz : e.v.dot (upward h v) ≠ 0 ∨ e.v.dot (along h v) ≠ 0) (τ : ℝ) (ho : OnSlab c (place c nh nv col row) h v (flown Off e τ).r) (n : ℕ)
    (hB : n * c.Q = 2 * |V2K * e.v.dot (normal h v)|) (hu : u ≤ capped (c.r0 * tabled c.rTable (length (V2K • e.v)))) :
    ∃ f, c.trace Off u 0 e =
      some ({ flown Off e τ with v := (K2V * V2K) • (e.v - (2 * e.v.dot (normal h v)) • normal h v) }, f) := by
  have hzm : c.zmax = (nh * (c.W + c.gap) - c.gap) / 2 := by unfold Curved.zmax; rw [hh]
  have hym : c.ymax = (nv * (c.H + c.gap) - c.gap) / 2 := by unfold Curved.ymax; rw [hv]
  have hz' : |(flown Off e s).r.z| < c.zmax := by rw [hzm]; linarith
  have hy' : |(flown Off e s).r.y| < c.ymax := by rw [hym]; linarith
  have ht := trace_eq hr u 0 hx hs h0 hz' hy'
  have hcell : c.cell (flown Off e s).r.y (flown Off e s).r.z = ((col : ℤ), (row : ℤ)) := by
    unfold Curved.cell
    rw [hzm, hym, cell_of hW hg k.1 k.2, cell_of hH hg j.1 j.2]
  rw [hcell] at ht
  simp only [center_eq hh hv] at ht
  rw [tilt_some hh hv hf] at ht
  simp only [Option.bind_some] at ht
  rw [prop_slab hn ho.1, if_pos ⟨ho.2.1, ho.2.2⟩] at ht
  obtain ⟨f, hc⟩ := choose_specular hQ hY hZ (u := u) (v := inSlab h v e.v) hn hyz n hB
    (by rw [← inSlab_smul, inSlab_length]; exact hu)
  unfold Curved.slab at ht
  simp only [hc, Option.bind_eq_bind, Option.bind_some, Bool.false_eq_true, if_false, back_slab] at ht
  refine ⟨f, ?_⟩
  rw [ht]
  have hm : (K2V * V2K) • (⟨-(inSlab h v e.v).x, (inSlab h v e.v).y, (inSlab h v e.v).z⟩ : V3 ℝ) =
      inSlab h v ((K2V * V2K) • (e.v - (2 * e.v.dot (normal h v)) • normal h v)) := by
    rw [inSlab_smul]
    congr 1
    have e1 := Real.cos_sq_add_sin_sq h
    have e2 := Real.cos_sq_add_sin_sq v
    unfold inSlab normal upward along
    ext
    · simp only [V3.dot, V3.sub_x, V3.sub_y, V3.sub_z, V3.smul_x, V3.smul_y, V3.smul_z]
      linear_combination (2 * (e.v.x * (Real.cos h * Real.cos v) + e.v.y * Real.sin v + e.v.z * -(Real.sin h * Real.cos v))) *
        (Real.cos v ^ 2 * e1 + e2)
    · simp only [V3.dot, V3.sub_x, V3.sub_y, V3.sub_z, V3.smul_x, V3.smul_y, V3.smul_z]
      linear_combination (-(2 * (e.v.x * (Real.cos h * Real.cos v) + e.v.y * Real.sin v + e.v.z * -(Real.sin h * Real.cos v)))) *
        (Real.sin v * Real.cos v * e1)
    · simp only [V3.dot, V3.sub_x, V3.sub_y, V3.sub_z, V3.smul_x, V3.smul_y, V3.smul_z]
      ring
  rw [hm, back]

example : ((1 : ℕ) : ℝ) * 1.6 = 2 * |V2K * (⟨-1 / V2K, 0, 0⟩ : V3 ℝ).dot ⟨0.8, 0, -0.6⟩| ∧
    (⟨-1 / V2K, 0, 0⟩ : V3 ℝ).dot ⟨0.6, 0, 0.8⟩ ≠ 0 := by
  have : V2K * (⟨-1 / V2K, 0, 0⟩ : V3 ℝ).dot ⟨0.8, 0, -0.6⟩ = -0.8 := by norm_num [V2K, V3.dot]
  rw [this]
  norm_num [V2K, V3.dot]

theorem slab_normal : normal (Real.arcsin 0.6) 0 = ⟨0.8, 0, -0.6⟩ ∧ upward (Real.arcsin 0.6) 0 = ⟨0, 1, 0⟩ ∧ along (Real.arcsin 0.6) 0 = ⟨0.6, 0, 0.8⟩ ∧
    normal (-Real.arcsin 0.6) 0 = ⟨0.8, 0, 0.6⟩ ∧ upward (-Real.arcsin 0.6) 0 = ⟨0, 1, 0⟩ ∧ along (-Real.arcsin 0.6) 0 = ⟨-0.6, 0, 0.8⟩ := by
  have hsin : Real.sin (Real.arcsin 0.6) = 0.6 := Real.sin_arcsin (by norm_num) (by norm_num)
  have hcos : Real.cos (Real.arcsin 0.6) = 0.8 := by
    rw [Real.cos_arcsin]
    rw [show (1 - 0.6 ^ 2 : ℝ) = 0.8 ^ 2 by norm_num, Real.sqrt_sq (by norm_num)]
  unfold normal upward along
  simp only [Real.sin_neg, Real.cos_neg, hsin, hcos, Real.sin_zero, Real.cos_zero]
  norm_num

/-- C279 is false: a neutron that flies towards the plane `x = 0` and is behind the turned slab already is moved back in time to the slab -/
theorem C279_time_false : ∃ (c : Curved) (e r : Event ℝ), 0 < e.v.dot e.v ∧ e.r.x * e.v.x < 0 ∧
    ∀ u g, ∃ f, c.trace Off u g e = some (r, f) ∧ r.t < e.t := by
  refine ⟨twoSlabs 1, ⟨⟨0.05, 0, 0.7⟩, ⟨-1, 0, 0⟩, 0, 0, 0, 1⟩, flown Off ⟨⟨0.05, 0, 0.7⟩, ⟨-1, 0, 0⟩, 0, 0, 0, 1⟩ (-0.1),
    by norm_num [V3.dot], by norm_num, ?_⟩
  intro u g
  set e : Event ℝ := ⟨⟨0.05, 0, 0.7⟩, ⟨-1, 0, 0⟩, 0, 0, 0, 1⟩ with he
  have hr : ∀ s, (flown Off e s).r = ⟨0.05 - s, 0, 0.7⟩ := by
    intro s; rw [off_r]; ext <;> simp [he]; ring
  obtain ⟨col, row, ⟨k1, k2, j1, j2⟩, ⟨k4, k5⟩, -, hm⟩ := C279_partial (twoSlabs 1) 2 1 (by norm_num [twoSlabs]) (by norm_num [twoSlabs])
    (by norm_num [twoSlabs]) (by norm_num [twoSlabs]) (by norm_num [twoSlabs]) (by norm_num [twoSlabs]) (by norm_num [twoSlabs])
    (by norm_num [twoSlabs]) (by norm_num [twoSlabs]) u g e 0.05 (by norm_num [he]) (by norm_num) (by rw [hr]; norm_num)
    (by rw [hr]; norm_num [twoSlabs, abs_lt]) (by rw [hr]; norm_num [twoSlabs])
  have hrow : row = 1 := by omega
  have hcol : col = 2 := by
    rw [hr] at k4 k5
    simp only [place, twoSlabs] at k4 k5
    norm_num at k4 k5
    have h1 : (1 : ℝ) < col := by linarith
    have h2 : 1 < col := by exact_mod_cast h1
    omega
  subst hrow hcol
  obtain ⟨n1, n2, n3, -⟩ := slab_normal
  obtain ⟨τ, hτ, -, hon⟩ := hm _ _ (twoSlabs_focused 1).1 (by rw [n1]; norm_num [V3.dot, he])
  have hpl : place (twoSlabs 1) 2 1 2 1 = ⟨0, 0, 0.5⟩ := by
    unfold place; ext <;> norm_num [twoSlabs]
  have hτ' : τ = -0.1 := by
    rw [hr, hpl, n1] at hτ
    simp only [V3.dot, V3.sub_x, V3.sub_y, V3.sub_z] at hτ
    norm_num at hτ ⊢
    linarith
  subst hτ'
  obtain ⟨hno, -⟩ := hon (by
    unfold OnSlab
    rw [hr, hpl, n1, n2, n3]
    simp only [V3.dot, V3.sub_x, V3.sub_y, V3.sub_z, abs_le, twoSlabs]
    norm_num) (Or.inr (by rw [n3]; norm_num [V3.dot, he]))
  have hl : length (inSlab (Real.arcsin 0.6) 0 (V2K • e.v)) = V2K := by
    rw [inSlab_length, McGuide.length_smul, abs_of_pos (by norm_num [V2K]), length_eq]
    norm_num [V3.dot, he]
  obtain ⟨res, h1, h2, -⟩ := hno (by
    rintro n ⟨hn, hn2, -⟩
    rw [hl] at hn2
    have : (1 : ℝ) ≤ n := by exact_mod_cast hn
    simp only [twoSlabs, V2K] at hn2
    linarith)
  have hT : capped ((twoSlabs 1).t0 * tabled (twoSlabs 1).tTable (length (V2K • e.v))) = 1 := by
    simp [twoSlabs, tabled, capped]
  rw [hT] at h2
  rw [h2 one_pos] at h1
  exact ⟨_, h1, by norm_num [flown, he]⟩

/-- C279 is false: a neutron that meets an opaque slab passes it unchanged, because the plane `x = 0` is met in the cell of the neighbour -/
theorem C279_neighbour_false : ∃ (c : Curved) (e : Event ℝ) (h v s : ℝ), c.t0 = 0 ∧ Focused c (place c 2 1 1 1) h v ∧ 0 < s ∧ e.r.x > 0 ∧
    OnSlab c (place c 2 1 1 1) h v (flown Off e s).r ∧ ∀ u g, ∃ τ, s < τ ∧ c.trace Off u g e = some (flown Off e τ, some 1) := by
  obtain ⟨n1, n2, n3, m1, m2, m3⟩ := slab_normal
  set e : Event ℝ := ⟨⟨1, 0, 1.05⟩, ⟨-1, 0, -1⟩, 0, 0, 0, 1⟩ with he
  have hr : ∀ s, (flown Off e s).r = ⟨1 - s, 0, 1.05 - s⟩ := by
    intro s; rw [off_r]; ext <;> simp [he] <;> ring
  have hp1 : place (twoSlabs 0) 2 1 1 1 = ⟨0, 0, -0.5⟩ := by
    unfold place; ext <;> norm_num [twoSlabs]
  have hpl : place (twoSlabs 0) 2 1 2 1 = ⟨0, 0, 0.5⟩ := by
    unfold place; ext <;> norm_num [twoSlabs]
  refine ⟨twoSlabs 0, e, -Real.arcsin 0.6, 0, 1 + 0.33 / 1.4, rfl, (twoSlabs_focused 0).2, by norm_num, by norm_num [he], ?_, ?_⟩
  · unfold OnSlab
    rw [hr, hp1, m1, m2, m3]
    simp only [V3.dot, V3.sub_x, V3.sub_y, V3.sub_z, abs_le, twoSlabs]
    norm_num
  intro u g
  obtain ⟨col, row, ⟨k1, k2, j1, j2⟩, ⟨k4, k5⟩, -, hm⟩ := C279_partial (twoSlabs 0) 2 1 (by norm_num [twoSlabs]) (by norm_num [twoSlabs])
    (by norm_num [twoSlabs]) (by norm_num [twoSlabs]) (by norm_num [twoSlabs]) (by norm_num [twoSlabs]) (by norm_num [twoSlabs])
    (by norm_num [twoSlabs]) (by norm_num [twoSlabs]) u g e 1 (by norm_num [he]) (by norm_num) (by rw [hr]; norm_num)
    (by rw [hr]; norm_num [twoSlabs, abs_lt]) (by rw [hr]; norm_num [twoSlabs])
  have hrow : row = 1 := by omega
  have hcol : col = 2 := by
    rw [hr] at k4 k5
    simp only [place, twoSlabs] at k4 k5
    norm_num at k4 k5
    have h1 : (1 : ℝ) < col := by linarith
    have h2 : 1 < col := by exact_mod_cast h1
    omega
  subst hrow hcol
  obtain ⟨τ, hτ, hoff, -⟩ := hm _ _ (twoSlabs_focused 0).1 (by rw [n1]; norm_num [V3.dot, he])
  have hτ' : τ = 2.35 := by
    rw [hr, hpl, n1] at hτ
    simp only [V3.dot, V3.sub_x, V3.sub_y, V3.sub_z] at hτ
    norm_num at hτ ⊢
    linarith
  subst hτ'
  refine ⟨2.35, by norm_num, hoff ?_⟩
  unfold OnSlab
  rw [hr, hpl, n1, n2, n3]
  simp only [V3.dot, V3.sub_x, V3.sub_y, V3.sub_z, abs_le, twoSlabs]
  norm_num

/-- C279 is false: a radius that is smaller than the crystal is accepted, and the neutrons on the outer slabs become not a number -/
theorem C279_radius_false : ∃ (c : Curved) (e : Event ℝ), Curved.new 1 1 0 3 1 30 30 0.7 1 1.8734 0 0.5 0 0 0 0 none none = .ok c ∧
    e.r.x * e.v.x < 0 ∧ ∀ u g, c.trace Off u g e = none := by
  have hnew : ∃ c, Curved.new 1 1 0 3 1 30 30 0.7 1 1.8734 0 0.5 0 0 0 0 none none = .ok c ∧ c.NH = 3 ∧ c.NV = 1 ∧ c.W = 1 ∧ c.H = 1 ∧
      c.gap = 0 ∧ c.RH = 0.5 ∧ c.r0 = 0.7 := by
    unfold Curved.new
    simp only
    rw [if_neg (by norm_num), if_neg (by norm_num), if_neg (by norm_num)]
    exact ⟨_, rfl, rfl, rfl, by simp, by simp, rfl, rfl, rfl⟩
  obtain ⟨c, h1, h2, h3, h4, h5, h6, h7, h8⟩ := hnew
  refine ⟨c, ⟨⟨1, 0, 1⟩, ⟨-1, 0, 0⟩, 0, 0, 0, 1⟩, h1, by norm_num, ?_⟩
  intro u g
  have hr : (flown Off ⟨⟨1, 0, 1⟩, ⟨-1, 0, 0⟩, 0, 0, 0, 1⟩ 1).r = ⟨0, 0, 1⟩ := by rw [off_r]; ext <;> simp
  rw [trace_eq (s := 1) (by rw [h8]; norm_num) u g (by norm_num) (by norm_num) (by rw [hr])
    (by rw [hr]; unfold Curved.zmax; rw [h2, h4, h6]; norm_num) (by rw [hr]; unfold Curved.ymax; rw [h3, h5, h6]; norm_num)]
  have hcell : (c.cell (flown Off ⟨⟨1, 0, 1⟩, ⟨-1, 0, 0⟩, 0, 0, 0, 1⟩ 1).r.y (flown Off ⟨⟨1, 0, 1⟩, ⟨-1, 0, 0⟩, 0, 0, 0, 1⟩ 1).r.z).1 = 3 := by
    rw [hr]
    unfold Curved.cell Curved.zmax
    rw [h2, h4, h6]
    simp only
    rw [Int.ceil_eq_iff]
    norm_num
  rw [hcell]
  have : c.tiltH 3 = none := by
    unfold Curved.tiltH
    rw [if_pos (by rw [h7]; norm_num), h2, h4, h6, h7]
    unfold Powder.asinD
    rw [if_pos (by norm_num)]
  unfold Curved.tilt
  rw [this]
  rfl

/-- C279 is false: neutrons along the normal of a slab are never reflected, even if they fulfil the condition of Bragg exactly -/
theorem C279_normal_false : ∃ (c : Curved) (e : Event ℝ), c.r0 = 1 ∧ 0 < c.rmsY ∧ 0 < c.rmsZ ∧ OnSlab c (place c 1 1 1 1) 0 0 e.r ∧
    Focused c (place c 1 1 1 1) 0 0 ∧ Nearest c.Q (V2K • e.v) 1 ∧ misset c.Q (V2K • e.v) 1 = 0 ∧
    ∀ u g, c.trace Off u g e = some (e, some 1) := by
  have hV : V2K * (-1 / V2K) = -1 := by norm_num [V2K]
  have hk : V2K • (⟨-1 / V2K, 0, 0⟩ : V3 ℝ) = ⟨-1, 0, 0⟩ := by
    ext
    · exact hV
    · simp
    · simp
  have hl : length (⟨-1, 0, 0⟩ : V3 ℝ) = 1 := by rw [length_eq]; norm_num [V3.dot]
  set e : Event ℝ := ⟨⟨0, 0, 0⟩, ⟨-1 / V2K, 0, 0⟩, 0, 0, 0, 1⟩ with he
  set c : Curved := ⟨1, 1, 1, 1, 0, 0, 0, 1, 1, 2, 0.01, 0.01, 0.01, none, none⟩ with hc
  have hpl : place c 1 1 1 1 = 0 := by unfold place; ext <;> norm_num [hc]
  have hfo : Focused c (place c 1 1 1 1) 0 0 := by
    refine ⟨⟨by rw [abs_zero]; positivity, by rw [if_pos rfl]⟩, by rw [abs_zero]; positivity, by rw [if_pos rfl]⟩
  have hid : ∀ w, inSlab 0 0 w = w := by
    intro w; unfold inSlab normal upward along; ext <;> simp [V3.dot]
  have hfl : flown Off e 0 = e := by
    apply Event.ext
    · rw [off_r]; ext <;> simp
    · rw [off_v]
    all_goals simp [flown]
  refine ⟨c, e, rfl, by norm_num [hc], by norm_num [hc], ?_, hfo, ?_, ?_, ?_⟩
  · rw [hpl]
    refine ⟨by simp [he, V3.dot], ?_, ?_⟩ <;> norm_num [he, hc, V3.dot]
  · rw [hk]
    refine ⟨by norm_num, by rw [hl]; norm_num [hc], ?_⟩
    intro j _ _
    norm_num [hc]
  · rw [hk]
    unfold misset
    rw [hl]; norm_num [hc]
  · intro u g
    have ht := trace_eq (c := c) (s := 0) (e := e) (by norm_num [hc]) u g (by norm_num [he, V2K]) le_rfl (by rw [hfl])
      (by rw [hfl]; norm_num [he, hc, Curved.zmax]) (by rw [hfl]; norm_num [he, hc, Curved.ymax])
    have hcell : c.cell (flown Off e 0).r.y (flown Off e 0).r.z = (((1 : ℕ) : ℤ), ((1 : ℕ) : ℤ)) := by
      rw [hfl]
      unfold Curved.cell Curved.zmax Curved.ymax
      simp only [hc, he, Prod.mk.injEq]
      constructor <;> rw [Int.ceil_eq_iff] <;> norm_num
    rw [hcell] at ht
    simp only [center_eq (c := c) (nh := 1) (nv := 1) (by norm_num [hc]) (by norm_num [hc])] at ht
    rw [tilt_some (c := c) (nh := 1) (nv := 1) (by norm_num [hc]) (by norm_num [hc]) hfo, hpl] at ht
    simp only [Option.bind_some] at ht
    rw [prop_slab (h := 0) (v := 0) (a := 0) (e := e) (τ := 0) (by norm_num [normal, V3.dot, he, V2K])
      (by rw [hfl]; simp [he, V3.dot]), hfl, hid, hid] at ht
    have hre : ({ e with r := e.r - 0, v := e.v } : Event ℝ) = e := by
      apply Event.ext <;> first | rfl | (ext <;> simp)
    rw [hre, if_pos (by norm_num [he, hc])] at ht
    have hch : c.choose u g e.v = some none := by
      unfold Curved.choose
      have hk' : V2K • e.v = ⟨-1, 0, 0⟩ := hk
      simp only [hk', divD_ok (show c.Q ≠ 0 by norm_num [hc]), Option.bind_eq_bind, Option.bind_some]
      split
      · have : √((-1 : ℝ) * -1 + 0 * 0 + 0 * 0) = 1 := by norm_num
        rw [this]
        have ho : monoOrder c.Q 1 (-2 * -1 / c.Q) = 1 := by
          have : ⌊(-2 * -1 / c.Q + 0.5 : ℝ)⌋ = 1 := by
            rw [Int.floor_eq_iff]
            constructor <;> norm_num [hc]
          unfold monoOrder
          simp only [this]
          norm_num [hc]
        rw [ho]
        have : Powder.asinD (((1 : ℤ) : ℝ) * c.Q / (2 * 1)) = some (Real.arcsin (((1 : ℤ) : ℝ) * c.Q / (2 * 1))) := by
          unfold Powder.asinD
          rw [if_neg (by norm_num [hc])]
        rw [this]
        simp only [Option.bind_some]
        rw [peak_none _ (by norm_num)]
      · rfl
    unfold Curved.slab at ht
    rw [hch] at ht
    simp only [Option.bind_eq_bind, Option.bind_some, transmission_eq] at ht
    simp only [hc, tabled, Option.elim, mul_one, lt_irrefl, if_false, gt_iff_lt, one_pos, if_true, Option.bind_some, Bool.false_eq_true] at ht
    rw [← hc] at ht
    rw [ht]
    have hb := back_slab 0 0 0 e 0 e.v
    rw [hfl, hid, hre] at hb
    rw [hb]
    have := back 0 0 e.v
    rw [hid] at this
    rw [this]

end Verif.McCurved
