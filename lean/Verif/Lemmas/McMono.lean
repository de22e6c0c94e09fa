import Verif.Lemmas.McGuide
/-!
Lemmas for the monochromator of McStas.
-/

namespace Verif.McGuide
open McStas Kinem Flight Solid Homog McMon McOpt

theorem monoOrder_abs (Q k ratio : ℝ) : ∃ n : ℤ, 1 ≤ n ∧ |(n : ℝ) - (|ratio|)| ≤ max (1 / 2) (1 - |ratio|) ∧
    monoOrder Q k ratio = if (n : ℝ) > 2 * k / Q then n - 1 else n := by
  have h1 := Int.floor_le (ratio + 0.5)
  have h2 := Int.lt_floor_add_one (ratio + 0.5)
  set f := ⌊ratio + 0.5⌋ with hf
  by_cases h0 : f = 0
  · refine ⟨1, le_rfl, ?_, ?_⟩
    · rw [h0] at h1 h2
      push_cast at h1 h2 ⊢
      have : |ratio| ≤ 1 / 2 := abs_le.2 ⟨by linarith, by linarith⟩
      rw [abs_of_nonneg (by linarith)]
      exact le_max_right _ _
    · unfold monoOrder
      simp only [← hf, h0, if_true]
      split
      · simp
      · simp
  · have hn : monoOrder Q k ratio = if ((|f| : ℤ) : ℝ) > 2 * k / Q then |f| - 1 else |f| := by
      unfold monoOrder
      simp only [← hf, h0, if_false]
      have : (if f < 0 then -f else f) = |f| := by
        split
        · next h => rw [abs_of_neg h]
        · next h => rw [abs_of_nonneg (not_lt.1 h)]
      rw [this]
    refine ⟨|f|, Int.one_le_abs h0, ?_, hn⟩
    refine le_trans ?_ (le_max_left _ _)
    rw [Int.cast_abs]
    refine (abs_abs_sub_abs_le _ _).trans (abs_le.2 ⟨by linarith, by linarith⟩)

/-- the order is the nearest one, if there is one -/
theorem monoOrder_nearest {Q : ℝ} (hQ : 0 < Q) {ki : V3 ℝ} (hx : |ki.x| ≤ length ki) :
    (∃ n : Nat, Nearest Q ki n ∧ monoOrder Q (length ki) (-2 * ki.x / Q) = n) ∨
    (monoOrder Q (length ki) (-2 * ki.x / Q) = 0 ∧ ∀ n, ¬ Nearest Q ki n) := by
  obtain ⟨n, hn1, hn2, hn3⟩ := monoOrder_abs Q (length ki) (-2 * ki.x / Q)
  have hr : |-2 * ki.x / Q| = 2 * |ki.x| / Q := by
    rw [abs_div, abs_mul, abs_of_pos hQ]; norm_num
  rw [hr] at hn2
  set ρ := 2 * |ki.x| / Q with hρ
  have hρ0 : 0 ≤ ρ := by positivity
  have hρk : ρ ≤ 2 * length ki / Q := div_le_div_of_nonneg_right (by linarith) hQ.le
  have hle : ∀ x : ℝ, x * Q ≤ 2 * length ki ↔ x ≤ 2 * length ki / Q := fun x => (le_div_iff₀ hQ).symm
  rw [hn3]
  have hn1' : (1 : ℝ) ≤ n := by exact_mod_cast hn1
  split
  · next hgt =>
    rcases hn1.eq_or_lt with h | h
    · right
      refine ⟨by omega, ?_⟩
      rintro j ⟨hj, hj2, -⟩
      rw [hle] at hj2
      have : (1 : ℝ) ≤ j := by exact_mod_cast hj
      rw [← h] at hgt
      push_cast at hgt
      linarith
    · left
      have hn2' : (2 : ℝ) ≤ n := by exact_mod_cast h
      have hd : (n : ℝ) - ρ ≤ 1 / 2 := by
        have := (abs_le.1 hn2).2
        rcases le_max_iff.1 this with h | h <;> linarith
      have h5 : ((n - 1).toNat : ℝ) = (n : ℝ) - 1 := by
        have : ((n - 1).toNat : ℤ) = n - 1 := Int.toNat_of_nonneg (by omega)
        have h6 : (((n - 1).toNat : ℤ) : ℝ) = ((n - 1 : ℤ) : ℝ) := by rw [this]
        push_cast at h6
        linarith
      refine ⟨(n - 1).toNat, ⟨by omega, ?_, ?_⟩, by omega⟩
      · rw [hle, h5]; linarith
      · intro j hj hj2
        rw [hle] at hj2
        have hjn : (j : ℤ) ≤ n - 1 := by
          have : (j : ℝ) < n := by linarith
          have : (j : ℤ) < n := by exact_mod_cast this
          omega
        have hjn' : (j : ℝ) ≤ (n : ℝ) - 1 := by exact_mod_cast hjn
        rw [h5, ← hρ, abs_of_nonpos (by linarith), abs_of_nonpos (by linarith)]
        linarith
  · next hgt =>
    left
    push Not at hgt
    have h5 : (n.toNat : ℝ) = (n : ℝ) := by
      have : (n.toNat : ℤ) = n := Int.toNat_of_nonneg (by omega)
      exact_mod_cast this
    refine ⟨n.toNat, ⟨by omega, ?_, ?_⟩, by omega⟩
    · rw [hle, h5]; exact hgt
    · intro j hj hj2
      have hj1 : (1 : ℝ) ≤ j := by exact_mod_cast hj
      rw [h5, ← hρ]
      by_cases hjn : (j : ℝ) = n
      · rw [hjn]
      · rcases le_max_iff.1 hn2 with h | h
        · refine h.trans ?_
          have h6 : 1 ≤ |(j : ℝ) - n| := by
            have : (j : ℤ) ≠ n := by
              intro h; apply hjn; exact_mod_cast h
            have := Int.one_le_abs (sub_ne_zero.2 this)
            exact_mod_cast this
          have h7 := abs_sub_le (j : ℝ) ρ n
          rw [abs_sub_comm ρ] at h7
          linarith
        · refine h.trans ?_
          have := le_abs_self ((j : ℝ) - ρ)
          linarith

theorem x_le (v : V3 ℝ) : |v.x| ≤ length v := by
  rw [length_eq, ← Real.sqrt_sq_eq_abs]
  apply Real.sqrt_le_sqrt
  simp only [V3.dot]
  nlinarith [mul_self_nonneg v.y, mul_self_nonneg v.z]

theorem length_smul (c : ℝ) (v : V3 ℝ) : length (c • v) = |c| * length v := by
  rw [length_eq, length_eq]
  have : (c • v).dot (c • v) = c ^ 2 * v.dot v := by simp only [V3.dot, V3.smul_x, V3.smul_y, V3.smul_z]; ring
  rw [this, Real.sqrt_mul (sq_nonneg _), Real.sqrt_sq_eq_abs]

/-- a vector on the cone of Debye and Scherrer -/
theorem cone {ki b : V3 ℝ} {k θ : ℝ} (hk : 0 < k) (hki : ki.dot ki = k ^ 2) (hb : b.dot ki = 0)
    (hbb : b.dot b = (k * Real.sin (2 * θ)) ^ 2) (φ : ℝ) :
    let q := onCone ((Real.cos (2 * θ) - 1) • ki) (b.cross ((1 / k) • ki)) b φ
    q.dot q = (2 * k * Real.sin θ) ^ 2 ∧ (ki + q).dot (ki + q) = k ^ 2 := by
  intro q
  set a := b.cross ((1 / k) • ki) with ha
  have hkk : (1 / k) * (1 / k) * k ^ 2 = 1 := by field_simp
  have haa : a.dot a = (k * Real.sin (2 * θ)) ^ 2 := by
    have : a.dot a = (1 / k) * (1 / k) * (b.dot b * ki.dot ki - b.dot ki ^ 2) := by
      simp only [ha, V3.dot, V3.cross, V3.smul_x, V3.smul_y, V3.smul_z]; ring
    rw [this, hb, hki, hbb]
    linear_combination (k * Real.sin (2 * θ)) ^ 2 * hkk
  have hab : a.dot b = 0 := by simp only [ha, V3.dot, V3.cross, V3.smul_x, V3.smul_y, V3.smul_z]; ring
  have hak : a.dot ki = 0 := by simp only [ha, V3.dot, V3.cross, V3.smul_x, V3.smul_y, V3.smul_z]; ring
  have e1 : q.dot q = (Real.cos (2 * θ) - 1) ^ 2 * ki.dot ki + Real.cos φ ^ 2 * a.dot a + Real.sin φ ^ 2 * b.dot b +
      2 * (Real.cos (2 * θ) - 1) * Real.cos φ * a.dot ki + 2 * (Real.cos (2 * θ) - 1) * Real.sin φ * b.dot ki +
      2 * Real.cos φ * Real.sin φ * a.dot b := by
    simp only [q, onCone, V3.dot, V3.add_x, V3.add_y, V3.add_z, V3.smul_x, V3.smul_y, V3.smul_z]; ring
  have e2 : (ki + q).dot (ki + q) = Real.cos (2 * θ) ^ 2 * ki.dot ki + Real.cos φ ^ 2 * a.dot a + Real.sin φ ^ 2 * b.dot b +
      2 * Real.cos (2 * θ) * Real.cos φ * a.dot ki + 2 * Real.cos (2 * θ) * Real.sin φ * b.dot ki +
      2 * Real.cos φ * Real.sin φ * a.dot b := by
    simp only [q, onCone, V3.dot, V3.add_x, V3.add_y, V3.add_z, V3.smul_x, V3.smul_y, V3.smul_z]; ring
  have hs := Real.sin_sq_add_cos_sq φ
  have hs2 := Real.sin_sq_add_cos_sq (2 * θ)
  have hc2 := Real.cos_two_mul' θ
  have hs3 := Real.sin_sq_add_cos_sq θ
  have hct : 1 - Real.cos (2 * θ) = 2 * Real.sin θ ^ 2 := by rw [hc2]; linarith
  constructor
  · rw [e1, haa, hab, hak, hb, hbb, hki]
    linear_combination (k * Real.sin (2 * θ)) ^ 2 * hs + k ^ 2 * hs2 + 2 * k ^ 2 * hct
  · rw [e2, haa, hab, hak, hb, hbb, hki]
    linear_combination (k * Real.sin (2 * θ)) ^ 2 * hs + k ^ 2 * hs2

theorem norm_dot (u v : V3 ℝ) (h : u.dot v = 0) : (McStas.norm u).dot v = 0 := by
  unfold McStas.norm
  simp only
  split
  · have : (⟨u.x / √(u.x * u.x + u.y * u.y + u.z * u.z), u.y / √(u.x * u.x + u.y * u.y + u.z * u.z),
        u.z / √(u.x * u.x + u.y * u.y + u.z * u.z)⟩ : V3 ℝ).dot v = u.dot v / √(u.x * u.x + u.y * u.y + u.z * u.z) := by
      simp only [V3.dot]; ring
    rw [this, h, zero_div]
  · exact h

theorem peak_eq (m : Mono) (hy : m.rmsY ≠ 0) (hz : m.rmsZ ≠ 0) {ki : V3 ℝ} (h : ki.y ^ 2 + ki.z ^ 2 ≠ 0) (δ : ℝ) :
    m.peak ki.y ki.z δ = some (mosaicR m.r0 m.rmsY m.rmsZ δ ki) := by
  have h' : ki.y * ki.y + ki.z * ki.z ≠ 0 := by intro h2; apply h; linarith [h2, sq ki.y, sq ki.z]
  unfold Mono.peak mosaicR
  rw [divD_ok h', divD_ok h']
  simp only [Option.bind_eq_bind, Option.bind_some]
  rw [divD_ok (by positivity), divD_ok (by positivity)]
  simp only [Option.bind_some]
  rw [mul_assoc, ← Real.exp_add]
  congr 3
  field_simp
  ring

theorem peak_none (m : Mono) {ky kz : ℝ} (h : ky * ky + kz * kz = 0) (δ : ℝ) : m.peak ky kz δ = none := by
  unfold Mono.peak divD
  rw [if_pos h]; rfl

/-- the reflection is a reflection from the lattice planes -/
theorem reflect_some {m : Mono} {fuel : Nat} {g q0x θ : ℝ} {ki : V3 ℝ} (hk : ki.y ^ 2 + ki.z ^ 2 ≠ 0) (hq : q0x ≠ 0) {v : V3 ℝ}
    {f : Option ℝ} (h : m.reflect fuel g (length ki) q0x θ ki ((1 / length ki) • ki) = some (v, f)) :
    ∃ q, v = K2V • (ki + q) ∧ q.dot q = (2 * length ki * Real.sin θ) ^ 2 ∧ (ki + q).dot (ki + q) = ki.dot ki := by
  have h0 : ki ≠ 0 := by rintro rfl; simp at hk
  have hl := length_pos h0
  have hll : ki.dot ki = length ki ^ 2 := by rw [sq, length_mul_self]
  unfold Mono.reflect at h
  simp only [Option.bind_eq_bind, Option.bind_eq_some_iff, Option.some.injEq, Prod.mk.injEq] at h
  obtain ⟨s, -, rfl, -⟩ := h
  have hc : ki.cross ⟨q0x, 0, 0⟩ ≠ 0 := by
    intro hc
    have h1 := congrArg V3.y hc
    have h2 := congrArg V3.z hc
    simp only [V3.cross, V3.zero_y, V3.zero_z, mul_zero, sub_zero, zero_sub, neg_eq_zero, mul_eq_zero, hq, or_false] at h1 h2
    apply hk
    rw [h1, h2]; ring
  set b := (length ki * Real.sin (2 * θ)) • McStas.norm (ki.cross ⟨q0x, 0, 0⟩) with hb
  have h1 : b.dot ki = 0 := by
    have h2 := norm_dot (ki.cross ⟨q0x, 0, 0⟩) ki (by simp only [V3.dot, V3.cross]; ring)
    have : b.dot ki = length ki * Real.sin (2 * θ) * (McStas.norm (ki.cross ⟨q0x, 0, 0⟩)).dot ki := by
      simp only [hb, V3.dot, V3.smul_x, V3.smul_y, V3.smul_z]; ring
    rw [this, h2, mul_zero]
  have h2 : b.dot b = (length ki * Real.sin (2 * θ)) ^ 2 := by
    have h3 := norm_unit hc
    have : b.dot b = (length ki * Real.sin (2 * θ)) ^ 2 * (McStas.norm (ki.cross ⟨q0x, 0, 0⟩)).dot (McStas.norm (ki.cross ⟨q0x, 0, 0⟩)) := by
      simp only [hb, V3.dot, V3.smul_x, V3.smul_y, V3.smul_z]; ring
    rw [this, h3, mul_one]
  obtain ⟨c1, c2⟩ := cone hl hll h1 h2 (s * g)
  exact ⟨_, rfl, c1, by rw [hll]; exact c2⟩

/-- the cases of the monochromator -/
theorem mono_cases {m : Mono} (hQ : 0 < m.Q) (fuel : Nat) (u g : ℝ) {e : Event ℝ} {s : ℝ}
    (hv : e.v.x ≠ 0) (hs : 0 ≤ s) (hx : (flown Off e s).r.x = 0) (h1 : m.zmin < (flown Off e s).r.z) (h2 : (flown Off e s).r.z < m.zmax)
    (h3 : m.ymin < (flown Off e s).r.y) (h4 : (flown Off e s).r.y < m.ymax) :
    mono m fuel u g e = if monoOrder m.Q (length (V2K • e.v)) (-2 * (V2K • e.v).x / m.Q) > 0 then
      match m.peak (V2K • e.v).y (V2K • e.v).z (Real.arcsin (|(V2K • e.v).x| / length (V2K • e.v)) -
        Real.arcsin (monoOrder m.Q (length (V2K • e.v)) (-2 * (V2K • e.v).x / m.Q) * m.Q / (2 * length (V2K • e.v)))) with
      | none => some (e, some 1)
      | some pr => if u < pr then
          (m.reflect fuel g (length (V2K • e.v)) (if -2 * (V2K • e.v).x / m.Q < 0 then
              -(monoOrder m.Q (length (V2K • e.v)) (-2 * (V2K • e.v).x / m.Q) * m.Q) else
              monoOrder m.Q (length (V2K • e.v)) (-2 * (V2K • e.v).x / m.Q) * m.Q)
            (Real.arcsin (monoOrder m.Q (length (V2K • e.v)) (-2 * (V2K • e.v).x / m.Q) * m.Q / (2 * length (V2K • e.v)))) (V2K • e.v)
            ((1 / length (V2K • e.v)) • (V2K • e.v))).map fun vf => ({ flown Off e s with v := vf.1 }, vf.2)
          else some (e, some 1)
      else some (e, some 1) := by
  have hs' : s = -e.r.x / e.v.x := by
    rw [off_r] at hx; simp only [V3.add_x, V3.smul_x] at hx
    rw [eq_div_iff hv]; linarith
  have hr : (flown Off e s).r = ⟨0, e.r.y + e.v.y * s, e.r.z + e.v.z * s⟩ := by
    rw [off_r] at hx ⊢
    ext
    · exact hx
    · simp only [V3.add_y, V3.smul_y]; ring
    · simp only [V3.add_z, V3.smul_z]; ring
  have hf : ∀ v, ({ flown Off e s with v := v } : Event ℝ) = ⟨⟨0, e.r.y + e.v.y * s, e.r.z + e.v.z * s⟩, v, e.s1, e.s2, e.t + s, e.p⟩ := by
    intro v
    calc ({ flown Off e s with v := v } : Event ℝ) = { flown Off e s with r := (flown Off e s).r, v := v } := rfl
      _ = _ := by rw [hr]; rfl
  rw [hr] at h1 h2 h3 h4
  have hlen : √((V2K • e.v).x * (V2K • e.v).x + (V2K • e.v).y * (V2K • e.v).y + (V2K • e.v).z * (V2K • e.v).z) = length (V2K • e.v) := rfl
  have h0 : V2K • e.v ≠ 0 := by
    intro h
    have := congrArg V3.x h
    simp only [V3.smul_x, V3.zero_x, mul_eq_zero, hv, or_false] at this
    norm_num [V2K] at this
  have hl := length_pos h0
  have hxl := x_le (V2K • e.v)
  unfold mono
  rw [if_pos ⟨hv, hs' ▸ hs⟩]
  simp only
  rw [← hs', if_pos ⟨h1, h2, h3, h4⟩, divD_ok hQ.ne']
  simp only [Option.bind_eq_bind, Option.bind_some, hlen]
  set n := monoOrder m.Q (length (V2K • e.v)) (-2 * (V2K • e.v).x / m.Q) with hn
  by_cases hpos : n > 0
  · rw [if_pos hpos, if_pos hpos]
    have hq : n * m.Q / (2 * length (V2K • e.v)) ≤ 1 ∧ 0 ≤ n * m.Q / (2 * length (V2K • e.v)) := by
      have hn0 : (0:ℝ) < n := by exact_mod_cast hpos
      refine ⟨?_, by positivity⟩
      rw [div_le_one (by positivity)]
      rcases monoOrder_nearest hQ hxl with ⟨n', hn', hn2⟩ | ⟨h, -⟩
      · rw [← hn] at hn2
        have := hn'.2.1
        rw [hn2]; exact_mod_cast this
      · rw [← hn] at h; omega
    have : Powder.asinD (n * m.Q / (2 * length (V2K • e.v))) = some (Real.arcsin (n * m.Q / (2 * length (V2K • e.v)))) := by
      unfold Powder.asinD
      rw [if_neg]
      rintro (h | h) <;> linarith [hq.1, hq.2]
    rw [this]
    simp only [Option.bind_some]
    have habs : |((1 / length (V2K • e.v)) • (V2K • e.v)).x| = |(V2K • e.v).x| / length (V2K • e.v) := by
      rw [V3.smul_x, abs_mul, abs_of_pos (by positivity)]; ring
    rw [habs]
    generalize m.peak _ _ _ = pk
    cases pk with
    | none => rfl
    | some pr =>
      simp only
      split
      · cases m.reflect fuel g (length (V2K • e.v)) (if -2 * (V2K • e.v).x / m.Q < 0 then -(n * m.Q) else n * m.Q)
            (Real.arcsin (n * m.Q / (2 * length (V2K • e.v)))) (V2K • e.v) ((1 / length (V2K • e.v)) • (V2K • e.v)) with
        | none => rfl
        | some vf => simp only [Option.bind_some, Option.map_some, hf]
      · rfl
  · rw [if_neg hpos, if_neg hpos]

/-- in the middle of the distribution of the directions and at the angle of Bragg the reflection is specular -/
theorem reflect_specular {m : Mono} {fuel : Nat} {ki : V3 ℝ} (hk : ki.y ^ 2 + ki.z ^ 2 ≠ 0) (hx : ki.x ≠ 0) {v : V3 ℝ} {f : Option ℝ}
    (h : m.reflect fuel 0 (length ki) (-2 * ki.x) (Real.arcsin (|ki.x| / length ki)) ki ((1 / length ki) • ki) = some (v, f)) :
    v = K2V • (⟨-ki.x, ki.y, ki.z⟩ : V3 ℝ) := by
  have h0 : ki ≠ 0 := by rintro rfl; simp at hk
  have hl := length_pos h0
  have hll : ki.x ^ 2 + ki.y ^ 2 + ki.z ^ 2 = length ki ^ 2 := by rw [sq (length ki), length_mul_self]; simp only [V3.dot]; ring
  set k := length ki with hkdef
  have hρ : 0 < ki.y ^ 2 + ki.z ^ 2 := lt_of_le_of_ne (by positivity) (Ne.symm hk)
  set ρ := √(ki.y ^ 2 + ki.z ^ 2) with hρd
  have hρ2 : ρ ^ 2 = ki.y ^ 2 + ki.z ^ 2 := Real.sq_sqrt hρ.le
  have hρ0 : 0 < ρ := Real.sqrt_pos.2 hρ
  have hxa : 0 < |ki.x| := abs_pos.2 hx
  have hx2 : |ki.x| ^ 2 = ki.x ^ 2 := sq_abs _
  have hsin : Real.sin (Real.arcsin (|ki.x| / k)) = |ki.x| / k := by
    apply Real.sin_arcsin
    · have : 0 ≤ |ki.x| / k := by positivity
      linarith
    · rw [div_le_one hl]; exact x_le ki
  have hcos : Real.cos (Real.arcsin (|ki.x| / k)) = ρ / k := by
    rw [Real.cos_arcsin]
    have : 1 - (|ki.x| / k) ^ 2 = (ρ / k) ^ 2 := by
      rw [div_pow, div_pow, hx2, hρ2]; field_simp; linarith
    rw [this, Real.sqrt_sq (by positivity)]
  have hs2 : Real.sin (2 * Real.arcsin (|ki.x| / k)) = 2 * |ki.x| * ρ / k ^ 2 := by rw [Real.sin_two_mul, hsin, hcos]; field_simp
  have hc2 : Real.cos (2 * Real.arcsin (|ki.x| / k)) - 1 = -2 * ki.x ^ 2 / k ^ 2 := by
    rw [Real.cos_two_mul', hsin, hcos, div_pow, div_pow, hx2, hρ2]; field_simp; linarith
  have hc : ki.cross ⟨-2 * ki.x, 0, 0⟩ ≠ 0 := by
    intro hc
    have h1 := congrArg V3.y hc
    have h2 := congrArg V3.z hc
    simp only [V3.cross, V3.zero_y, V3.zero_z, mul_zero, sub_zero, zero_sub, neg_eq_zero, mul_eq_zero, hx, or_false] at h1 h2
    apply hk
    rcases h1 with h1 | h1 <;> rcases h2 with h2 | h2 <;> first | (norm_num at h1; done) | (norm_num at h2; done) | (rw [h1, h2]; ring)
  have hlen : length (ki.cross ⟨-2 * ki.x, 0, 0⟩) = 2 * |ki.x| * ρ := by
    rw [length_eq]
    have : (ki.cross ⟨-2 * ki.x, 0, 0⟩).dot (ki.cross ⟨-2 * ki.x, 0, 0⟩) = (2 * |ki.x| * ρ) ^ 2 := by
      rw [mul_pow, mul_pow, hx2, hρ2]; simp only [V3.dot, V3.cross]; ring
    rw [this, Real.sqrt_sq (by positivity)]
  have hb : (k * Real.sin (2 * Real.arcsin (|ki.x| / k))) • McStas.norm (ki.cross ⟨-2 * ki.x, 0, 0⟩) =
      (2 * ki.x / k) • (⟨0, -ki.z, ki.y⟩ : V3 ℝ) := by
    rw [McStas.norm_eq hc, hlen, hs2]
    ext
    · simp [V3.cross]
    · simp only [V3.smul_y, V3.cross]; field_simp; ring
    · simp only [V3.smul_z, V3.cross]; field_simp; ring
  unfold Mono.reflect at h
  rw [hb, hc2] at h
  simp only [Option.bind_eq_bind, Option.bind_eq_some_iff, Option.some.injEq, Prod.mk.injEq] at h
  obtain ⟨s, -, rfl, -⟩ := h
  congr 1
  simp only [onCone, mul_zero, Real.cos_zero, Real.sin_zero]
  have hk2 : k ^ 2 ≠ 0 := by positivity
  ext
  · simp only [V3.add_x, V3.smul_x, V3.cross, V3.smul_y, V3.smul_z]; field_simp; linear_combination (-2) * hll
  · simp only [V3.add_y, V3.smul_x, V3.cross, V3.smul_y, V3.smul_z]; field_simp; ring
  · simp only [V3.add_z, V3.smul_x, V3.cross, V3.smul_y, V3.smul_z]; field_simp; ring

end Verif.McGuide
