import Verif.Spec.McStas
import Verif.Lemmas.Sampling
import Mathlib.Analysis.SpecialFunctions.Integrals.Basic
/-!
Helper lemmas for the library of the McStas components.
-/

namespace Verif.McStas
open Solid Flight Homog Kinem

theorem flown_x (G : Gravity) (e : Event ℝ) (s : ℝ) :
    (flown G e s).r.x = e.r.x + s * e.v.x + s ^ 2 / 2 * (accel G).x := rfl
theorem flown_z (G : Gravity) (e : Event ℝ) (s : ℝ) :
    (flown G e s).r.z = e.r.z + s * e.v.z + s ^ 2 / 2 * (accel G).z := rfl

theorem propDtFree_eq {G : Gravity} (hG : G.on = false) (dt : ℝ) (e : Event ℝ) : propDtFree dt e = flown G e dt := by
  unfold propDtFree flown accel
  rw [hG]
  ext <;> simp only [V3.add_x, V3.add_y, V3.add_z, V3.smul_x, V3.smul_y, V3.smul_z, V3.zero_x, V3.zero_y, V3.zero_z,
    Bool.false_eq_true, if_false] <;> ring

theorem propDtGrav_eq {G : Gravity} (hG : G.on = true) (dt : ℝ) (e : Event ℝ) : propDtGrav dt G.g e = flown G e dt := by
  unfold propDtGrav flown accel
  rw [hG]
  ext <;> simp only [V3.add_x, V3.add_y, V3.add_z, V3.smul_x, V3.smul_y, V3.smul_z, if_true] <;> ring

/-- the two roots of a quadratic equation -/
theorem quadratic {A B C : ℝ} (hA : A ≠ 0) (hD : 0 ≤ B * B - 4 * A * C) :
    let t1 := (-B + √(B * B - 4 * A * C)) / 2 / A
    let t2 := (-B - √(B * B - 4 * A * C)) / 2 / A
    B = -A * (t1 + t2) ∧ C = A * (t1 * t2) := by
  have h := Real.mul_self_sqrt hD
  generalize √(B * B - 4 * A * C) = S at h
  intro t1 t2
  constructor
  · simp only [t1, t2]; field_simp; ring
  · simp only [t1, t2]; field_simp; linear_combination h

theorem near_root {t1 t2 d : ℝ} (hd : d * (t1 + t2) = t1 * t2) (h1 : 0 ≤ t1) (h12 : t1 < t2) : |d - t1| < |d - t2| := by
  have : d ≤ t1 := by
    by_contra hc
    push Not at hc
    nlinarith [mul_nonneg h1 h1]
  rw [abs_of_nonpos (by linarith), abs_of_nonpos (by linarith)]
  linarith

theorem near_root' {t1 t2 d : ℝ} (hd : d * (t1 + t2) = t1 * t2) (h0 : 0 < d) (h1 : 0 < t1) (h2 : t2 < 0) :
    |d - t1| < |d - t2| := by
  have : t1 ≤ d := by
    by_contra hc
    push Not at hc
    have : t1 + t2 < 0 := by
      by_contra hc'
      push Not at hc'
      have := mul_nonneg h0.le hc'
      nlinarith [mul_pos h1 (neg_pos.2 h2)]
    nlinarith [mul_pos h0 h1, mul_pos h1 (neg_pos.2 h2)]
  rw [abs_of_nonneg (by linarith), abs_of_nonneg (by linarith)]
  linarith

/-- the time found is the first one -/
theorem plane_some {A B C s : ℝ} (hA : A = 0 ∨ 1e-10 ≤ |A|) (h : planeGfast A B C = some s) (hs : 0 < s) :
    A * s ^ 2 + B * s + C = 0 ∧ ∀ s', 0 ≤ s' → s' < s → A * s' ^ 2 + B * s' + C ≠ 0 := by
  unfold planeGfast at h
  rcases hA with rfl | hA
  · rw [if_pos (by rw [abs_zero]; norm_num)] at h
    split at h
    · next hB =>
      obtain rfl := Option.some.inj h
      refine ⟨by field_simp; ring, fun s' _ h2 h3 => ?_⟩
      have : s' = -C / B := by field_simp; linarith
      exact absurd h2 (by rw [this]; exact lt_irrefl _)
    · exact absurd h (by simp)
  · have hA0 : A ≠ 0 := by rintro rfl; rw [abs_zero] at hA; norm_num at hA
    rw [if_neg (not_lt.2 hA)] at h
    simp only at h
    split at h
    swap
    · exact absurd h (by simp)
    next hD =>
    have hq := quadratic hA0 hD
    simp only at hq
    generalize (-B + √(B * B - 4 * A * C)) / 2 / A = t1 at h hq
    generalize (-B - √(B * B - 4 * A * C)) / 2 / A = t2 at h hq
    obtain ⟨hB, hC⟩ := hq
    have hf : ∀ x, A * x ^ 2 + B * x + C = A * ((x - t1) * (x - t2)) := by
      intro x; rw [hB, hC]; ring
    have hz : ∀ x, A * x ^ 2 + B * x + C = 0 → x = t1 ∨ x = t2 := by
      intro x hx
      rw [hf] at hx
      rcases mul_eq_zero.1 hx with h | h
      · exact absurd h hA0
      · rcases mul_eq_zero.1 h with h | h
        · left; linarith
        · right; linarith
    split at h
    · next hB0 =>
      have hd : (-C / B) * (t1 + t2) = t1 * t2 := by
        have h12 : t1 + t2 ≠ 0 := by intro h0; rw [h0] at hB; simp at hB; exact hB0 hB
        rw [hB, hC]; field_simp
      split at h <;> obtain rfl := Option.some.inj h
      · next hn =>
        refine ⟨by rw [hf]; ring, fun s' h1 h2 h3 => ?_⟩
        rcases hz s' h3 with rfl | rfl
        · exact lt_irrefl _ h2
        · have := near_root (d := -C / B) (by rw [add_comm, mul_comm s']; exact hd) h1 h2
          linarith
      · next hn =>
        refine ⟨by rw [hf]; ring, fun s' h1 h2 h3 => ?_⟩
        rcases hz s' h3 with rfl | rfl
        · exact hn (near_root hd h1 h2)
        · exact lt_irrefl _ h2
    · next hB0 =>
      push Not at hB0
      have h12 : t1 + t2 = 0 := by
        rw [hB0] at hB
        rcases mul_eq_zero.1 hB.symm with h | h
        · exact absurd (neg_eq_zero.1 h) hA0
        · exact h
      split at h <;> obtain rfl := Option.some.inj h <;> · exfalso; linarith

/-- if the straight flight leads to the plane, the first time is found -/
theorem plane_ok {A B C s : ℝ} (hA : A = 0 ∨ 1e-10 ≤ |A|) (hBC : B * C < 0) (hs : 0 ≤ s)
    (h1 : A * s ^ 2 + B * s + C = 0) (h2 : ∀ s', 0 ≤ s' → s' < s → A * s' ^ 2 + B * s' + C ≠ 0) :
    planeGfast A B C = some s ∧ 0 < s := by
  have hB : B ≠ 0 := by rintro rfl; simp at hBC
  have hC : C ≠ 0 := by rintro rfl; simp at hBC
  have hs0 : 0 < s := by
    rcases hs.lt_or_eq with h | h
    · exact h
    · rw [← h] at h1; simp at h1; exact absurd h1 hC
  refine ⟨?_, hs0⟩
  unfold planeGfast
  rcases hA with rfl | hA
  · rw [if_pos (by rw [abs_zero]; norm_num), if_pos hB]
    congr 1
    field_simp
    linarith
  · have hA0 : A ≠ 0 := by rintro rfl; rw [abs_zero] at hA; norm_num at hA
    rw [if_neg (not_lt.2 hA)]
    have hD : B * B - 4 * A * C ≥ 0 := by
      have : B * B - 4 * A * C = (2 * A * s + B) ^ 2 := by linear_combination (-4 * A) * h1
      rw [this]; positivity
    simp only
    rw [if_pos hD, if_pos hB]
    have hq := quadratic hA0 hD
    simp only at hq
    generalize (-B + √(B * B - 4 * A * C)) / 2 / A = t1 at hq
    generalize (-B - √(B * B - 4 * A * C)) / 2 / A = t2 at hq
    obtain ⟨hB', hC'⟩ := hq
    have hf : ∀ x, A * x ^ 2 + B * x + C = A * ((x - t1) * (x - t2)) := by
      intro x; rw [hB', hC']; ring
    have hd : (-C / B) * (t1 + t2) = t1 * t2 := by
      have h12 : t1 + t2 ≠ 0 := by intro h0; rw [h0] at hB'; simp at hB'; exact hB hB'
      rw [hB', hC']; field_simp
    have hd0 : 0 < -C / B := by
      have : -C / B = (-(B * C)) / (B * B) := by field_simp
      rw [this]; exact div_pos (neg_pos.2 hBC) (mul_self_pos.2 hB)
    have hr : s = t1 ∨ s = t2 := by
      rw [hf] at h1
      rcases mul_eq_zero.1 h1 with h | h
      · exact absurd h hA0
      · rcases mul_eq_zero.1 h with h | h
        · left; linarith
        · right; linarith
    generalize -C / B = d at hd hd0
    rcases hr with rfl | rfl
    · by_cases hn : |d - s| < |d - t2|
      · rw [if_pos hn]
      · rw [if_neg hn]
        congr 1
        by_contra hne
        rcases lt_trichotomy t2 s with h | h | h
        · rcases le_or_gt 0 t2 with h0 | h0
          · exact h2 t2 h0 h (by rw [hf]; ring)
          · exact hn (near_root' hd hd0 hs0 h0)
        · exact hne h
        · exact hn (near_root hd hs0.le h)
    · by_cases hn : |d - t1| < |d - s|
      · rw [if_pos hn]
        congr 1
        by_contra hne
        have hd' : d * (s + t1) = s * t1 := by rw [add_comm, mul_comm s]; exact hd
        rcases lt_trichotomy t1 s with h | h | h
        · rcases le_or_gt 0 t1 with h0 | h0
          · exact h2 t1 h0 h (by rw [hf]; ring)
          · exact absurd hn (not_lt.2 (near_root' hd' hd0 hs0 h0).le)
        · exact hne h
        · exact absurd hn (not_lt.2 (near_root hd' hs0.le h).le)
      · rw [if_neg hn]

theorem accel_on {G : Gravity} (h : G.on = true) : accel G = G.g := by unfold accel; rw [h]; rfl
theorem accel_off {G : Gravity} (h : G.on = false) : accel G = 0 := by unfold accel; rw [h]; rfl

theorem half_big {a : ℝ} (h : a = 0 ∨ 2e-10 ≤ |a|) : -a / 2 = 0 ∨ 1e-10 ≤ |-a / 2| := by
  rcases h with h | h
  · left; rw [h]; simp
  · right; rw [abs_div, abs_neg, abs_two]; norm_num at h ⊢; linarith

/-- the two functions with gravity have the same form -/
theorem grav_sound {G : Gravity} {e : Event ℝ} {a w q : ℝ} (c : V3 ℝ → ℝ) (hc : ∀ s, c (flown G e s).r = q + s * w + s ^ 2 / 2 * a)
    (ha : a = 0 ∨ 2e-10 ≤ |a|) {s : ℝ} (h : planeGfast (-a / 2) (-w) (-q) = some s) (hs : 0 < s) : Arrives c G e s := by
  obtain ⟨h1, h2⟩ := plane_some (half_big ha) h hs
  refine ⟨hs.le, ?_, fun s' h3 h4 h5 => h2 s' h3 h4 ?_⟩
  · rw [hc]; linarith
  · rw [hc] at h5; linarith

theorem grav_complete {G : Gravity} {e : Event ℝ} {a w q : ℝ} (c : V3 ℝ → ℝ) (hc : ∀ s, c (flown G e s).r = q + s * w + s ^ 2 / 2 * a)
    (ha : a = 0 ∨ 2e-10 ≤ |a|) (hq : q * w < 0) {s : ℝ} (h : Arrives c G e s) :
    planeGfast (-a / 2) (-w) (-q) = some s ∧ 0 < s := by
  obtain ⟨h0, h1, h2⟩ := h
  refine plane_ok (half_big ha) (by linarith) h0 ?_ (fun s' h3 h4 h5 => h2 s' h3 h4 ?_)
  · rw [hc] at h1; linarith
  · rw [hc]; linarith

/-- a neutron that flies away from the plane or is on it is not found -/
theorem plane_away {A B C s : ℝ} (hBC : 0 ≤ B * C) (hA : A = 0 ∨ 1e-10 ≤ |A|) (h : planeGfast A B C = some s) : s ≤ 0 := by
  by_contra hs
  push Not at hs
  unfold planeGfast at h
  rcases hA with rfl | hA
  · rw [if_pos (by rw [abs_zero]; norm_num)] at h
    split at h
    · next hB =>
      obtain rfl := Option.some.inj h
      have : -C / B = -(B * C) / (B * B) := by field_simp
      rw [this] at hs
      have := div_nonpos_of_nonpos_of_nonneg (neg_nonpos.2 hBC) (mul_self_nonneg B)
      linarith
    · exact absurd h (by simp)
  · have hA0 : A ≠ 0 := by rintro rfl; rw [abs_zero] at hA; norm_num at hA
    rw [if_neg (not_lt.2 hA)] at h
    simp only at h
    split at h
    swap
    · exact absurd h (by simp)
    next hD =>
    have hq := quadratic hA0 hD
    simp only at hq
    generalize (-B + √(B * B - 4 * A * C)) / 2 / A = t1 at h hq
    generalize (-B - √(B * B - 4 * A * C)) / 2 / A = t2 at h hq
    obtain ⟨hB, hC⟩ := hq
    have hsum : (t1 + t2) * (t1 * t2) ≤ 0 := by
      have : B * C = -(A * A) * ((t1 + t2) * (t1 * t2)) := by rw [hB, hC]; ring
      rw [this] at hBC
      have := mul_self_pos.2 hA0
      nlinarith
    have key : ∀ {x y d : ℝ}, d * (x + y) = x * y → d ≤ 0 → 0 < x → (x + y) * (x * y) ≤ 0 → ¬ |d - x| < |d - y| ∧
        (|d - x| = |d - y| → False) := by
      intro x y d hd h0 hx hxy
      have hy : y ≤ 0 := by
        by_contra hy
        push Not at hy
        have := mul_pos (add_pos hx hy) (mul_pos hx hy)
        linarith
      have hxy0 : 0 ≤ x + y := by
        by_contra hxy0
        push Not at hxy0
        have h1 : d * (x + y) ≥ 0 := mul_nonneg_of_nonpos_of_nonpos h0 hxy0.le
        have h2 : x * y ≤ 0 := mul_nonpos_of_nonneg_of_nonpos hx.le hy
        have h3 : x * y = 0 := by linarith
        rcases mul_eq_zero.1 h3 with h | h
        · linarith
        · rw [h] at hxy0; linarith
      have : d ≤ y := by
        by_contra hc
        push Not at hc
        rcases hxy0.lt_or_eq with h | h
        · nlinarith [mul_nonneg hxy0 (sub_nonneg.2 hc.le), mul_self_nonneg y]
        · rw [← h, mul_zero] at hd
          rcases mul_eq_zero.1 hd.symm with h' | h'
          · linarith
          · rw [h'] at h; linarith
      rw [abs_of_nonpos (by linarith), abs_of_nonpos (by linarith)]
      constructor <;> intros <;> linarith
    split at h
    · next hB0 =>
      have hd : (-C / B) * (t1 + t2) = t1 * t2 := by
        have h12 : t1 + t2 ≠ 0 := by intro h0; rw [h0] at hB; simp at hB; exact hB0 hB
        rw [hB, hC]; field_simp
      have hd0 : -C / B ≤ 0 := by
        have : -C / B = -(B * C) / (B * B) := by field_simp
        rw [this]
        exact div_nonpos_of_nonpos_of_nonneg (neg_nonpos.2 hBC) (mul_self_nonneg B)
      split at h <;> obtain rfl := Option.some.inj h
      · next hn => exact (key hd hd0 hs hsum).1 hn
      · next hn =>
        have := key (x := t2) (y := t1) (d := -C / B) (by rw [add_comm, mul_comm t2]; exact hd) hd0 hs
          (by rw [add_comm, mul_comm t2]; exact hsum)
        rcases lt_trichotomy (|-C / B - t2|) (|-C / B - t1|) with h | h | h
        · exact this.1 h
        · exact this.2 h
        · exact hn h
    · next hB0 =>
      push Not at hB0
      have h12 : t1 + t2 = 0 := by
        rw [hB0] at hB
        rcases mul_eq_zero.1 hB.symm with h | h
        · exact absurd (neg_eq_zero.1 h) hA0
        · exact h
      split at h <;> obtain rfl := Option.some.inj h <;> linarith

/-! ### rotations -/

theorem norm_eq {a : V3 ℝ} (ha : a ≠ 0) : norm a = (1 / length a) • a := by
  have h := length_pos ha
  have hl : √(a.x * a.x + a.y * a.y + a.z * a.z) = length a := (length_eq a).symm
  unfold norm
  simp only [hl]
  rw [if_pos h.ne']
  ext <;> simp only [V3.smul_x, V3.smul_y, V3.smul_z] <;> ring

theorem norm_unit {a : V3 ℝ} (ha : a ≠ 0) : (norm a).dot (norm a) = 1 := by
  have h := length_pos ha
  have h2 := length_mul_self a
  rw [norm_eq ha]
  simp only [V3.dot, V3.smul_x, V3.smul_y, V3.smul_z] at h2 ⊢
  field_simp
  linarith

theorem norm_zero : norm 0 = 0 := by
  unfold norm
  simp only [V3.zero_x, V3.zero_y, V3.zero_z]
  rw [if_neg (by simp)]

theorem rotate_turned (v : V3 ℝ) (phi : ℝ) (a : V3 ℝ) : rotate v phi a = turned (norm a) phi v := by
  unfold rotate turned
  ext <;> simp only [V3.dot, V3.cross, V3.add_x, V3.add_y, V3.add_z, V3.sub_x, V3.sub_y, V3.sub_z, V3.smul_x, V3.smul_y, V3.smul_z] <;> ring

theorem turned_dot {e : V3 ℝ} (he : e.dot e = 1) (φ : ℝ) (v w : V3 ℝ) : (turned e φ v).dot (turned e φ w) = v.dot w := by
  have hcs := Real.cos_sq_add_sin_sq φ
  unfold turned
  generalize Real.cos φ = C at hcs ⊢
  generalize Real.sin φ = S at hcs ⊢
  simp only [V3.dot, V3.cross, V3.add_x, V3.add_y, V3.add_z, V3.sub_x, V3.sub_y, V3.sub_z, V3.smul_x, V3.smul_y, V3.smul_z] at he ⊢
  linear_combination ((1 - C) ^ 2 * (e.x * v.x + e.y * v.y + e.z * v.z) * (e.x * w.x + e.y * w.y + e.z * w.z) +
    S ^ 2 * (v.x * w.x + v.y * w.y + v.z * w.z)) * he +
    (v.x * w.x + v.y * w.y + v.z * w.z - (e.x * v.x + e.y * v.y + e.z * v.z) * (e.x * w.x + e.y * w.y + e.z * w.z)) * hcs

theorem turned_axis {e : V3 ℝ} (he : e.dot e = 1) (φ : ℝ) (v : V3 ℝ) : e.dot (turned e φ v) = e.dot v := by
  unfold turned
  simp only [V3.dot, V3.cross, V3.add_x, V3.add_y, V3.add_z, V3.sub_x, V3.sub_y, V3.sub_z, V3.smul_x, V3.smul_y, V3.smul_z] at he ⊢
  linear_combination (1 - Real.cos φ) * (e.x * v.x + e.y * v.y + e.z * v.z) * he

theorem turned_add {e : V3 ℝ} (he : e.dot e = 1) (φ ψ : ℝ) (v : V3 ℝ) : turned e φ (turned e ψ v) = turned e (φ + ψ) v := by
  have h1 := turned_axis he ψ v
  unfold turned at h1 ⊢
  rw [h1, Real.cos_add, Real.sin_add]
  generalize Real.cos φ = C
  generalize Real.sin φ = S
  generalize Real.cos ψ = C'
  generalize Real.sin ψ = S'
  simp only [V3.dot] at he ⊢
  ext <;> simp only [V3.cross, V3.add_x, V3.add_y, V3.add_z, V3.sub_x, V3.sub_y, V3.sub_z, V3.smul_x, V3.smul_y, V3.smul_z]
  · linear_combination (-(S * S') * v.x) * he
  · linear_combination (-(S * S') * v.y) * he
  · linear_combination (-(S * S') * v.z) * he


/-! ### directions -/

open Sampling in
/-- two rotations of the target vector: away from the axis and around it -/
theorem rotate_twice {t n : V3 ℝ} (ht : t ≠ 0) (hn : n ≠ 0) (h : t.dot n = 0) (θ φ : ℝ) :
    rotate (rotate t θ (t.cross n)) φ t = Real.cos θ • t + Real.sin θ • (Real.cos φ • ((length t / length n) • n) +
      Real.sin φ • ((1 / length n) • t.cross n)) ∧
    rotate (rotate t φ n) θ (t.cross n) = Real.cos φ • (Real.cos θ • t + Real.sin θ • ((length t / length n) • n)) -
      Real.sin φ • ((1 / length n) • t.cross n) := by
  have hT := length_pos ht
  have hT2 := length_mul_self t
  have hN := length_pos hn
  have hN2 := length_mul_self n
  have hcr : (t.cross n).dot (t.cross n) = (length t * length n) ^ 2 := by
    have : (length t * length n) ^ 2 = t.dot t * n.dot n := by rw [← hT2, ← hN2]; ring
    rw [this]
    simp only [V3.dot, V3.cross] at h ⊢
    linear_combination (-(t.x * n.x + t.y * n.y + t.z * n.z)) * h
  have hcl : length (t.cross n) = length t * length n := by
    rw [length_eq, hcr, Real.sqrt_sq (by positivity)]
  have hcne : t.cross n ≠ 0 := by
    intro h
    rw [h, length_eq] at hcl
    simp only [V3.dot, V3.zero_x, V3.zero_y, V3.zero_z, mul_zero, add_zero, Real.sqrt_zero] at hcl
    exact absurd hcl.symm (by positivity)
  simp only [rotate_turned, norm_eq ht, norm_eq hn, norm_eq hcne, hcl]
  unfold turned
  generalize Real.cos φ = C
  generalize Real.sin φ = S
  generalize Real.cos θ = C'
  generalize Real.sin θ = S'
  obtain ⟨N, hN'⟩ : ∃ N, N = length n := ⟨_, rfl⟩
  obtain ⟨T, hT'⟩ : ∃ T, T = length t := ⟨_, rfl⟩
  rw [← hN'] at hN hN2 ⊢
  rw [← hT'] at hT hT2 ⊢
  have d1 : ((1 / (T * N)) • t.cross n).dot t = 0 := by
    simp only [V3.dot, V3.cross, V3.smul_x, V3.smul_y, V3.smul_z]; ring
  have d2 : ((1 / T) • t).dot t = T := by
    simp only [V3.dot, V3.smul_x, V3.smul_y, V3.smul_z] at hT2 ⊢; field_simp; linarith
  have d3 : ((1 / N) • n).dot t = 0 := by
    simp only [V3.dot, V3.smul_x, V3.smul_y, V3.smul_z] at h ⊢; linear_combination (1 / N) * h
  have x1 : ((1 / (T * N)) • t.cross n).cross t = (T / N) • n := by
    simp only [V3.dot] at h hT2
    ext <;> simp only [V3.cross, V3.smul_x, V3.smul_y, V3.smul_z] <;> field_simp
    · linear_combination (-n.x) * hT2 - t.x * h
    · linear_combination (-n.y) * hT2 - t.y * h
    · linear_combination (-n.z) * hT2 - t.z * h
  have x2 : ((1 / N) • n).cross t = -((1 / N) • t.cross n) := by
    ext <;> simp only [V3.cross, V3.smul_x, V3.smul_y, V3.smul_z, V3.neg_x, V3.neg_y, V3.neg_z] <;> ring
  rw [d1, x1, d3, x2]
  have z0 : ∀ u : V3 ℝ, (0 : ℝ) • u = 0 := by intro u; ext <;> simp
  rw [z0, z0]
  have w1 : (0 : V3 ℝ) + C' • (t - 0) + S' • (T / N) • n = C' • t + S' • (T / N) • n := by
    ext <;> simp
  have w2 : (0 : V3 ℝ) + C • (t - 0) + S • -((1 / N) • t.cross n) = C • t - S • (1 / N) • t.cross n := by
    ext <;> simp <;> ring
  rw [w1, w2]
  constructor
  · have e1 : ((1 / T) • t).dot (C' • t + S' • (T / N) • n) = C' * T := by
      simp only [V3.dot, V3.smul_x, V3.smul_y, V3.smul_z, V3.add_x, V3.add_y, V3.add_z] at h hT2 ⊢
      field_simp
      linear_combination (-(C' * N)) * hT2 + S' * T * h
    have e2 : ((1 / T) • t).cross (C' • t + S' • (T / N) • n) = S' • (1 / N) • t.cross n := by
      ext <;> simp only [V3.cross, V3.smul_x, V3.smul_y, V3.smul_z, V3.add_x, V3.add_y, V3.add_z] <;> field_simp <;> ring
    rw [e1, e2]
    ext <;> simp only [V3.smul_x, V3.smul_y, V3.smul_z, V3.add_x, V3.add_y, V3.add_z, V3.sub_x, V3.sub_y, V3.sub_z] <;>
      field_simp <;> ring
  · have e1 : ((1 / (T * N)) • t.cross n).dot (C • t - S • (1 / N) • t.cross n) = -(S * T) := by
      have : ((1 / (T * N)) • t.cross n).dot (C • t - S • (1 / N) • t.cross n) =
          -(S / (T * N * N)) * (t.cross n).dot (t.cross n) := by
        simp only [V3.dot, V3.cross, V3.smul_x, V3.smul_y, V3.smul_z, V3.sub_x, V3.sub_y, V3.sub_z]; field_simp; ring
      rw [this, hcr, ← hT', ← hN']
      field_simp
    have e2 : ((1 / (T * N)) • t.cross n).cross (C • t - S • (1 / N) • t.cross n) = C • (T / N) • n := by
      rw [← x1]
      ext <;> simp only [V3.cross, V3.smul_x, V3.smul_y, V3.smul_z, V3.sub_x, V3.sub_y, V3.sub_z] <;> field_simp <;> ring
    rw [e1, e2]
    ext <;> simp only [V3.smul_x, V3.smul_y, V3.smul_z, V3.add_x, V3.add_y, V3.add_z, V3.sub_x, V3.sub_y, V3.sub_z] <;>
      field_simp <;> ring

theorem side_eq (t : V3 ℝ) : side t = Sampling.sideOf t := by
  unfold side Sampling.sideOf
  congr

theorem rotApply_eq (m : M3 ℝ) (a : V3 ℝ) : rotApply m a = m.mulVec a := rfl
theorem rotTranspose_eq (m : M3 ℝ) : rotTranspose m = m.transpose := rfl
theorem rotMul_eq (a b : M3 ℝ) : rotMul a b = a.mul b := rfl
theorem rotSet_eq (x y z : ℝ) : rotSet x y z = Frames.toMatrixRad ⟨x, y, z⟩ := rfl

theorem ortho_dot {m : M3 ℝ} (h : Frames.IsOrtho m) (a b : V3 ℝ) : (m.mulVec a).dot (m.mulVec b) = a.dot b := by
  obtain ⟨⟨c0, c1, c2⟩, c3, c4, c5⟩ := h.cols
  simp only [V3.dot, M3.transpose, M3.mulVec] at c0 c1 c2 c3 c4 c5 ⊢
  linear_combination a.x * b.x * c0 + a.y * b.y * c1 + a.z * b.z * c2 + (a.x * b.y + a.y * b.x) * c3 +
    (a.x * b.z + a.z * b.x) * c4 + (a.y * b.z + a.z * b.y) * c5

theorem mulVec_add (m : M3 ℝ) (a b : V3 ℝ) : m.mulVec (a + b) = m.mulVec a + m.mulVec b := by
  ext <;> simp only [M3.mulVec, V3.add_x, V3.add_y, V3.add_z] <;> ring
theorem mulVec_smul (m : M3 ℝ) (k : ℝ) (a : V3 ℝ) : m.mulVec (k • a) = k • m.mulVec a := by
  ext <;> simp only [M3.mulVec, V3.smul_x, V3.smul_y, V3.smul_z] <;> ring
theorem mulVec_sub (m : M3 ℝ) (a b : V3 ℝ) : m.mulVec (a - b) = m.mulVec a - m.mulVec b := by
  ext <;> simp only [M3.mulVec, V3.sub_x, V3.sub_y, V3.sub_z] <;> ring

theorem dot_self_pos {t : V3 ℝ} (ht : t ≠ 0) : 0 < t.dot t := by
  rw [← length_mul_self]; have := length_pos ht; positivity

open Sampling in
theorem targetCircle_eq {t : V3 ℝ} (ht : t ≠ 0) {radius : ℝ} (hr : radius ≠ 0) {u1 : ℝ} (h0 : 0 ≤ u1) (h1 : u1 ≤ 1) (u2 : ℝ) :
    targetCircle t radius u1 u2 = some (around t (acrossA t) (acrossB t) (1 - (1 - edge t radius) * u1) (2 * Real.pi * u2),
      2 * Real.pi * (1 - edge t radius)) := by
  have hdot := dot_self_pos ht
  have hsum : 0 < radius * radius + t.dot t := by nlinarith [mul_self_nonneg radius]
  have hc0 : √(t.dot t / (radius * radius + t.dot t)) = length t / √(t.dot t + radius ^ 2) := by
    rw [Real.sqrt_div hdot.le, length_eq, add_comm (radius * radius), pow_two]
  have hedge : (if radius < 0 then √(t.dot t / (radius * radius + t.dot t)) * -1
      else √(t.dot t / (radius * radius + t.dot t))) = edge t radius := by
    unfold edge
    rw [hc0]
    split <;> ring
  have hc1 : -1 ≤ 1 - (1 - edge t radius) * u1 ∧ 1 - (1 - edge t radius) * u1 ≤ 1 := by
    obtain ⟨a, b⟩ := abs_le.1 (edge_range ht radius)
    constructor <;> nlinarith
  have hd : t.x * t.x + t.y * t.y + t.z * t.z = t.dot t := rfl
  unfold targetCircle
  rw [if_neg hr]
  simp only [Option.bind_eq_bind, hd, divD_ok hsum.ne', Option.bind_some, sqrtD_ok (div_nonneg hdot.le hsum.le), hedge,
    acosD, if_pos hc1]
  obtain ⟨n1, n2⟩ := sideOf_spec (t := t)
  rw [side_eq, (rotate_twice ht n2 n1 _ _).1, Real.cos_arccos hc1.1 hc1.2, Real.sin_arccos]
  rfl

/-- the axis of the full sphere -/
noncomputable def upright (t : V3 ℝ) : V3 ℝ := ⟨0, length t, 0⟩

open Sampling in
theorem upright_spec {t : V3 ℝ} (ht : t ≠ 0) : upright t ≠ 0 ∧ length (upright t) = length t ∧
    Across (upright t) ((length (upright t) / length (⟨1, 0, 0⟩ : V3 ℝ)) • ⟨1, 0, 0⟩)
      ((1 / length (⟨1, 0, 0⟩ : V3 ℝ)) • (upright t).cross ⟨1, 0, 0⟩) := by
  have hT := length_pos ht
  have hx : length (⟨1, 0, 0⟩ : V3 ℝ) = 1 := by rw [length_eq]; simp [V3.dot]
  have hl : length (upright t) = length t := by
    rw [length_eq]; unfold upright; simp only [V3.dot]
    rw [show 0 * 0 + length t * length t + 0 * 0 = length t ^ 2 by ring, Real.sqrt_sq hT.le]
  refine ⟨fun h => ?_, hl, ?_⟩
  · have := congrArg V3.y h
    simp only [upright, V3.zero_y] at this
    exact hT.ne' this
  · rw [hx, hl]
    unfold upright
    refine ⟨?_, ?_, ?_, ?_, ?_⟩ <;> simp only [V3.dot, V3.cross, V3.smul_x, V3.smul_y, V3.smul_z] <;> ring

open Sampling in
theorem targetSphere_eq {t : V3 ℝ} (ht : t ≠ 0) {u1 : ℝ} (h0 : 0 ≤ u1) (h1 : u1 ≤ 1) (u2 : ℝ) :
    targetCircle t 0 u1 u2 = some (around (upright t) ((length (upright t) / length (⟨1, 0, 0⟩ : V3 ℝ)) • ⟨1, 0, 0⟩)
      ((1 / length (⟨1, 0, 0⟩ : V3 ℝ)) • (upright t).cross ⟨1, 0, 0⟩) (1 - 2 * u1) (2 * Real.pi * u2), 4 * Real.pi) := by
  have hc1 : -1 ≤ 1 - 2 * u1 ∧ 1 - 2 * u1 ≤ 1 := by constructor <;> linarith
  have hd : √(t.x * t.x + t.y * t.y + t.z * t.z) = length t := (length_eq t).symm
  unfold targetCircle
  rw [if_pos rfl]
  simp only [Option.bind_eq_bind, hd, Option.bind_some, acosD, if_pos hc1]
  have hx : (⟨1, 0, 0⟩ : V3 ℝ) ≠ 0 := by intro h; have := congrArg V3.x h; norm_num at this
  have := (rotate_twice (n := ⟨1, 0, 0⟩) (upright_spec ht).1 hx (by unfold upright; simp [V3.dot]) (Real.arccos (1 - 2 * u1)) (2 * Real.pi * u2)).1
  rw [Real.cos_arccos hc1.1 hc1.2, Real.sin_arccos] at this
  rw [show (⟨0, length t, 0⟩ : V3 ℝ) = upright t from rfl, this]
  rfl

open Sampling in
/-- a uniform cosine and a uniform azimuth integrate over the cap -/
theorem cap_mean (t a b : V3 ℝ) (c0 : ℝ) (f : V3 ℝ → ℝ) :
    2 * Real.pi * (1 - c0) * mean2 (fun u1 u2 => f (around t a b (1 - (1 - c0) * u1) (2 * Real.pi * u2))) =
      capIntegral t a b c0 f := by
  have h : capIntegral t a b c0 f = ∫ c in (1 : ℝ)..c0, -∫ φ in (0 : ℝ)..2 * Real.pi, f (around t a b c φ) := by
    unfold capIntegral
    rw [intervalIntegral.integral_symm, intervalIntegral.integral_neg]
  rw [h]
  unfold mean2
  rw [← mean_affine, ← mean_mul]
  apply mean_congr
  intro u1 _ _
  rw [← mean_affine, mul_comm (2 * Real.pi), mul_assoc, ← mean_mul]
  rw [show ((c0 - 1) * -mean fun u => (2 * Real.pi - 0) * f (around t a b (1 + u1 * (c0 - 1)) (0 + u * (2 * Real.pi - 0)))) =
    (1 - c0) * mean fun u => (2 * Real.pi - 0) * f (around t a b (1 + u1 * (c0 - 1)) (0 + u * (2 * Real.pi - 0))) by ring]
  congr 1
  apply mean_congr
  intro u2 _ _
  rw [show 0 + u2 * (2 * Real.pi - 0) = 2 * Real.pi * u2 by ring, sub_zero, show 1 + u1 * (c0 - 1) = 1 - (1 - c0) * u1 by ring]

open Sampling in
theorem across_image {m : M3 ℝ} (h : Frames.IsOrtho m) {t a b : V3 ℝ} (hab : Across t a b) :
    Across (m.mulVec t) (m.mulVec a) (m.mulVec b) := by
  obtain ⟨a1, a2, a3, a4, a5⟩ := hab
  refine ⟨?_, ?_, ?_, ?_, ?_⟩ <;> rw [ortho_dot h, ] <;> first | assumption | rw [ortho_dot h]; assumption

open Sampling in
theorem targetAngular_eq {t : V3 ℝ} (ht : t ≠ 0) {m : M3 ℝ} (hm : Frames.IsOrtho m) {width height : ℝ} (hw : width ≠ 0)
    (hh : height ≠ 0) : ∃ a b, Across t a b ∧ ∀ u1 u2, targetAngular t width height m u1 u2 =
      .ok (globe t a b (width * (2 * u1 - 1) / 2) (height * (2 * u2 - 1) / 2), 2 * |width * Real.sin (height / 2)|) := by
  obtain ⟨s, hs⟩ : ∃ s, s = m.transpose.mulVec t := ⟨_, rfl⟩
  have hms : m.mulVec s = t := by rw [hs, mulVec_transpose_mulVec hm]
  have hs0 : s ≠ 0 := by
    rintro rfl
    apply ht
    rw [← hms]
    ext <;> simp [M3.mulVec]
  obtain ⟨n1, n2⟩ := sideOf_spec (t := s)
  refine ⟨m.mulVec (acrossA s), m.mulVec (-acrossB s), ?_, fun u1 u2 => ?_⟩
  · rw [← hms]
    apply across_image hm
    obtain ⟨a1, a2, a3, a4, a5⟩ := across_spec s
    simp only [V3.dot] at a1 a2 a3 a4 a5
    refine ⟨a1, ?_, ?_, a4, ?_⟩ <;> simp only [V3.dot, V3.neg_x, V3.neg_y, V3.neg_z] <;> linarith
  · unfold targetAngular
    rw [if_neg (by simp [hw, hh])]
    simp only [rotApply_eq, rotTranspose_eq, ← hs]
    rw [side_eq, (rotate_twice hs0 n2 n1 _ _).2]
    congr 2
    unfold globe acrossA acrossB
    rw [← hms]
    simp only [mulVec_sub, mulVec_add, mulVec_smul]
    ext <;> simp only [V3.smul_x, V3.smul_y, V3.smul_z, V3.add_x, V3.add_y, V3.add_z, V3.sub_x, V3.sub_y, V3.sub_z, M3.mulVec, V3.neg_x, V3.neg_y, V3.neg_z] <;> ring

/-- the two axes of the rectangle in the frame of the component -/
theorem targetRect_eq {t : V3 ℝ} {m : M3 ℝ} (hm : Frames.IsOrtho m) (hv : t.cross (m.mulVec ⟨0, 1, 0⟩) ≠ 0)
    {width height : ℝ} (hw : width ≠ 0) (hh : height ≠ 0) :
    ∃ n k : V3 ℝ, n.dot n = 1 ∧ k.dot k = 1 ∧ n.dot t = 0 ∧ k.dot t = 0 ∧ n.dot k = 0 ∧ n.dot (m.mulVec ⟨0, 1, 0⟩) = 0 ∧
      ∀ u1 u2, targetRect t width height m u1 u2 =
        some (t + (width * (2 * u1 - 1) / 2) • n + (height * (2 * u2 - 1) / 2) • k,
          width * height * length t / length (t + (width * (2 * u1 - 1) / 2) • n + (height * (2 * u2 - 1) / 2) • k) ^ 3) := by
  obtain ⟨s, hs⟩ : ∃ s, s = m.transpose.mulVec t := ⟨_, rfl⟩
  have hms : m.mulVec s = t := by rw [hs, mulVec_transpose_mulVec hm]
  have hn0 : s.cross ⟨0, 1, 0⟩ ≠ 0 := by
    intro h
    have hx := congrArg V3.x h
    have hz := congrArg V3.z h
    simp [V3.cross] at hx hz
    apply hv
    rw [← hms]
    ext <;> simp [V3.cross, M3.mulVec, hx, hz] <;> ring
  have hs0 : s ≠ 0 := by
    rintro h
    apply hn0
    rw [h]
    ext <;> simp [V3.cross]
  have hsl := length_pos hs0
  have hsl2 := length_mul_self s
  have ht0 : t.dot t = s.dot s := by rw [← hms, ortho_dot hm]
  have htl : length t = length s := by rw [length_eq, length_eq, ht0]
  have hnl := length_pos hn0
  have hnl2 := length_mul_self (s.cross ⟨0, 1, 0⟩)
  obtain ⟨n, hn⟩ : ∃ n, n = (1 / length (s.cross ⟨0, 1, 0⟩)) • s.cross ⟨0, 1, 0⟩ := ⟨_, rfl⟩
  have n1 : n.dot n = 1 := by
    rw [hn]
    simp only [V3.dot, V3.smul_x, V3.smul_y, V3.smul_z] at hnl2 ⊢
    field_simp
    linarith
  have n2 : n.dot s = 0 := by
    rw [hn]; simp only [V3.dot, V3.cross, V3.smul_x, V3.smul_y, V3.smul_z]; ring
  have n3 : n.dot ⟨0, 1, 0⟩ = 0 := by
    rw [hn]; simp only [V3.dot, V3.cross, V3.smul_x, V3.smul_y, V3.smul_z]; ring
  have hk2 : (s.cross n).dot (s.cross n) = length s ^ 2 := by
    rw [pow_two, hsl2]
    simp only [V3.dot, V3.cross] at n1 n2 ⊢
    linear_combination (s.x * s.x + s.y * s.y + s.z * s.z) * n1 - (n.x * s.x + n.y * s.y + n.z * s.z) * n2
  have hkl : length (s.cross n) = length s := by rw [length_eq, hk2, Real.sqrt_sq hsl.le]
  obtain ⟨k, hk⟩ : ∃ k, k = (1 / length s) • s.cross n := ⟨_, rfl⟩
  have k1 : k.dot k = 1 := by
    rw [hk]
    have : ((1 / length s) • s.cross n).dot ((1 / length s) • s.cross n) = (1 / length s) ^ 2 * (s.cross n).dot (s.cross n) := by
      simp only [V3.dot, V3.smul_x, V3.smul_y, V3.smul_z]; ring
    rw [this, hk2]
    field_simp
  have k2 : k.dot s = 0 := by
    rw [hk]; simp only [V3.dot, V3.cross, V3.smul_x, V3.smul_y, V3.smul_z]; ring
  have k3 : n.dot k = 0 := by
    rw [hk]; simp only [V3.dot, V3.cross, V3.smul_x, V3.smul_y, V3.smul_z]; ring
  refine ⟨m.mulVec n, m.mulVec k, by rw [ortho_dot hm, n1], by rw [ortho_dot hm, k1], by rw [← hms, ortho_dot hm, n2],
    by rw [← hms, ortho_dot hm, k2], by rw [ortho_dot hm, k3], by rw [ortho_dot hm, n3], fun u1 u2 => ?_⟩
  obtain ⟨x, hx⟩ : ∃ x, x = width * (2 * u1 - 1) / 2 := ⟨_, rfl⟩
  obtain ⟨y, hy⟩ : ∃ y, y = height * (2 * u2 - 1) / 2 := ⟨_, rfl⟩
  have ho : t + x • m.mulVec n + y • m.mulVec k = m.mulVec (s + x • n + y • k) := by
    rw [mulVec_add, mulVec_add, mulVec_smul, mulVec_smul, hms]
  have hl2 : (s + x • n + y • k).dot (s + x • n + y • k) = x * x + y * y + length s * length s := by
    rw [hsl2]
    simp only [V3.dot, V3.add_x, V3.add_y, V3.add_z, V3.smul_x, V3.smul_y, V3.smul_z] at n1 n2 k1 k2 k3 ⊢
    linear_combination x ^ 2 * n1 + y ^ 2 * k1 + 2 * x * n2 + 2 * y * k2 + 2 * x * y * k3
  have hl : √(x * x + y * y + length s * length s) = length (m.mulVec (s + x • n + y • k)) := by
    rw [length_eq (m.mulVec _), ortho_dot hm, hl2]
  have hpos : 0 < length (m.mulVec (s + x • n + y • k)) := by
    rw [← hl, Real.sqrt_pos]
    nlinarith [mul_self_nonneg x, mul_self_nonneg y, mul_pos hsl hsl]
  have hd : ∀ v : V3 ℝ, √(v.x * v.x + v.y * v.y + v.z * v.z) = length v := fun v => (length_eq v).symm
  have hn' : (⟨(s.cross ⟨0, 1, 0⟩).x / length (s.cross ⟨0, 1, 0⟩), (s.cross ⟨0, 1, 0⟩).y / length (s.cross ⟨0, 1, 0⟩),
      (s.cross ⟨0, 1, 0⟩).z / length (s.cross ⟨0, 1, 0⟩)⟩ : V3 ℝ) = n := by
    rw [hn]; ext <;> simp only [V3.smul_x, V3.smul_y, V3.smul_z] <;> ring
  have hk' : (⟨(s.cross n).x / length s, (s.cross n).y / length s, (s.cross n).z / length s⟩ : V3 ℝ) = k := by
    rw [hk]; ext <;> simp only [V3.smul_x, V3.smul_y, V3.smul_z] <;> ring
  unfold targetRect
  rw [if_neg (by simp [hw, hh])]
  simp only [rotApply_eq, rotTranspose_eq, ← hs, Option.bind_eq_bind, hd, divD_ok hnl.ne', Option.bind_some, hn', hkl,
    divD_ok hsl.ne', ← hx, ← hy]
  rw [htl, hl, divD_ok (by positivity), Option.bind_some, ho]
  rw [show length (m.mulVec (s + x • n + y • k)) * length (m.mulVec (s + x • n + y • k)) * length (m.mulVec (s + x • n + y • k)) =
    length (m.mulVec (s + x • n + y • k)) ^ 3 by ring]
  congr 3
  · rw [← hk', hn]
    ext <;> simp only [V3.add_x, V3.add_y, V3.add_z, V3.smul_x, V3.smul_y, V3.smul_z] <;> ring

theorem globe_one (t a b : V3 ℝ) (width height : ℝ) :
    globeIntegral t a b width height (fun _ => 1) = 2 * (width * Real.sin (height / 2)) := by
  unfold globeIntegral
  simp only [mul_one, integral_cos, intervalIntegral.integral_const, smul_eq_mul]
  rw [show -height / 2 = -(height / 2) by ring, Real.sin_neg]
  ring

/-! ### intersections -/

theorem quad_le {A B C : ℝ} (hA : 0 < A) (hD : 0 ≤ B * B - 4 * A * C) (s : ℝ) :
    A * s ^ 2 + B * s + C ≤ 0 ↔ (-B - √(B * B - 4 * A * C)) / (2 * A) ≤ s ∧ s ≤ (-B + √(B * B - 4 * A * C)) / (2 * A) := by
  have hq := Real.mul_self_sqrt hD
  have hq0 := Real.sqrt_nonneg (B * B - 4 * A * C)
  generalize √(B * B - 4 * A * C) = q at hq hq0 ⊢
  rw [div_le_iff₀ (by linarith), le_div_iff₀ (by linarith)]
  have e : 4 * A * (A * s ^ 2 + B * s + C) = (2 * A * s + B) ^ 2 - q ^ 2 := by linear_combination hq
  have h : A * s ^ 2 + B * s + C ≤ 0 ↔ (2 * A * s + B) ^ 2 ≤ q ^ 2 := by
    constructor
    · intro h; nlinarith
    · intro h; by_contra hc; push Not at hc; nlinarith [mul_pos hA hc]
  rw [h, sq_le_sq, abs_of_nonneg hq0, abs_le]
  constructor <;> rintro ⟨h1, h2⟩ <;> constructor <;> linarith

theorem quad_pos {A B C : ℝ} (hA : 0 < A) (hD : B * B - 4 * A * C < 0) (s : ℝ) : 0 < A * s ^ 2 + B * s + C := by
  have e : 4 * A * (A * s ^ 2 + B * s + C) = (2 * A * s + B) ^ 2 - (B * B - 4 * A * C) := by ring
  by_contra hc
  push Not at hc
  nlinarith [mul_nonneg hA.le (neg_nonneg.2 hc), sq_nonneg (2 * A * s + B)]

theorem quad_order {A B D : ℝ} (hA : 0 < A) : (-B - √D) / (2 * A) ≤ (-B + √D) / (2 * A) := by
  have := Real.sqrt_nonneg D
  gcongr
  linarith

/-- the part of a time interval in which a linear function of time is in a range -/
theorem clip {vy py h tin tout : ℝ} (hh : 0 ≤ h) (ht : tin ≤ tout) (s : ℝ) :
    let yin := vy * tin + py
    let yout := vy * tout + py
    ((yin > h / 2 ∧ yout > h / 2 ∨ yin < -h / 2 ∧ yout < -h / 2) → tin ≤ s → s ≤ tout → ¬ |py + s * vy| ≤ h / 2) ∧
    (¬ (yin > h / 2 ∧ yout > h / 2 ∨ yin < -h / 2 ∧ yout < -h / 2) →
      (yin > h / 2 → vy ≠ 0) ∧ (yin < -h / 2 → vy ≠ 0) ∧ (yout > h / 2 → vy ≠ 0) ∧ (yout < -h / 2 → vy ≠ 0) ∧
      let a := if yin > h / 2 then (h / 2 - py) / vy else if yin < -h / 2 then (-h / 2 - py) / vy else tin
      let b := if yout > h / 2 then (h / 2 - py) / vy else if yout < -h / 2 then (-h / 2 - py) / vy else tout
      a ≤ b ∧ ((tin ≤ s ∧ s ≤ tout ∧ |py + s * vy| ≤ h / 2) ↔ a ≤ s ∧ s ≤ b)) := by
  have hup : ∀ {c}, vy ≠ 0 → vy * ((c - py) / vy) + py = c := by intro c h; field_simp; ring
  simp only [abs_le]
  rw [show py + s * vy = vy * s + py by ring]
  rcases lt_trichotomy vy 0 with hv | hv | hv
  · have mono : ∀ x x', x ≤ x' ↔ vy * x' + py ≤ vy * x + py := by
      intro x x'
      constructor
      · intro h; nlinarith
      · intro h; by_contra hc; push Not at hc; nlinarith
    have u1 := hup (c := h / 2) hv.ne
    have u2 := hup (c := -h / 2) hv.ne
    have ht' := (mono tin tout).1 ht
    refine ⟨?_, fun hn => ⟨fun _ => hv.ne, fun _ => hv.ne, fun _ => hv.ne, fun _ => hv.ne, ?_⟩⟩
    · rintro (⟨h1, h2⟩ | ⟨h1, h2⟩) h3 h4 ⟨h5, h6⟩ <;> rw [mono] at h3 h4 <;> linarith
    · push Not at hn
      obtain ⟨hn1, hn2⟩ := hn
      split <;> split <;> (try split) <;> (try split)
      all_goals first
        | (exfalso; linarith [hn1 (by assumption)])
        | (exfalso; linarith [hn2 (by assumption)])
        | (refine ⟨(mono _ _).2 (by (try simp only [u1, u2]); linarith), fun ⟨h1, h2, h3, h4⟩ => ?_, fun ⟨h1, h2⟩ => ?_⟩
           · have h1 := (mono _ _).1 h1
             have h2 := (mono _ _).1 h2
             refine ⟨(mono _ _).2 ?_, (mono _ _).2 ?_⟩ <;> (try simp only [u1, u2]) <;> linarith
           · have h1 := (mono _ _).1 h1
             have h2 := (mono _ _).1 h2
             try simp only [u1, u2] at h1 h2
             refine ⟨(mono _ _).2 ?_, (mono _ _).2 ?_, ?_, ?_⟩ <;> linarith)
  · subst hv
    simp only [zero_mul, zero_add]
    refine ⟨?_, fun hn => ?_⟩
    · rintro (⟨h1, h2⟩ | ⟨h1, h2⟩) h3 h4 ⟨h5, h6⟩ <;> linarith
    · push Not at hn
      obtain ⟨hn1, hn2⟩ := hn
      have g1 : ¬ py > h / 2 := fun hc => by linarith [hn1 hc]
      have g2 : ¬ py < -h / 2 := fun hc => by linarith [hn2 hc]
      rw [if_neg g1, if_neg g2, if_neg g1, if_neg g2]
      refine ⟨fun h => absurd h g1, fun h => absurd h g2, fun h => absurd h g1, fun h => absurd h g2, ht, ?_⟩
      constructor
      · rintro ⟨h1, h2, _⟩; exact ⟨h1, h2⟩
      · rintro ⟨h1, h2⟩; exact ⟨h1, h2, by linarith, by linarith⟩
  · have mono : ∀ x x', x ≤ x' ↔ vy * x + py ≤ vy * x' + py := by
      intro x x'
      constructor
      · intro h; nlinarith
      · intro h; by_contra hc; push Not at hc; nlinarith
    have u1 := hup (c := h / 2) hv.ne'
    have u2 := hup (c := -h / 2) hv.ne'
    have ht' := (mono tin tout).1 ht
    refine ⟨?_, fun hn => ⟨fun _ => hv.ne', fun _ => hv.ne', fun _ => hv.ne', fun _ => hv.ne', ?_⟩⟩
    · rintro (⟨h1, h2⟩ | ⟨h1, h2⟩) h3 h4 ⟨h5, h6⟩ <;> rw [mono] at h3 h4 <;> linarith
    · push Not at hn
      obtain ⟨hn1, hn2⟩ := hn
      split <;> split <;> (try split) <;> (try split)
      all_goals first
        | (exfalso; linarith [hn1 (by assumption)])
        | (exfalso; linarith [hn2 (by assumption)])
        | (refine ⟨(mono _ _).2 (by (try simp only [u1, u2]); linarith), fun ⟨h1, h2, h3, h4⟩ => ?_, fun ⟨h1, h2⟩ => ?_⟩
           · have h1 := (mono _ _).1 h1
             have h2 := (mono _ _).1 h2
             refine ⟨(mono _ _).2 ?_, (mono _ _).2 ?_⟩ <;> (try simp only [u1, u2]) <;> linarith
           · have h1 := (mono _ _).1 h1
             have h2 := (mono _ _).1 h2
             try simp only [u1, u2] at h1 h2
             refine ⟨(mono _ _).2 ?_, (mono _ _).2 ?_, ?_, ?_⟩ <;> linarith)

theorem capTime_eq {y t h py vy : ℝ} {top bottom : Nat} (h1 : y > h / 2 → vy ≠ 0) (h2 : y < -h / 2 → vy ≠ 0) :
    ∃ k, capTime y t h py vy top bottom =
      some (if y > h / 2 then (h / 2 - py) / vy else if y < -h / 2 then (-h / 2 - py) / vy else t, k) ∧
      ∀ s, s = (if y > h / 2 then (h / 2 - py) / vy else if y < -h / 2 then (-h / 2 - py) / vy else t) →
        (k = 0 ∧ s = t) ∨ (k = top ∧ py + s * vy = h / 2) ∨ (k = bottom ∧ py + s * vy = -h / 2) := by
  unfold capTime
  split
  · next h =>
    have := h1 h
    rw [divD_ok this]
    refine ⟨top, rfl, fun s hs => .inr (.inl ⟨rfl, ?_⟩)⟩
    rw [hs]; field_simp; ring
  · split
    · next h =>
      have := h2 h
      rw [divD_ok this]
      refine ⟨bottom, rfl, fun s hs => .inr (.inr ⟨rfl, ?_⟩)⟩
      rw [hs]; field_simp; ring
    · exact ⟨0, rfl, fun s hs => .inl ⟨rfl, hs⟩⟩

theorem quad_root {A B C : ℝ} (hA : 0 < A) (hD : 0 ≤ B * B - 4 * A * C) :
    (∀ s, s = (-B - √(B * B - 4 * A * C)) / (2 * A) → A * s ^ 2 + B * s + C = 0) ∧
    ∀ s, s = (-B + √(B * B - 4 * A * C)) / (2 * A) → A * s ^ 2 + B * s + C = 0 := by
  have hq := Real.mul_self_sqrt hD
  generalize √(B * B - 4 * A * C) = q at hq ⊢
  constructor <;> rintro s rfl <;> field_simp <;> linear_combination hq

end Verif.McStas
