import Verif.Spec.McCrystal
import Verif.Lemmas.McPowderN
import Verif.Lemmas.Bragg
import Verif.Props.McStas
import Mathlib.MeasureTheory.Function.JacobianOneDim
/-!
Lemmas for the single crystal of McStas.
-/

namespace Verif.McCrystal
open McStas McSample Kinem Solid Homog Flight
open McGuide (K2V V2K)
open McPowderN (num_div)
open Classical

theorem len_eq (a : V3 ℝ) : len a = length a := (length_eq a).symm ▸ rfl

theorem nil_iff (a : V3 ℝ) : nil a ↔ a = 0 := by
  unfold nil
  constructor
  · rintro ⟨h1, h2, h3⟩; exact V3.ext h1 h2 h3
  · rintro rfl; simp

/-- the eigenvalues and eigenvectors turn the matrix by a right angle -/
theorem eigen_spec {a b c l1 l2 : ℝ} {e1 e2 : ℝ × ℝ} (hb : b = 0 ∨ ¬ b * b < 1e-20 * (a * a + c * c))
    (ha : 0 < a) (hc : 0 < c) (h : eigen a b c = (l1, l2, e1, e2)) :
    (∀ p q : ℝ, l1 * (p * e2.1 + q * e2.2) ^ 2 + l2 * (p * e1.1 + q * e1.2) ^ 2 = c * p ^ 2 - 2 * b * p * q + a * q ^ 2) ∧
    e1.1 ^ 2 + e1.2 ^ 2 = 1 ∧ e2.1 ^ 2 + e2.2 ^ 2 = 1 ∧ e1.1 * e2.1 + e1.2 * e2.2 = 0 ∧ l1 + l2 = a + c ∧ l1 * l2 = a * c - b * b := by
  unfold eigen at h
  by_cases hd : b * b < 1e-20 * (a * a + c * c)
  · rw [if_pos hd] at h
    simp only [Prod.mk.injEq] at h
    obtain ⟨rfl, rfl, rfl, rfl⟩ := h
    rcases hb with rfl | hb
    · refine ⟨fun p q => ?_, ?_, ?_, ?_, ?_, ?_⟩ <;> ring
    · exact absurd hd hb
  · rw [if_neg hd] at h
    have hb0 : b ≠ 0 := by
      rintro rfl
      apply hd
      have := mul_pos ha ha
      have := mul_pos hc hc
      norm_num
      nlinarith
    simp only [Prod.mk.injEq] at h
    obtain ⟨h1, h2, rfl, rfl⟩ := h
    rw [h1, h2]
    have hdet : 0 ≤ (a - c) * (a - c) + 4 * b * b := by nlinarith [mul_self_nonneg (a - c), mul_self_nonneg b]
    have hs := Real.mul_self_sqrt hdet
    set s := √((a - c) * (a - c) + 4 * b * b) with hsd
    have hsum : l1 + l2 = a + c := by rw [← h1, ← h2]; ring
    have hprod : l1 * l2 = a * c - b * b := by
      rw [← h1, ← h2]
      linear_combination (-0.25) * hs
    have hc2 : c - l2 = -(a - l1) := by linarith
    rw [hc2]
    have hw : (a - l1) * (c - l1) = b * b := by
      have : l2 = a + c - l1 := by linarith
      rw [this] at hprod
      linear_combination -hprod
    set w := a - l1 with hwd
    have hN : 0 < b * b + w * w := by have := mul_self_pos.2 hb0; nlinarith [mul_self_nonneg w]
    rw [show -b * -b + w * w = b * b + w * w by ring, show -w * -w + -b * -b = b * b + w * w by ring]
    have hn := Real.mul_self_sqrt hN.le
    have hn0 := (Real.sqrt_pos.2 hN).ne'
    set n := √(b * b + w * w) with hnd
    have e1 : l1 * (w * w) + l2 * (b * b) = c * (b * b + w * w) := by
      have h2' : l2 = a + c - l1 := by linarith
      have hl : l1 = a - w := by rw [hwd]; ring
      rw [h2', hl]
      rw [hl] at hw
      linear_combination (-w) * hw
    have e2 : l1 * (b * b) + l2 * (w * w) = a * (b * b + w * w) := by
      linear_combination (b * b + w * w) * hsum - e1
    have e3 : (l1 - l2) * (b * w) = -b * (b * b + w * w) := by
      have h2' : l2 = a + c - l1 := by linarith
      have hl : l1 = a - w := by rw [hwd]; ring
      rw [h2', hl]
      rw [hl] at hw
      linear_combination (-b) * hw
    refine ⟨fun p q => ?_, ?_, ?_, ?_, hsum, hprod⟩ <;> field_simp
    · rw [show n ^ 2 = b * b + w * w by rw [← hn]; ring]
      linear_combination p ^ 2 * e1 + q ^ 2 * e2 + 2 * p * q * e3
    · rw [show n ^ 2 = b * b + w * w by rw [← hn]; ring]; ring
    · rw [show n ^ 2 = b * b + w * w by rw [← hn]; ring]; ring
    · ring

theorem radians_pos {x : ℝ} (h : 0 < x) : 0 < radians x := by
  unfold radians FWHM2RMS
  have := Real.pi_pos
  positivity

/-- the form is positive in the plane of two vectors -/
theorem block_det {m : Mosaic} (hh : 0 < m.h) (hv : 0 < m.v) (hn : 0 < m.n) {u b : V3 ℝ} (hu : u.dot u = 1) (hb : b.dot b = 1)
    (h : u.dot b = 0) : 0 < blockBi m b b * blockBi m (u.cross b) (u.cross b) - blockBi m b (u.cross b) * blockBi m b (u.cross b) ∧
      0 < blockBi m b b ∧ 0 < blockBi m (u.cross b) (u.cross b) := by
  have r1 := radians_pos hh
  have r2 := radians_pos hv
  have r3 := radians_pos hn
  have hf := Bragg.frame_of hu hb h
  let p : Bragg.Peak := ⟨0, 0, 0, 0, 0, 0, 0, 1 / radians m.n ^ 2, 1 / radians m.h ^ 2, 1 / radians m.v ^ 2, 0⟩
  have hm : 0 < p.m1 ∧ 0 < p.m2 ∧ 0 < p.m3 := ⟨by positivity, by positivity, by positivity⟩
  have e : ∀ v : V3 ℝ, blockBi m v v = Bragg.quad p v := by
    intro v; unfold blockBi Bragg.quad; ring
  have e2 : ∀ v w : V3 ℝ, blockBi m v w = p.m1 * v.x * w.x + p.m2 * v.y * w.y + p.m3 * v.z * w.z := by
    intro v w; simp only [blockBi, p]; ring
  have d := Bragg.det_pos hm hu hb h
  refine ⟨?_, ?_, ?_⟩
  · rw [e, e, e2]; exact d
  · rw [e]; exact Bragg.quad_pos hm hb
  · rw [e]; exact Bragg.quad_pos hm hf.l3

theorem normal_ok {u b : V3 ℝ} (hu : u.dot u = 1) (h : normalVec u = some b) : b.dot b = 1 ∧ u.dot b = 0 := by
  have hu0 : u ≠ 0 := by rintro rfl; simp [V3.dot] at hu
  obtain ⟨n, h1, h2, h3⟩ := C166_normal hu0
  rw [h] at h1
  simp only [Option.some.injEq] at h1
  subst h1
  refine ⟨h2, ?_⟩
  rw [← h3]; simp only [V3.dot]; ring

/-- the axes across a reflection for three different widths -/
theorem axes_eq {m : Mosaic} {t : ℝ} {u1 b1 : V3 ℝ} (hb : normalVec u1 = some b1) (hi : m.iso ≤ 0) (hh : 0 < m.h) (hv : 0 < m.v) (hn : 0 < m.n)
    {l1 l2 : ℝ} {e1 e2 : ℝ × ℝ} (he : eigen (blockBi m b1 b1) (blockBi m b1 (u1.cross b1)) (blockBi m (u1.cross b1) (u1.cross b1)) = (l1, l2, e1, e2)) :
    m.axes t u1 = .ok (e2.1 • b1 + e2.2 • u1.cross b1, t / √l1, e1.1 • b1 + e1.2 • u1.cross b1, t / √l2) := by
  unfold Mosaic.axes
  simp only [hb, num, bind, Except.bind]
  rw [if_neg (not_lt.2 hi), if_pos ⟨hh, hv, hn⟩]
  have r : ∀ x : ℝ, FWHM2RMS * MIN2RAD * x = radians x := by intro x; unfold radians MIN2RAD; ring
  have q : ∀ x y : V3 ℝ, x.x * y.x * (1 / (radians m.n * radians m.n)) + x.y * y.y * (1 / (radians m.h * radians m.h)) +
      x.z * y.z * (1 / (radians m.v * radians m.v)) = blockBi m x y := by
    intro x y; unfold blockBi; ring
  simp only [r, q, he]

/-! ### the reflections -/

theorem reflection_good {lat : Bragg.Lat} {m : Mosaic} {dd h k l : ℝ} {F : Option ℝ} {F2 : ℝ} {p : Bragg.Peak}
    (hi : 0 < m.iso) (hr : reflection lat m dd h k l F F2 = .ok p) : Bragg.Good (MIN2RAD * m.iso) dd p := by
  unfold reflection at hr
  simp only [bind, Except.bind] at hr
  set tau := h • lat.ra + k • lat.rb + l • lat.rc with htau
  by_cases h0 : len tau = 0
  · simp [divD, h0, num] at hr
  rw [num_div h0, num_div h0, num_div h0] at hr
  dsimp only at hr
  have hpos : 0 < len tau := by
    rw [len_eq] at h0 ⊢
    exact lt_of_le_of_ne (Kinem.length_nonneg _) (Ne.symm h0)
  have hll : len tau * len tau = tau.dot tau := by rw [len_eq, length_mul_self]
  set u1 : V3 ℝ := ⟨tau.x / len tau, tau.y / len tau, tau.z / len tau⟩ with hu1
  have hu : u1.dot u1 = 1 := by
    rw [hu1]
    simp only [V3.dot] at hll ⊢
    field_simp
    linarith
  have hu0 : u1 ≠ 0 := by rintro e; rw [e] at hu; simp [V3.dot] at hu
  obtain ⟨b1, e1, -, -⟩ := C166_normal hu0
  obtain ⟨h2, h3⟩ := normal_ok hu e1
  have ha : m.axes (len tau) u1 = .ok (b1, FWHM2RMS * len tau * MIN2RAD * m.iso, u1.cross b1, FWHM2RMS * len tau * MIN2RAD * m.iso) := by
    unfold Mosaic.axes
    simp only [e1, num, bind, Except.bind]
    rw [if_pos hi]
  rw [ha] at hr
  dsimp only at hr
  have w1 : Bragg.alongWidth dd (len tau) = FWHM2RMS * dd * len tau := rfl
  have w2 : Bragg.acrossWidth (MIN2RAD * m.iso) (len tau) = FWHM2RMS * len tau * MIN2RAD * m.iso := by
    show FWHM2RMS * len tau * (MIN2RAD * m.iso) = _
    ring
  rw [← w1, ← w2] at hr
  generalize hs : Bragg.alongWidth dd (len tau) = s1 at hr
  generalize ht : Bragg.acrossWidth (MIN2RAD * m.iso) (len tau) = s2 at hr
  by_cases z1 : 2 * s1 * s1 = 0
  · simp [divD, z1, num] at hr
  rw [num_div z1] at hr
  dsimp only at hr
  by_cases z2 : 2 * s2 * s2 = 0
  · simp [divD, z2, num] at hr
  rw [num_div z2] at hr
  simp only [Except.ok.injEq] at hr
  subst hr
  have n1 : s1 ≠ 0 := by rintro rfl; simp at z1
  have n2 : s2 ≠ 0 := by rintro rfl; simp at z2
  refine ⟨Bragg.frame_of hu h2 h3, rfl, ?_, hpos, ?_, ?_, rfl, ?_, ?_, ?_, ?_⟩
  · rw [hu1]
    ext <;> simp only [V3.smul_x, V3.smul_y, V3.smul_z] <;> field_simp
  · dsimp only; rw [hs]; congr 1; ring
  · dsimp only; rw [ht]; congr 1; ring
  · dsimp only; rw [hs]; exact n1
  · dsimp only; rw [ht]; exact n2
  · dsimp only; rw [hs, ht]
  · dsimp only; rw [hs, ht]
    unfold cutoff
    rcases le_total s1 s2 with h | h
    · rw [max_eq_right h, if_neg (not_lt.2 h), if_neg (lt_irrefl _)]
    · rw [max_eq_left h]
      rcases h.eq_or_lt with rfl | h
      · simp
      · rw [if_pos h, if_pos h]

/-- the members of the list of a crystal -/
theorem near_facts {c : Crystal} {mosaic : ℝ} (hg : ∀ p ∈ c.peaks, Bragg.Good mosaic c.dd p) {ki : V3 ℝ} {k : ℝ}
    {ts : List Bragg.Tau} (h : c.near ki k = .ok ts) : ∀ t ∈ ts, t.peak ∈ c.peaks ∧ c.V0 * k * k ≠ 0 ∧
      ∃ n α, Bragg.Stored ((2 * Real.pi) ^ (5 / 2 : ℝ) / (c.V0 * k * k)) ki t.peak t n α := by
  unfold Crystal.near at h
  simp only [bind, Except.bind] at h
  by_cases h1 : 1 - 5 * c.dd = 0
  · simp [divD, h1, num] at h
  rw [num_div h1] at h
  dsimp only at h
  by_cases h2 : c.V0 * k * k = 0
  · simp [divD, h2, num] at h
  rw [num_div h2] at h
  dsimp only at h
  cases ht : Bragg.tauLoop (2 * k / (1 - 5 * c.dd)) ((2 * Real.pi) ^ (5 / 2 : ℝ) / (c.V0 * k * k)) ki c.peaks with
  | none => simp [ht, num] at h
  | some ts' =>
    rw [ht] at h
    simp only [num, Except.ok.injEq] at h
    subst h
    intro t htm
    obtain ⟨p, hp, e, -⟩ := Bragg.tauLoop_mem _ _ ht t htm
    obtain ⟨n, α, hst⟩ := Bragg.tauOf_some (hg p hp) e
    have := hst.peak
    subst this
    exact ⟨hp, h2, n, α, hst⟩

theorem near_pos {c : Crystal} {mosaic : ℝ} (hg : ∀ p ∈ c.peaks, Bragg.Good mosaic c.dd p) (hF : ∀ p ∈ c.peaks, 0 ≤ p.F2) (hd : 0 < c.dd) (hV : 0 < c.V0)
    {ki : V3 ℝ} {k : ℝ} {ts : List Bragg.Tau} (h : c.near ki k = .ok ts) : ∀ t ∈ ts, 0 < t.refl ∧ 0 ≤ t.xs := by
  intro t ht
  obtain ⟨hp, hk, n, α, hst⟩ := near_facts hg h t ht
  have hg' := hg _ hp
  have hsig : 0 < t.peak.sig123 := by
    rw [hg'.sig, mul_assoc]
    have h1 := hg'.pos
    have h2 := Bragg.fwhm2rms_pos
    have : 0 < Bragg.alongWidth c.dd t.peak.tauLength := by unfold Bragg.alongWidth; positivity
    exact mul_pos this (mul_self_pos.2 hg'.s2)
  have p1 := hst.l11
  have p2 := hst.l22
  have hk2 : k ≠ 0 := by rintro rfl; simp at hk
  have hf : 0 < c.V0 * k * k := by rw [mul_assoc]; exact mul_pos hV (mul_self_pos.2 hk2)
  have hr : 0 < t.refl := by rw [hst.refl]; positivity
  have := hF _ hp
  exact ⟨hr, by rw [hst.xs]; positivity⟩

/-! ### the way into the crystal -/

theorem mean_two {a A B : ℝ} (ha : 0 ≤ a) (hb : a ≤ 1) {f : ℝ → ℝ} (h1 : ∀ u, 0 < u → u < a → f u = A)
    (h2 : ∀ u, a < u → u < 1 → f u = B) : mean f = a * A + (1 - a) * B := by
  rw [McPowderN.mean_three (b := 1) (C := 0) ha hb le_rfl h1 h2 (fun u h3 h4 => by linarith)]
  ring

theorem place_mean {S l : ℝ} (hS : 0 < S) (hl : 1e-6 ≤ S * l) (g : ℝ → ℝ) :
    (1 - Real.exp (-S * l)) * mean (fun u => g (place S l u)) = ∫ x in (0 : ℝ)..l, S * Real.exp (-S * x) * g x := by
  have hSl : 0 < S * l := by norm_num at hl; linarith
  have hl0 : 0 < l := (pos_iff_pos_of_mul_pos hSl).1 hS
  obtain ⟨P, hP⟩ : ∃ P, P = 1 - Real.exp (-S * l) := ⟨_, rfl⟩
  have hP0 : 0 < P := by
    rw [hP, sub_pos, Real.exp_lt_one_iff]
    linarith
  have hP1 : P < 1 := by rw [hP]; linarith [Real.exp_pos (-S * l)]
  rw [← hP]
  have hpl : ∀ u, place S l u = -Real.log (1 - u * P) / S := by
    intro u
    unfold place
    rw [if_neg (not_lt.2 hl), ← hP]
  have hinv : ∀ x, place S l ((1 - Real.exp (-S * x)) / P) = x := by
    intro x
    rw [hpl, div_mul_cancel₀ _ hP0.ne', sub_sub_cancel, Real.log_exp]
    field_simp
  have hder : ∀ x ∈ Set.Ioo (0 : ℝ) l, HasDerivWithinAt (fun x => (1 - Real.exp (-S * x)) / P) (S * Real.exp (-S * x) / P) (Set.Ioo 0 l) x := by
    intro x _
    have h1 : HasDerivAt (fun x : ℝ => -S * x) (-S) x := by simpa using (hasDerivAt_id x).const_mul (-S)
    have h2 := ((h1.exp).const_sub 1).div_const P
    rw [show S * Real.exp (-S * x) / P = -(Real.exp (-S * x) * -S) / P by ring]
    exact h2.hasDerivWithinAt
  have hinj : Set.InjOn (fun x => (1 - Real.exp (-S * x)) / P) (Set.Ioo 0 l) := by
    intro x _ y _ h
    have := congrArg (place S l) h
    simpa only [hinv] using this
  have himg : (fun x => (1 - Real.exp (-S * x)) / P) '' Set.Ioo 0 l = Set.Ioo 0 1 := by
    ext u
    constructor
    · rintro ⟨x, ⟨hx0, hxl⟩, rfl⟩
      have e1 : Real.exp (-S * x) < 1 := by rw [Real.exp_lt_one_iff]; nlinarith
      have e2 : Real.exp (-S * l) < Real.exp (-S * x) := Real.exp_lt_exp.2 (by nlinarith)
      exact ⟨div_pos (by linarith) hP0, by rw [div_lt_one hP0, hP]; linarith⟩
    · rintro ⟨h0, h1⟩
      have q0 : 0 < u * P := mul_pos h0 hP0
      have q1 : u * P < P := by nlinarith
      have hlt : Real.log (1 - u * P) < 0 := Real.log_neg (by linarith) (by linarith)
      have hgt : -S * l < Real.log (1 - u * P) := by
        rw [Real.lt_log_iff_exp_lt (by linarith)]
        linarith
      refine ⟨-Real.log (1 - u * P) / S, ⟨div_pos (by linarith) hS, by rw [div_lt_iff₀ hS]; linarith⟩, ?_⟩
      dsimp only
      rw [show -S * (-Real.log (1 - u * P) / S) = Real.log (1 - u * P) by field_simp, Real.exp_log (by linarith)]
      field_simp
      ring
  have key := MeasureTheory.integral_image_eq_integral_abs_deriv_smul measurableSet_Ioo hder hinj (fun u => g (place S l u))
  rw [himg] at key
  unfold mean
  rw [intervalIntegral.integral_of_le zero_le_one, intervalIntegral.integral_of_le hl0.le, MeasureTheory.integral_Ioc_eq_integral_Ioo,
    MeasureTheory.integral_Ioc_eq_integral_Ioo, key, ← MeasureTheory.integral_const_mul]
  apply MeasureTheory.setIntegral_congr_fun measurableSet_Ioo
  intro x _
  dsimp only
  rw [hinv, smul_eq_mul, abs_of_pos (by have := Real.exp_pos (-S * x); positivity)]
  field_simp

/-! ### scattering -/

theorem weighE_ok (f : Event ℝ → ℝ) {e : Event ℝ} (h : 0 ≤ e.p) : weighE f (.ok e) = e.p * f { e with p := 1 } := by
  show (if e.p = -1 then 0 else e.p * f { e with p := 1 }) = _
  rw [if_neg (by linarith)]

theorem coherent_scale (f : Event ℝ → ℝ) (k : ℝ) {ts : List Bragg.Tau} (hts : ∀ t ∈ ts, 0 < t.refl ∧ 0 ≤ t.xs) (d : Draw) {e : Event ℝ} (hp : 0 ≤ e.p) :
    weighE f (coherent k ts d e) = e.p * weighE f (coherent k ts d { e with p := 1 }) := by
  have hX : 0 ≤ Bragg.totalXs ts := List.sum_nonneg (by simpa using fun t ht => (hts t ht).2)
  unfold coherent
  split
  · simp [weighE, absorb]
  · next hR =>
    push Not at hR
    cases ht : ts[choose ts d.ur]? with
    | none => simp [weighE]
    | some t =>
      have hm := hts t (List.mem_of_getElem? ht)
      simp only [bind, Except.bind]
      by_cases h1 : len (t.kf d.z1 d.z2) = 0
      · simp [divD, h1, num, weighE]
      rw [num_div h1]
      dsimp only
      by_cases h2 : Bragg.totalXs ts * t.refl = 0
      · simp only [divD, h2, if_true, num, weighE]; simp
      rw [num_div h2]
      dsimp only
      have hw : 0 ≤ t.xs * Bragg.totalRefl ts / (Bragg.totalXs ts * t.refl) := by
        have := hm.1
        have := hm.2
        positivity
      rw [weighE_ok f (by exact mul_nonneg hp hw), weighE_ok f (by simpa using hw)]
      ring

theorem kick_scale (f : Event ℝ → ℝ) (k : ℝ) {Sc Si S : ℝ} (hSc : 0 ≤ Sc) (hSi : 0 ≤ Si) (hS : 0 < S) {ts : List Bragg.Tau} (hts : ∀ t ∈ ts, 0 < t.refl ∧ 0 ≤ t.xs)
    (d : Draw) {e : Event ℝ} (hp : 0 ≤ e.p) :
    weighE f (kick k Sc Si S ts d e) = e.p * weighE f (kick k Sc Si S ts d { e with p := 1 }) := by
  unfold kick
  simp only [bind, Except.bind]
  rw [num_div hS.ne']
  dsimp only
  have hw : 0 ≤ (Sc + Si) / S := by positivity
  split
  · cases targetCircle e.v 0 d.i1 d.i2 with
    | none => simp [num, weighE]
    | some r =>
      simp only [num]
      rw [weighE_ok f (by exact mul_nonneg hp hw), weighE_ok f (by simpa using hw)]
      ring
  · rw [coherent_scale f k hts d (by exact mul_nonneg hp hw), coherent_scale f k hts d (e := { e with p := 1 * ((Sc + Si) / S) }) (by simpa using hw)]
    ring

theorem propDt_p (G : Gravity) {t : ℝ} (ht : 0 ≤ t) (q : ℝ) (e : Event ℝ) : propDt G t { e with p := q } = { propDt G t e with p := q } := by
  have hn : ¬ t < -1e-15 := by norm_num; linarith
  simp only [propDt, if_neg hn]
  split <;> rfl

theorem propDt_keep (G : Gravity) {t : ℝ} (ht : 0 ≤ t) (e : Event ℝ) : (propDt G t e).p = e.p := by
  unfold propDt
  rw [if_neg (by norm_num; linarith)]
  split <;> rfl

theorem weighT_bind (f : Event ℝ → ℝ) (o : Except Err (Event ℝ)) (P : Prop) [Decidable P] :
    weighT f (o.bind fun e => if e.p = -1 then .ok (.left e) else if P then .ok (.left e) else .ok (.again e)) = weighE f o := by
  cases o with
  | error _ => rfl
  | ok e =>
    simp only [Except.bind]
    split
    · rfl
    · split <;> rfl

theorem place_nonneg {S l u : ℝ} (hS : 0 < S) (hl : 1e-6 ≤ S * l) (h0 : 0 ≤ u) (h1 : u ≤ 1) : 0 ≤ place S l u := by
  unfold place
  rw [if_neg (not_lt.2 hl)]
  have hE : Real.exp (-S * l) < 1 := by rw [Real.exp_lt_one_iff]; norm_num at hl; linarith
  have hE0 := Real.exp_pos (-S * l)
  apply div_nonneg _ hS.le
  rw [neg_nonneg]
  apply Real.log_nonpos <;> nlinarith

end Verif.McCrystal
