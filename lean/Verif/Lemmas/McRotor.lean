import Verif.Spec.McRotor
import Verif.Lemmas.McStas
import Verif.Lemmas.McGuide
import Mathlib.Tactic.Linarith
import Mathlib.Tactic.Ring
import Mathlib.Tactic.FieldSimp
import Mathlib.Tactic.Positivity
/-!
Lemmas about the Fermi chopper.
-/

namespace Verif.McRotor
open McStas Kinem McGuide McWavy
open Classical

theorem xrot_straight {f : Frame} (hC : f.C = 0) (X Z T : ℝ) :
    f.xrot X Z T = X * Real.cos (f.omega * T + f.ph0) + Z * Real.sin (f.omega * T + f.ph0) := by
  unfold Frame.xrot
  simp only [hC, ne_eq, not_true_eq_false, if_false]

theorem xAt_eq (f : Frame) (e : Event ℝ) (dt : ℝ) :
    f.xAt e dt = f.xrot (e.r.x + e.v.x * dt) (e.r.z + e.v.z * dt) (e.t + dt) := by
  unfold Frame.xAt
  by_cases h : dt = 0
  · rw [if_neg (by simpa using h), h]; simp
  · rw [if_pos h]

theorem zAt_eq (f : Frame) (e : Event ℝ) (dt : ℝ) :
    f.zAt e dt = f.zrot (e.r.x + e.v.x * dt) (e.r.z + e.v.z * dt) (e.t + dt) := by
  unfold Frame.zAt
  by_cases h : dt = 0
  · rw [if_neg (by simpa using h), h]; simp
  · rw [if_pos h]

theorem prop_off {s : ℝ} (hs : 0 ≤ s) (e : Event ℝ) : propDt Off s e = flown Off e s := by
  unfold propDt
  rw [if_neg (by norm_num; linarith), if_neg (by simp [Off]), propDtFree_eq (G := Off) rfl]

/-! ### the search for a time -/

theorem sign_pos {a b : ℝ} (hb : 0 < b) (ha : a ≠ 0) : sign a b ≠ a ↔ a < 0 := by
  unfold sign
  rw [if_pos hb.le]
  constructor
  · intro h
    by_contra hn
    exact h (abs_of_nonneg (not_lt.1 hn))
  · intro h h'
    have := abs_nonneg a
    linarith

theorem sign_neg {a b : ℝ} (hb : b < 0) (ha : a ≠ 0) : sign a b ≠ a ↔ 0 < a := by
  unfold sign
  rw [if_neg (not_le.2 hb)]
  constructor
  · intro h
    by_contra hn
    exact h (by rw [abs_of_nonpos (not_lt.1 hn)]; ring)
  · intro h h'
    have := abs_nonneg a
    linarith

theorem sign_iff {a b : ℝ} (hb : b ≠ 0) (ha : a ≠ 0) : sign a b ≠ a ↔ a * b < 0 := by
  rcases lt_or_gt_of_ne hb with h | h
  · rw [sign_neg h ha]
    constructor
    · intro h'; exact mul_neg_of_pos_of_neg h' h
    · intro h'
      by_contra hn
      have := mul_nonneg_of_nonpos_of_nonpos (not_lt.1 hn) h.le
      linarith
  · rw [sign_pos h ha]
    constructor
    · intro h'; exact mul_neg_of_neg_of_pos h' h
    · intro h'
      by_contra hn
      have := mul_nonneg (not_lt.1 hn) h.le
      linarith

theorem root_pos {fm fl fh : ℝ} (h : fl * fh < 0) : 0 < √(fm * fm - fl * fh) := by
  apply Real.sqrt_pos.2
  have := mul_self_nonneg fm
  linarith

theorem root_ge {fm fl fh : ℝ} (h : fl * fh < 0) : |fm| ≤ √(fm * fm - fl * fh) := by
  apply Real.le_sqrt_of_sq_le
  rw [sq_abs]
  nlinarith

/-- the new time is between the two others -/
theorem new_between {dtl dth fl fh fm g : ℝ} (h : fl * fh < 0) (hg : |g| = |fm|) {lo hi : ℝ} (h1 : lo ≤ dtl) (h2 : dtl ≤ hi)
    (h3 : lo ≤ dth) (h4 : dth ≤ hi) :
    lo ≤ 0.5 * (dtl + dth) + (0.5 * (dtl + dth) - dtl) * (g / √(fm * fm - fl * fh)) ∧
      0.5 * (dtl + dth) + (0.5 * (dtl + dth) - dtl) * (g / √(fm * fm - fl * fh)) ≤ hi := by
  have hp := root_pos (fm := fm) h
  have hr := root_ge (fm := fm) h
  obtain ⟨u, hu⟩ : ∃ u, u = g / √(fm * fm - fl * fh) := ⟨_, rfl⟩
  have hu1 : |u| ≤ 1 := by
    rw [hu, abs_div, abs_of_pos hp, div_le_one hp, hg]
    exact hr
  rw [← hu]
  obtain ⟨a, b⟩ := abs_le.1 hu1
  have e : 0.5 * (dtl + dth) + (0.5 * (dtl + dth) - dtl) * u = dtl * ((1 - u) / 2) + dth * ((1 + u) / 2) := by ring
  rw [e]
  constructor <;> nlinarith

theorem ridLoop_range {f : ℝ → ℝ} {lo hi : ℝ} : ∀ (n : ℕ) (dtl dth ans : ℝ), f dtl * f dth < 0 → lo ≤ dtl → dtl ≤ hi → lo ≤ dth → dth ≤ hi →
    ((lo ≤ ans ∧ ans ≤ hi) ∨ ∀ s, lo ≤ s → s ≤ hi → ¬ |s - ans| ≤ timeAcc) →
    ridLoop f n dtl dth (f dtl) (f dth) ans = -2 ∨
      (lo ≤ ridLoop f n dtl dth (f dtl) (f dth) ans ∧ ridLoop f n dtl dth (f dtl) (f dth) ans ≤ hi) := by
  intro n
  induction n with
  | zero => intros; left; rfl
  | succ n ih =>
    intro dtl dth ans hs h1 h2 h3 h4 ha
    rw [ridLoop]
    simp only
    have hp := root_pos (fm := f (0.5 * (dtl + dth))) hs
    rw [if_neg hp.ne']
    have hb := new_between (fm := f (0.5 * (dtl + dth)))
      (g := if f dtl ≥ f dth then f (0.5 * (dtl + dth)) else -f (0.5 * (dtl + dth))) hs (by split <;> simp) h1 h2 h3 h4
    have hm : lo ≤ 0.5 * (dtl + dth) ∧ 0.5 * (dtl + dth) ≤ hi := by constructor <;> linarith
    revert hb
    obtain ⟨new, hnew⟩ : ∃ new, new = 0.5 * (dtl + dth) + (0.5 * (dtl + dth) - dtl) *
      ((if f dtl ≥ f dth then f (0.5 * (dtl + dth)) else -f (0.5 * (dtl + dth))) /
        √(f (0.5 * (dtl + dth)) * f (0.5 * (dtl + dth)) - f dtl * f dth)) := ⟨_, rfl⟩
    rw [← hnew]
    intro hb
    by_cases c1 : |new - ans| ≤ timeAcc
    · rw [if_pos c1]
      rcases ha with ha | ha
      · exact Or.inr ha
      · exact absurd c1 (ha _ hb.1 hb.2)
    rw [if_neg c1]
    by_cases c2 : f new = 0
    · rw [if_pos c2]; exact Or.inr hb
    rw [if_neg c2]
    have hl0 : f dtl ≠ 0 := by intro h; rw [h] at hs; simp at hs
    have hh0 : f dth ≠ 0 := by intro h; rw [h] at hs; simp at hs
    have hm0 : f (0.5 * (dtl + dth)) ≠ 0 := by
      intro h
      apply c2
      have : new = 0.5 * (dtl + dth) := by rw [hnew, h]; simp
      rw [this, h]
    by_cases c3 : sign (f (0.5 * (dtl + dth))) (f new) ≠ f (0.5 * (dtl + dth))
    · rw [if_pos c3]
      by_cases c4 : |new - 0.5 * (dtl + dth)| ≤ timeAcc
      · rw [if_pos c4]; exact Or.inr hb
      · rw [if_neg c4]
        exact ih _ _ _ ((sign_iff c2 hm0).1 c3) hm.1 hm.2 hb.1 hb.2 (Or.inl hb)
    rw [if_neg c3]
    by_cases c5 : sign (f dtl) (f new) ≠ f dtl
    · rw [if_pos c5]
      by_cases c4 : |new - dtl| ≤ timeAcc
      · rw [if_pos c4]; exact Or.inr hb
      · rw [if_neg c4]
        exact ih _ _ _ ((sign_iff c2 hl0).1 c5) h1 h2 hb.1 hb.2 (Or.inl hb)
    rw [if_neg c5]
    have c6 : sign (f dth) (f new) ≠ f dth := by
      rw [sign_iff c2 hh0]
      have hn : ¬ f dtl * f new < 0 := fun h => c5 ((sign_iff c2 hl0).2 h)
      have hn' : 0 < f dtl * f new := lt_of_le_of_ne (not_lt.1 hn) (Ne.symm (mul_ne_zero hl0 c2))
      by_contra hc
      have h5 : 0 < f dth * f new := lt_of_le_of_ne (not_lt.1 hc) (Ne.symm (mul_ne_zero hh0 c2))
      have h6 : 0 < (f dtl * f dth) * (f new * f new) := by nlinarith
      have h7 : 0 < f new * f new := lt_of_le_of_ne (mul_self_nonneg _) (Ne.symm (mul_ne_zero c2 c2))
      nlinarith
    rw [if_pos c6]
    by_cases c4 : |dth - new| ≤ timeAcc
    · rw [if_pos c4]; exact Or.inr hb
    · rw [if_neg c4]
      exact ih _ _ _ (by rw [mul_comm]; exact (sign_iff c2 hh0).1 c6) hb.1 hb.2 h3 h4 (Or.inl hb)

theorem far {s : ℝ} (hs : 0 ≤ s) : ¬ |s - -fltMax| ≤ timeAcc := by
  rw [sub_neg_eq_add, abs_of_nonneg (by unfold fltMax; linarith)]
  unfold fltMax timeAcc
  norm_num
  linarith

theorem ridder_line {a b dt : ℝ} (h : a * (a + b * dt) < 0) (hd : 0 ≤ dt) : ridder (fun s => a + b * s) dt = -a / b := by
  have hb : b * dt ≠ 0 := by
    intro hb
    rw [hb, add_zero] at h
    have := mul_self_nonneg a
    linarith
  have hdt : dt ≠ 0 := by rintro rfl; simp at hb
  have hb0 : b ≠ 0 := by rintro rfl; simp at hb
  have hd' : 0 < dt := lt_of_le_of_ne hd (Ne.symm hdt)
  unfold ridder
  simp only [mul_zero, add_zero]
  have hsg : (a > 0 ∧ a + b * dt < 0) ∨ (a < 0 ∧ a + b * dt > 0) := by
    rcases lt_trichotomy a 0 with h' | h' | h'
    · right
      exact ⟨h', by nlinarith⟩
    · rw [h'] at h; simp at h
    · left
      exact ⟨h', by nlinarith⟩
  rw [if_pos hsg, ridLoop]
  simp only [zero_add]
  have hp := root_pos (fm := a + b * (0.5 * dt)) h
  rw [if_neg hp.ne']
  have hs : √((a + b * (0.5 * dt)) * (a + b * (0.5 * dt)) - a * (a + b * dt)) = |b| * dt / 2 := by
    rw [show (a + b * (0.5 * dt)) * (a + b * (0.5 * dt)) - a * (a + b * dt) = (|b| * dt / 2) ^ 2 by
      rw [div_pow, mul_pow, sq_abs]; ring]
    exact Real.sqrt_sq (by positivity)
  have hnew : 0.5 * dt + (0.5 * dt - 0) * ((if a ≥ a + b * dt then a + b * (0.5 * dt) else -(a + b * (0.5 * dt))) /
      √((a + b * (0.5 * dt)) * (a + b * (0.5 * dt)) - a * (a + b * dt))) = -a / b := by
    rw [hs]
    rcases lt_or_gt_of_ne hb0 with h' | h'
    · have hbd : b * dt < 0 := mul_neg_of_neg_of_pos h' hd'
      rw [if_pos (by linarith), abs_of_neg h']
      field_simp
      ring
    · have hbd : 0 < b * dt := mul_pos h' hd'
      rw [if_neg (by linarith), abs_of_pos h']
      field_simp
      ring
  have h0 : 0 ≤ -a / b := by
    rcases hsg with ⟨h1, h2⟩ | ⟨h1, h2⟩
    · have : b < 0 := by nlinarith
      exact div_nonneg_of_nonpos (by linarith) this.le
    · have : 0 < b := by
        by_contra hn
        have := mul_nonneg_of_nonpos_of_nonpos (not_lt.1 hn) (neg_nonpos.2 hd)
        linarith
      exact div_nonneg (by linarith) this.le
  rw [hnew, if_neg (far h0), if_pos (by field_simp; ring)]

theorem ridder_first {f : ℝ → ℝ} {dt : ℝ} (h : f 0 = 0) : ridder f dt = 0 := by
  unfold ridder
  simp only [h, lt_irrefl, gt_iff_lt, false_and, or_self, if_false, if_true]

theorem ridder_last {f : ℝ → ℝ} {dt : ℝ} (h : f dt = 0) (h0 : f 0 ≠ 0) : ridder f dt = dt := by
  unfold ridder
  simp only [h, lt_irrefl, gt_iff_lt, and_false, or_self, if_false, if_true, if_neg h0]

theorem ridder_cases (f : ℝ → ℝ) {dt : ℝ} (hd : 0 ≤ dt) :
    (ridder f dt = -3 ∧ 0 < f 0 * f dt) ∨ (f 0 * f dt ≤ 0 ∧ (ridder f dt = -2 ∨ (0 ≤ ridder f dt ∧ ridder f dt ≤ dt))) := by
  by_cases hs : f 0 * f dt < 0
  · right
    refine ⟨hs.le, ?_⟩
    have hsg : (f 0 > 0 ∧ f dt < 0) ∨ (f 0 < 0 ∧ f dt > 0) := by
      rcases mul_neg_iff.1 hs with h | h
      · exact Or.inl h
      · exact Or.inr h
    unfold ridder
    simp only
    rw [if_pos hsg]
    exact ridLoop_range 10 0 dt _ hs le_rfl hd hd le_rfl (Or.inr fun s hs _ => far hs)
  · have hsg : ¬ ((f 0 > 0 ∧ f dt < 0) ∨ (f 0 < 0 ∧ f dt > 0)) := by
      intro h
      apply hs
      rcases h with h | h
      · exact mul_neg_of_pos_of_neg h.1 h.2
      · exact mul_neg_of_neg_of_pos h.1 h.2
    unfold ridder
    simp only
    rw [if_neg hsg]
    by_cases h0 : f 0 = 0
    · rw [if_pos h0, h0]
      right
      exact ⟨by simp, Or.inr ⟨le_rfl, hd⟩⟩
    rw [if_neg h0]
    by_cases h1 : f dt = 0
    · rw [if_pos h1, h1]
      right
      exact ⟨by simp, Or.inr ⟨hd, le_rfl⟩⟩
    rw [if_neg h1]
    left
    exact ⟨rfl, lt_of_le_of_ne (not_lt.1 hs) (Ne.symm (mul_ne_zero h0 h1))⟩

/-! ### absorbing slits -/

theorem off_x (e : Event ℝ) (s : ℝ) : (flown Off e s).r.x = e.r.x + e.v.x * s := by simp [flown, accel, Off, mul_comm]
theorem off_y (e : Event ℝ) (s : ℝ) : (flown Off e s).r.y = e.r.y + e.v.y * s := by simp [flown, accel, Off, mul_comm]
theorem off_z (e : Event ℝ) (s : ℝ) : (flown Off e s).r.z = e.r.z + e.v.z * s := by simp [flown, accel, Off, mul_comm]
theorem off_t (e : Event ℝ) (s : ℝ) : (flown Off e s).t = e.t + s := rfl
theorem off_v' (e : Event ℝ) (s : ℝ) : (flown Off e s).v = e.v := by ext <;> simp [flown, accel, Off]

theorem flown_twice (e : Event ℝ) (a b : ℝ) : flown Off (flown Off e a) b = flown Off e (a + b) := by
  ext
  · rw [off_x, off_x, off_x, off_v']; ring
  · rw [off_y, off_y, off_y, off_v']; ring
  · rw [off_z, off_z, off_z, off_v']; ring
  · rw [off_v', off_v', off_v']
  · rw [off_v', off_v', off_v']
  · rw [off_v', off_v', off_v']
  · rfl
  · rfl
  · rw [off_t, off_t, off_t]; ring
  · rfl

theorem flown_none (e : Event ℝ) : flown Off e 0 = e := by
  ext
  · rw [off_x]; ring
  · rw [off_y]; ring
  · rw [off_z]; ring
  · rw [off_v']
  · rw [off_v']
  · rw [off_v']
  · rfl
  · rfl
  · rw [off_t]; ring
  · rfl

theorem xAt_flown (f : Frame) (e : Event ℝ) (s : ℝ) :
    f.xAt e s = f.xrot (flown Off e s).r.x (flown Off e s).r.z (flown Off e s).t := by
  rw [xAt_eq, off_x, off_z, off_t]

theorem zAt_flown (f : Frame) (e : Event ℝ) (s : ℝ) :
    f.zAt e s = f.zrot (flown Off e s).r.x (flown Off e s).r.z (flown Off e s).t := by
  rw [zAt_eq, off_x, off_z, off_t]

theorem ite_or {α : Type} {q : Prop} [Decidable q] {a b d : α} (h : (if q then a else b) = d) : (q ∧ a = d) ∨ (¬ q ∧ b = d) := by
  split at h
  · exact Or.inl ⟨‹_›, h⟩
  · exact Or.inr ⟨‹_›, h⟩

theorem loop_dark {c : Fc} (hm : c.m = 0 ∨ c.R0 = 0) (f : Frame) (G : Gravity) (k : ℕ) (e : Event ℝ) (dt : ℝ) (n : ℤ) :
    c.loop f G (k + 2) e dt n = if ⌊f.xAt e dt / c.w⌋ = n ∧ ⌊f.xAt e (f.tangent e dt) / c.w⌋ = n then some e else none := by
  rw [Fc.loop]
  simp only
  by_cases h : ⌊f.xAt e dt / c.w⌋ = n ∧ ⌊f.xAt e (f.tangent e dt) / c.w⌋ = n
  · rw [if_pos h, if_neg (by tauto), if_neg (by omega)]
  · rw [if_neg h, if_pos (by tauto), if_pos hm]

/-- what is known about a neutron that passes slits without coating -/
theorem slots_dark {c : Fc} (hm : c.m = 0 ∨ c.R0 = 0) {f : Frame} {e e' : Event ℝ} {dt : ℝ} (h : c.slots f Off e dt = some e') :
    ∃ s d d', 0 ≤ s ∧ e' = flown Off e s ∧ |f.xrot e.r.x e.r.z e.t| < c.Nslit * c.w / 2 ∧ |f.xrot e'.r.x e'.r.z e'.t| < c.Nslit * c.w / 2 ∧
      c.length / 2 ≤ |f.zrot e.r.x e.r.z e.t| ∧ s ≤ dt ∧
      d = (let r := ridder (fun s => f.zAt e' s - -(if f.zrot e.r.x e.r.z e.t > 0 then c.length / 2 else -c.length / 2)) (dt - s)
        if r < 0 ∨ r > dt - s then dt - s else r) ∧ d' = f.tangent e' d ∧
      ⌊f.xAt e' d / c.w⌋ = ⌊f.xrot e'.r.x e'.r.z e'.t / c.w⌋ ∧ ⌊f.xAt e' d' / c.w⌋ = ⌊f.xrot e'.r.x e'.r.z e'.t / c.w⌋ := by
  unfold Fc.slots at h
  simp only at h
  by_cases c1 : |f.xrot e.r.x e.r.z e.t| ≥ c.Nslit * c.w / 2
  · rw [if_pos c1] at h; simp at h
  rw [if_neg c1] at h
  by_cases c2 : |f.zrot e.r.x e.r.z e.t| < c.length / 2
  · rw [if_pos c2] at h; simp at h
  rw [if_neg c2] at h
  revert h
  generalize hs : ridder (fun s => f.zAt e s - (if f.zrot e.r.x e.r.z e.t > 0 then c.length / 2 else -c.length / 2)) dt = s
  intro h
  by_cases c3 : s < 0 ∨ s > dt
  · rw [if_pos c3] at h; simp at h
  rw [if_neg c3] at h
  have h0 : 0 ≤ s := by by_contra hn; exact c3 (Or.inl (not_le.1 hn))
  rw [prop_off h0] at h
  by_cases c4 : |f.xrot (flown Off e s).r.x (flown Off e s).r.z (flown Off e s).t| ≥ c.Nslit * c.w / 2
  · rw [if_pos c4] at h; simp at h
  rw [if_neg c4, loop_dark hm] at h
  rcases ite_or h with ⟨c5, h⟩ | ⟨-, h⟩
  · have h' := Option.some.inj h
    subst h'
    exact ⟨s, _, _, h0, rfl, not_le.1 c1, not_le.1 c4, not_lt.1 c2, by by_contra hn; exact c3 (Or.inr (not_le.1 hn)), rfl, rfl, c5.1, c5.2⟩
  · simp at h

/-! ### the speed -/

theorem prop_v (s : ℝ) (e : Event ℝ) : (propDt Off s e).v = e.v := by
  unfold propDt
  split
  · rfl
  · rw [if_neg (by simp [Off])]
    rfl

theorem turn_sq (f : Frame) (hC : f.C = 0) (X Z T : ℝ) : f.xrot X Z T ^ 2 + f.zrot X Z T ^ 2 = X ^ 2 + Z ^ 2 := by
  rw [xrot_straight hC]
  unfold Frame.zrot
  have := Real.sin_sq_add_cos_sq (f.omega * T + f.ph0)
  linear_combination (X ^ 2 + Z ^ 2) * this

theorem reflect_speed {c : Fc} {f : Frame} (hC : f.C = 0) {e e' : Event ℝ} (h : c.reflect f e = some e') :
    e'.v.x ^ 2 + e'.v.z ^ 2 = e.v.x ^ 2 + e.v.z ^ 2 ∧ e'.v.y = e.v.y := by
  unfold Fc.reflect at h
  simp only [Option.map_eq_some_iff] at h
  obtain ⟨R, -, rfl⟩ := h
  refine ⟨?_, rfl⟩
  simp only
  have h1 := turn_sq f hC e.v.x e.v.z e.t
  rw [← h1, xrot_straight hC (-f.xrot e.v.x e.v.z e.t)]
  rw [show f.zrot (- -f.xrot e.v.x e.v.z e.t) (f.zrot e.v.x e.v.z e.t) e.t =
    f.zrot e.v.x e.v.z e.t * Real.cos (f.omega * e.t + f.ph0) - f.xrot e.v.x e.v.z e.t * Real.sin (f.omega * e.t + f.ph0) by
      rw [neg_neg]; rfl]
  have := Real.sin_sq_add_cos_sq (f.omega * e.t + f.ph0)
  linear_combination (f.xrot e.v.x e.v.z e.t ^ 2 + f.zrot e.v.x e.v.z e.t ^ 2) * this

theorem loop_speed {c : Fc} {f : Frame} (hC : f.C = 0) : ∀ (k : ℕ) (e : Event ℝ) (dt : ℝ) (n : ℤ) (e' : Event ℝ),
    c.loop f Off k e dt n = some e' → e'.v.x ^ 2 + e'.v.z ^ 2 = e.v.x ^ 2 + e.v.z ^ 2 ∧ e'.v.y = e.v.y := by
  intro k
  induction k with
  | zero => intro e dt n e' h; simp [Fc.loop] at h
  | succ k ih =>
    intro e dt n e' h
    rw [Fc.loop] at h
    simp only at h
    rcases ite_or h with ⟨-, h⟩ | ⟨-, h⟩
    · rcases ite_or h with ⟨-, h⟩ | ⟨-, h⟩
      · simp at h
      · rcases ite_or h with ⟨-, h⟩ | ⟨-, h⟩
        · rcases ite_or h with ⟨-, h⟩ | ⟨-, h⟩
          · simp at h
          · obtain rfl := Option.some.inj h
            exact ⟨rfl, rfl⟩
        · revert h
          generalize hr : c.reflect f _ = r
          intro h
          rcases r with _ | e1
          · simp at h
          · have h1 := reflect_speed hC hr
            rw [prop_v] at h1
            have h2 := ih _ _ _ _ h
            exact ⟨h2.1.trans h1.1, h2.2.trans h1.2⟩
    · rcases ite_or h with ⟨-, h⟩ | ⟨-, h⟩
      · simp at h
      · obtain rfl := Option.some.inj h
        exact ⟨rfl, rfl⟩

theorem slots_speed {c : Fc} {f : Frame} (hC : f.C = 0) {e e' : Event ℝ} {dt : ℝ} (h : c.slots f Off e dt = some e') :
    e'.v.x ^ 2 + e'.v.z ^ 2 = e.v.x ^ 2 + e.v.z ^ 2 ∧ e'.v.y = e.v.y := by
  unfold Fc.slots at h
  simp only at h
  obtain ⟨-, h⟩ := Option.ite_none_left_eq_some.1 h
  obtain ⟨-, h⟩ := Option.ite_none_left_eq_some.1 h
  obtain ⟨-, h⟩ := Option.ite_none_left_eq_some.1 h
  obtain ⟨-, h⟩ := Option.ite_none_left_eq_some.1 h
  have h2 := loop_speed hC _ _ _ _ _ h
  rw [prop_v] at h2
  exact h2

/-! ### a chopper at rest -/

/-- the frame of a chopper at rest with straight slits along z -/
noncomputable def still (L : ℝ) : Frame := ⟨0, 0, 0, L⟩

theorem still_x (L X Z T : ℝ) : (still L).xrot X Z T = X := by
  rw [xrot_straight (by rfl)]; simp [still]
theorem still_z (L X Z T : ℝ) : (still L).zrot X Z T = Z := by
  unfold Frame.zrot; simp [still]
theorem still_xAt (L : ℝ) (e : Event ℝ) (s : ℝ) : (still L).xAt e s = e.r.x + e.v.x * s := by rw [xAt_eq, still_x]
theorem still_zAt (L : ℝ) (e : Event ℝ) (s : ℝ) : (still L).zAt e s = e.r.z + e.v.z * s := by rw [zAt_eq, still_z]
theorem still_tangent (L : ℝ) (e : Event ℝ) {dt : ℝ} (hd : 0 ≤ dt) : (still L).tangent e dt = dt / 2 := by
  unfold Frame.tangent
  have ho : (still L).omega = 0 := rfl
  simp only [still_x, still_xAt, ho, mul_zero, add_zero, sub_self, ne_eq, not_true_eq_false, if_false]
  rw [if_pos (Or.inl (by norm_num))]
  ring

theorem slit_iff {w : ℝ} (hw : 0 < w) (x : ℝ) (n : ℤ) : ⌊x / w⌋ = n ↔ InSlit w n x := by
  unfold InSlit
  rw [Int.floor_eq_iff, le_div_iff₀ hw, div_lt_iff₀ hw]

theorem one_slit {w : ℝ} (hw : 0 < w) (x v d : ℝ) (hd : 0 ≤ d) :
    (⌊(x + v * d) / w⌋ = ⌊x / w⌋ ∧ ⌊(x + v * (d / 2)) / w⌋ = ⌊x / w⌋) ↔ ∃ n : ℤ, ∀ s, 0 ≤ s → s ≤ d → InSlit w n (x + v * s) := by
  constructor
  · rintro ⟨h1, -⟩
    refine ⟨⌊x / w⌋, fun s hs hs' => ?_⟩
    obtain ⟨a, b⟩ := (slit_iff hw _ _).1 h1
    obtain ⟨a', b'⟩ := (slit_iff hw x _).1 rfl
    rcases le_total 0 v with hv | hv
    · have h2 : 0 ≤ v * s := mul_nonneg hv hs
      have h3 : v * s ≤ v * d := mul_le_mul_of_nonneg_left hs' hv
      exact ⟨by linarith, by linarith⟩
    · have h2 : v * s ≤ 0 := mul_nonpos_of_nonpos_of_nonneg hv hs
      have h3 : v * d ≤ v * s := mul_le_mul_of_nonpos_left hs' hv
      exact ⟨by linarith, by linarith⟩
  · rintro ⟨n, h⟩
    have h0 := (slit_iff hw _ _).2 (h 0 le_rfl hd)
    rw [mul_zero, add_zero] at h0
    rw [h0]
    exact ⟨(slit_iff hw _ _).2 (h d hd le_rfl), (slit_iff hw _ _).2 (h (d / 2) (by linarith) (by linarith))⟩

theorem still_slots {c : Fc} (hm : c.m = 0 ∨ c.R0 = 0) (hw : 0 < c.w) (hL : 0 < c.length) {e : Event ℝ} {dt : ℝ} (hv : 0 < e.v.z)
    (hz : e.r.z ≤ -(c.length / 2)) (hd : c.length / 2 ≤ e.r.z + e.v.z * dt) :
    c.slots (still c.length) Off e dt =
      if |e.r.x| < c.Nslit * c.w / 2 ∧ |(flown Off e ((-(c.length / 2) - e.r.z) / e.v.z)).r.x| < c.Nslit * c.w / 2 ∧
        ∃ n : ℤ, ∀ s, 0 ≤ s → s ≤ c.length / e.v.z → InSlit c.w n (flown Off e ((-(c.length / 2) - e.r.z) / e.v.z + s)).r.x
      then some (flown Off e ((-(c.length / 2) - e.r.z) / e.v.z)) else none := by
  have hs1 : 0 ≤ (-(c.length / 2) - e.r.z) / e.v.z := div_nonneg (by linarith) hv.le
  have hs2 : (-(c.length / 2) - e.r.z) / e.v.z ≤ dt := by rw [div_le_iff₀ hv]; linarith
  unfold Fc.slots
  simp only [still_x, still_z]
  by_cases c1 : |e.r.x| ≥ c.Nslit * c.w / 2
  · rw [if_pos c1, if_neg (by intro h; linarith [h.1])]
  rw [if_neg c1, if_neg (by rw [abs_of_neg (by linarith)]; linarith), if_neg (by linarith : ¬ e.r.z > 0)]
  have hr : ridder (fun s => (still c.length).zAt e s - -c.length / 2) dt = (-(c.length / 2) - e.r.z) / e.v.z := by
    have hf : (fun s => (still c.length).zAt e s - -c.length / 2) = fun s => (e.r.z + c.length / 2) + e.v.z * s := by
      funext s; rw [still_zAt]; ring
    rw [hf]
    rcases eq_or_lt_of_le hz with h | h
    · rw [ridder_first (by rw [h]; ring), h]; simp
    · rw [ridder_line (by
        apply mul_neg_of_neg_of_pos
        · linarith
        · linarith) (le_trans hs1 hs2)]
      congr 1; ring
  rw [hr, if_neg (by push Not; exact ⟨hs1, hs2⟩), prop_off hs1]
  generalize hs : (-(c.length / 2) - e.r.z) / e.v.z = s at *
  by_cases c2 : |(flown Off e s).r.x| ≥ c.Nslit * c.w / 2
  · rw [if_pos c2, if_neg (by intro h; linarith [h.2.1])]
  rw [if_neg c2]
  have hz1 : (flown Off e s).r.z = -(c.length / 2) := by
    rw [off_z, ← hs]; field_simp; ring
  have hr2 : ridder (fun t => (still c.length).zAt (flown Off e s) t - -(-c.length / 2)) (dt - s) = c.length / e.v.z := by
    have hf : (fun t => (still c.length).zAt (flown Off e s) t - -(-c.length / 2)) = fun t => -c.length + e.v.z * t := by
      funext t; rw [still_zAt, hz1, off_v']; ring
    rw [hf]
    have hvs : e.v.z * s = -(c.length / 2) - e.r.z := by rw [← hs]; field_simp
    rcases eq_or_lt_of_le hd with h | h
    · have hdt : dt - s = c.length / e.v.z := by
        rw [eq_div_iff hv.ne']
        linarith
      rw [ridder_last (by rw [hdt]; field_simp; ring) (by simp; exact hL.ne'), hdt]
    · rw [ridder_line (by
        apply mul_neg_of_neg_of_pos
        · linarith
        · linarith) (by linarith)]
      rw [neg_neg]
  have hd2 : c.length / e.v.z ≤ dt - s := by
    rw [div_le_iff₀ hv]
    have hvs : e.v.z * s = -(c.length / 2) - e.r.z := by rw [← hs]; field_simp
    linarith
  have hp : 0 ≤ c.length / e.v.z := (div_pos hL hv).le
  rw [hr2, if_neg (by push Not; exact ⟨hp, hd2⟩), loop_dark hm, still_tangent _ _ hp, still_xAt, still_xAt, off_v']
  have hi := one_slit hw (flown Off e s).r.x e.v.x _ hp
  have hfl : ∀ t, (flown Off e (s + t)).r.x = (flown Off e s).r.x + e.v.x * t := by
    intro t; rw [off_x, off_x]; ring
  simp only [hfl]
  by_cases c3 : ∃ n : ℤ, ∀ t, 0 ≤ t → t ≤ c.length / e.v.z → InSlit c.w n ((flown Off e s).r.x + e.v.x * t)
  · rw [if_pos (hi.2 c3), if_pos ⟨not_le.1 c1, not_le.1 c2, c3⟩]
  · rw [if_neg (fun h => c3 (hi.1 h)), if_neg (fun h => c3 h.2.2)]

/-! ### the whole component -/

theorem leave_cases {c : Fc} (he : 0 < c.eff) {f : Frame} {s s' : St} {e e' : Event ℝ} (h : c.leave f Off s e = .ok (e', s')) :
    e'.v = e.v ∧ s'.ph0 = s.ph0 ∧ (e'.p < 0 ∨ ∃ t, e' = { flown Off e t with p := e.p * c.eff } ∧ |e'.r.y| < 0.99 * c.height / 2 ∧
      |f.xrot e'.r.x e'.r.z e'.t| < c.Nslit * c.w / 2) := by
  unfold Fc.leave at h
  rcases hc : cylinderIntersect e.r e.v c.radius c.height with _ | _ | ⟨k, t1, t2⟩
  · rw [hc] at h; simp at h
  · rw [hc] at h
    simp only [Except.ok.injEq, Prod.mk.injEq] at h
    obtain ⟨rfl, rfl⟩ := h
    exact ⟨rfl, rfl, Or.inl (by norm_num [absorb])⟩
  rw [hc] at h
  simp only at h
  rcases ite_or h with ⟨-, h⟩ | ⟨-, h⟩
  · simp only [Except.ok.injEq, Prod.mk.injEq] at h
    obtain ⟨rfl, rfl⟩ := h
    exact ⟨rfl, rfl, Or.inl (by norm_num [absorb])⟩
  rcases ite_or h with ⟨-, h⟩ | ⟨-, h⟩
  · simp only [Except.ok.injEq, Prod.mk.injEq] at h
    obtain ⟨rfl, rfl⟩ := h
    exact ⟨rfl, rfl, Or.inl (by norm_num [absorb])⟩
  rcases ite_or h with ⟨-, h⟩ | ⟨c1, h⟩
  · simp only [Except.ok.injEq, Prod.mk.injEq] at h
    obtain ⟨rfl, rfl⟩ := h
    exact ⟨prop_v _ _, rfl, Or.inl (by norm_num [absorb])⟩
  rcases ite_or h with ⟨-, h⟩ | ⟨c2, h⟩
  · simp only [Except.ok.injEq, Prod.mk.injEq] at h
    obtain ⟨rfl, rfl⟩ := h
    exact ⟨prop_v _ _, rfl, Or.inl (by norm_num [absorb])⟩
  simp only [Except.ok.injEq, Prod.mk.injEq] at h
  obtain ⟨rfl, rfl⟩ := h
  refine ⟨prop_v _ _, rfl, ?_⟩
  by_cases ht : t2 < -1e-15
  · left
    unfold propDt
    rw [if_pos ht]
    simp only [absorb]
    linarith
  · right
    have hp : propDt Off t2 e = flown Off e t2 := by
      unfold propDt
      rw [if_neg ht, if_neg (by simp [Off]), propDtFree_eq (G := Off) rfl]
    rw [hp] at c1 c2 ⊢
    exact ⟨t2, rfl, not_le.1 c1, not_le.1 c2⟩

/-- what `trace` does -/
theorem trace_cases {c : Fc} {s s' : St} {e e' : Event ℝ} (hz : c.reset e.t = e.t) (h : c.trace Off s e = .ok (e', s')) :
    (cylinderIntersect e.r e.v c.radius c.height = some none ∧ e' = e ∧ s' = s) ∨ (e'.p = -1 ∧ e'.v = e.v) ∨
    ∃ k t1 t2 e2, cylinderIntersect e.r e.v c.radius c.height = some (some (k, t1, t2)) ∧ 0 < t1 ∧
      c.slots (c.frame (c.adjust s (flown Off e t1)).ph0) Off (flown Off e t1) (t2 - t1) = some e2 ∧
      |(flown Off e t1).r.y| < 0.99 * c.height / 2 ∧
      c.leave (c.frame (c.adjust s (flown Off e t1)).ph0) Off (c.adjust s (flown Off e t1)) e2 = .ok (e', s') := by
  unfold Fc.trace at h
  rw [hz] at h
  simp only at h
  rcases hc : cylinderIntersect e.r e.v c.radius c.height with _ | _ | ⟨k, t1, t2⟩
  · rw [hc] at h; simp at h
  · rw [hc] at h
    simp only [Except.ok.injEq, Prod.mk.injEq] at h
    exact Or.inl ⟨rfl, h.1.symm, h.2.symm⟩
  rw [hc] at h
  simp only at h
  right
  rcases ite_or h with ⟨-, h⟩ | ⟨c1, h⟩
  · simp only [Except.ok.injEq, Prod.mk.injEq] at h
    obtain ⟨rfl, rfl⟩ := h
    exact Or.inl ⟨rfl, rfl⟩
  have ht1 : 0 < t1 := not_le.1 c1
  rw [prop_off ht1.le] at h
  rcases ite_or h with ⟨-, h⟩ | ⟨c2, h⟩
  · simp only [Except.ok.injEq, Prod.mk.injEq] at h
    obtain ⟨rfl, rfl⟩ := h
    exact Or.inl ⟨rfl, off_v' _ _⟩
  push Not at c2
  rcases hs : c.slots (c.frame (c.adjust s (flown Off e t1)).ph0) Off (flown Off e t1) (t2 - t1) with _ | e2
  · rw [hs] at h
    simp only [Except.ok.injEq, Prod.mk.injEq] at h
    obtain ⟨rfl, rfl⟩ := h
    exact Or.inl ⟨rfl, off_v' _ _⟩
  · rw [hs] at h
    refine Or.inr ⟨k, t1, t2, e2, rfl, ht1, hs, ?_, h⟩
    rw [abs_lt]
    constructor <;> linarith [c2.1, c2.2]

/-! ### a reflection at rest is repeated for ever -/

/-- a neutron at the wall between two slits, flying away from the slit that is taken for its own -/
theorem pingpong {c : Fc} (hm : c.m ≠ 0) (hR : c.R0 ≠ 0) (hw : c.w = 1) (hL : c.length = 2) (hQ : 2 * V2K * 3 ≤ c.Qc) :
    ∀ (k : ℕ) (e : Event ℝ) (dt : ℝ) (n : ℤ), 0 < dt → dt ≤ 1 / 12 → e.r.x = 1 → |e.r.z| ≤ 1 →
      (e.v.x = 3 ∧ n = 0 ∨ e.v.x = -3 ∧ n = 1) → c.loop (still 2) Off k e dt n = none := by
  intro k
  induction k with
  | zero => intros; rfl
  | succ k ih =>
    intro e dt n hd hd' hx hz hv
    rw [Fc.loop]
    simp only [still_tangent _ _ hd.le, still_xAt, hw, div_one, hx]
    have hn : ⌊(1 : ℝ) + e.v.x * (dt / 2)⌋ = 1 - n := by
      rcases hv with ⟨h1, h2⟩ | ⟨h1, h2⟩
      · rw [h1, h2, Int.floor_eq_iff]; constructor <;> push_cast <;> linarith
      · rw [h1, h2, Int.floor_eq_iff]; constructor <;> push_cast <;> linarith
    have hne : (1 : ℤ) - n ≠ n := by omega
    rw [hn, if_pos (Or.inr hne), if_neg (by tauto), if_pos hne, if_pos hne]
    have hwall : c.wall n (1 - n) = 1 := by
      unfold Fc.wall
      rw [hw]
      rcases hv with ⟨-, h2⟩ | ⟨-, h2⟩
      · rw [h2, if_pos (by norm_num)]; norm_num
      · rw [h2, if_neg (by norm_num)]; norm_num
    have ht : (still 2).toWall e (dt / 2) (c.wall n (1 - n)) = 0 := by
      unfold Frame.toWall
      rw [hwall, ridder_first (by rw [still_xAt, hx]; ring)]
      simp only
      rw [if_neg (by push Not; exact ⟨le_rfl, by linarith⟩)]
    rw [ht, still_zAt, hL, if_neg (by rw [mul_zero, add_zero]; norm_num; exact hz), prop_off le_rfl, flown_none]
    have hrf : c.reflect (still 2) e = some { e with p := e.p * c.R0, v := ⟨-e.v.x, e.v.y, e.v.z⟩ } := by
      unfold Fc.reflect Fc.weight
      simp only [still_x, still_z]
      rw [if_neg]
      · rfl
      · rcases hv with ⟨h1, -⟩ | ⟨h1, -⟩ <;> rw [h1] <;> norm_num <;> linarith
    rw [hrf]
    simp only
    apply ih
    · linarith
    · linarith
    · exact hx
    · exact hz
    · rcases hv with ⟨h1, h2⟩ | ⟨h1, h2⟩
      · right; simp only [h1, h2]; norm_num
      · left; simp only [h1, h2]; norm_num

theorem cylinder_root {p v : V3 ℝ} {r h s : ℝ} (hs : 0 ≤ s) (hv : 2 * (v.z * v.z + v.x * v.x) ≠ 0)
    (hD : (2 * v.x * p.x + 2 * v.z * p.z) * (2 * v.x * p.x + 2 * v.z * p.z) - 4 * (v.x * v.x + v.z * v.z) * (p.x * p.x + p.z * p.z - r * r) = s ^ 2) :
    cylinderIntersect p v r h = cylinderEnds p.y v.y h ((-(2 * v.z * p.z + 2 * v.x * p.x) - s) / (2 * (v.z * v.z + v.x * v.x)))
      ((-(2 * v.z * p.z + 2 * v.x * p.x) + s) / (2 * (v.z * v.z + v.x * v.x))) := by
  unfold cylinderIntersect
  simp only
  rw [if_pos (by rw [hD]; positivity), hD, Real.sqrt_sq hs]
  simp only [Option.bind_eq_bind, divD_ok hv, Option.bind_some]

end Verif.McRotor
