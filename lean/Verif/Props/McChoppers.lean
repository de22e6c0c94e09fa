import Verif.Lemmas.McOptics
import Mathlib.Analysis.Real.Pi.Bounds
/-!
Property theorems C178 and C179: the disk choppers of McStas.
-/

namespace Verif.McOpt
open McStas Kinem Homog McMon
open Classical

/-! ### disk chopper -/

/-- C178: an opening given by its width has the angle (in degrees) under which the width is a chord of the disk; without a width the
angle is the one that is given -/
theorem C178_width (w R theta : ℝ) (hR : 0 < R) : slitAngle 0 R theta = some theta ∧
    (0 < w → w ≤ 2 * R → ∃ a, slitAngle w R theta = some a ∧ 0 < a ∧ a ≤ 180 ∧ 2 * R * Real.sin (a / 2 * (Real.pi / 180)) = w) ∧
    (2 * R < w → slitAngle w R theta = none) := by
  have hp := Real.pi_pos
  refine ⟨by simp [slitAngle], fun h0 h1 => ?_, fun h1 => ?_⟩
  · have hb : w / 2 / R ≤ 1 := by rw [div_le_one hR]; linarith
    have hb' : 0 < w / 2 / R := by positivity
    refine ⟨2 * (180 / Real.pi) * Real.arcsin (w / 2 / R), ?_, ?_, ?_, ?_⟩
    · unfold slitAngle
      rw [if_pos h0.ne', divD_ok hR.ne']
      simp only [Option.bind_eq_bind, Option.bind_some, Powder.asinD]
      rw [if_neg (by rintro (h | h) <;> linarith)]
      rfl
    · have := Real.arcsin_pos.2 hb'
      positivity
    · have := Real.arcsin_le_pi_div_two (w / 2 / R)
      calc 2 * (180 / Real.pi) * Real.arcsin (w / 2 / R) ≤ 2 * (180 / Real.pi) * (Real.pi / 2) := by gcongr
        _ = 180 := by field_simp
    · rw [show 2 * (180 / Real.pi) * Real.arcsin (w / 2 / R) / 2 * (Real.pi / 180) = Real.arcsin (w / 2 / R) by field_simp,
        Real.sin_arcsin (by linarith) hb]
      field_simp
  · have hb : 1 < w / 2 / R := by rw [lt_div_iff₀ hR]; linarith
    unfold slitAngle
    rw [if_pos (by linarith), divD_ok hR.ne']
    simp only [Option.bind_eq_bind, Option.bind_some, Powder.asinD]
    rw [if_pos (Or.inr hb)]
    rfl

example : (0 : ℝ) < 1 ∧ (0 : ℝ) < 1 ∧ (1 : ℝ) ≤ 2 * 1 := by norm_num

/-- C178, partial: a neutron that comes to an ordinary disk chopper passes without a change if it is between the solid inner part and the
edge, one of the slits is there (at the time with the jitter), and not the stop in the slit; else it is absorbed.  The first slit is at the
top at the time `t_0`.  Missing: neutrons that change the height on the way to the chopper (`C178_height_false`), a delay for negative
frequencies (`C178_delay_false`). -/
theorem C178_partial {c : DiskPar} {d : Disk} (h : Disk.new c = .ok d) (hw : c.w = 0) (hwc : c.wc = 0) (hω : c.omega ≠ 0)
    (hf : c.isFirst = false) (h1 : 0 ≤ c.theta_1) (hφ : c.phi_0 = 0) (ht : 0 < c.omega ∨ c.t_0 = 0) {G : Gravity} {g u1 u2 : ℝ}
    {e a : Event ℝ} (hc : Comes G e a) (hy : a.r.y = e.r.y) :
    (¬ c.Ring a → disk d G g u1 u2 e = stopped a) ∧
    (c.Ring a →
      (¬ SlitAt c.omega c.n (c.theta_0 * (Real.pi / 180)) c.t_0 (c.angle a) (a.t + c.j * g) → disk d G g u1 u2 e = stopped a) ∧
      (SlitAt' c.omega c.n (c.theta_1 * (Real.pi / 180)) c.t_0 (c.angle a) (a.t + c.j * g) → disk d G g u1 u2 e = stopped a) ∧
      (SlitAt c.omega c.n (c.theta_0 * (Real.pi / 180)) c.t_0 (c.angle a) (a.t + c.j * g) →
        c.theta_1 = 0 ∨ ¬ SlitAt c.omega c.n (c.theta_1 * (Real.pi / 180)) c.t_0 (c.angle a) (a.t + c.j * g) →
        disk d G g u1 u2 e = a)) := by
  have hd : d.t_0 = c.t_0 := by
    rw [(new_ok h hw hwc hω).2]
    simp only [hφ, ne_eq, not_true_eq_false, if_false]
    rcases ht with ht | ht
    · rw [abs_of_pos ht, div_self hω, mul_one]
    · rw [ht, zero_mul]
  have := disk_ordinary (g := g) (u1 := u1) (u2 := u2) h hw hwc hω hf h1 (comes_prop hc) hy
  rwa [hd] at this

/-- C178, partial: the same with a phase: the first slit reaches the top after the angle `phi_0`. -/
theorem C178_phase_partial {c : DiskPar} {d : Disk} (h : Disk.new c = .ok d) (hw : c.w = 0) (hwc : c.wc = 0) (hω : c.omega ≠ 0)
    (hf : c.isFirst = false) (h1 : 0 ≤ c.theta_1) (hφ : c.phi_0 ≠ 0) {G : Gravity} {g u1 u2 : ℝ}
    {e a : Event ℝ} (hc : Comes G e a) (hy : a.r.y = e.r.y) :
    let t0 := c.phi_0 * (Real.pi / 180) / c.omega
    (¬ c.Ring a → disk d G g u1 u2 e = stopped a) ∧
    (c.Ring a →
      (¬ SlitAt c.omega c.n (c.theta_0 * (Real.pi / 180)) t0 (c.angle a) (a.t + c.j * g) → disk d G g u1 u2 e = stopped a) ∧
      (SlitAt' c.omega c.n (c.theta_1 * (Real.pi / 180)) t0 (c.angle a) (a.t + c.j * g) → disk d G g u1 u2 e = stopped a) ∧
      (SlitAt c.omega c.n (c.theta_0 * (Real.pi / 180)) t0 (c.angle a) (a.t + c.j * g) →
        c.theta_1 = 0 ∨ ¬ SlitAt c.omega c.n (c.theta_1 * (Real.pi / 180)) t0 (c.angle a) (a.t + c.j * g) →
        disk d G g u1 u2 e = a)) := by
  intro t0
  have hd : d.t_0 = t0 := by
    rw [(new_ok h hw hwc hω).2]
    simp only [if_pos hφ, t0]
    rw [mul_div_mul_left _ _ hω]
  have := disk_ordinary (g := g) (u1 := u1) (u2 := u2) h hw hwc hω hf h1 (comes_prop hc) hy
  rwa [hd] at this

/-- C178, partial: the first chopper of an instrument gives a neutron a time at which a slit is there, in one of the first `n_pulse`
pulses, and the weight times the open part of the disk.  Missing: a delay, see `C178_first_false`. -/
theorem C178_first_partial {c : DiskPar} {d : Disk} (h : Disk.new c = .ok d) (hw : c.w = 0) (hwc : c.wc = 0) (hω : c.omega ≠ 0)
    (hf : c.isFirst = true) (hφ : c.phi_0 = 0) (ht : c.t_0 = 0) {G : Gravity} {g u1 u2 : ℝ} (hu1 : 0 ≤ u1 ∧ u1 ≤ 1) (hu2 : 0 ≤ u2 ∧ u2 < 1)
    (hn : 0 < c.n_pulse) {e a : Event ℝ} (hc : Comes G e a) (hy : a.r.y = e.r.y) :
    (¬ c.Ring a → disk d G g u1 u2 e = stopped a) ∧
    (c.Ring a → ∃ (t : ℝ) (m : ℕ), (m : ℝ) < c.n_pulse ∧
      |c.angle a - c.omega * (t - m * (2 * Real.pi / |c.omega| / c.n))| ≤ c.theta_0 * (Real.pi / 180) / 2 ∧
      disk d G g u1 u2 e = { a with t := t + c.j * g, p := a.p * (c.n * c.theta_0 / 360) }) := by
  obtain ⟨⟨n0, t0, R0, k0, k1⟩, hd⟩ := new_ok h hw hwc hω
  have hp := Real.pi_pos
  have hω' : 0 < |c.omega| := abs_pos.2 hω
  have hR : (¬ c.Ring a) ↔ (a.r.x * a.r.x + c.above a * c.above a > d.R * d.R ∧ d.absOut) ∨ a.r.x * a.r.x + c.above a * c.above a < (d.R - d.height) * (d.R - d.height) := by
    unfold DiskPar.Ring
    rw [hd]
    simp only [sq, not_and_or, not_le, Classical.not_imp]
    tauto
  have hab : e.r.y + d.delta_y = c.above a := by
    rw [hd, ← hy]; rfl
  have hfirst : d.isFirst = true := by rw [hd]; exact hf
  have hang : Frames.arctan2 a.r.x (c.above a) = c.angle a := rfl
  have ht0 : d.t_0 = 0 := by rw [hd]; simp [hφ, ht]
  constructor
  · intro hr
    unfold disk
    simp only [comes_prop hc, hab]
    by_cases q1 : a.r.x * a.r.x + c.above a * c.above a > d.R * d.R ∧ d.absOut
    · rw [if_pos q1]; rfl
    · rw [if_neg q1, if_pos ((hR.1 hr).resolve_left q1)]; rfl
  · intro hr
    have q1 : ¬ (a.r.x * a.r.x + c.above a * c.above a > d.R * d.R ∧ d.absOut) := fun q => hR.2 (.inl q) hr
    have q2 : ¬ a.r.x * a.r.x + c.above a * c.above a < (d.R - d.height) * (d.R - d.height) := fun q => hR.2 (.inr q) hr
    have hm : 0 ≤ ⌊c.n_pulse * u2⌋ := Int.floor_nonneg.2 (mul_nonneg hn.le hu2.1)
    obtain ⟨m, hm'⟩ := Int.eq_ofNat_of_zero_le hm
    refine ⟨c.angle a / c.omega + d.To * (2 * u1 - 1) / 2 + m * d.Tg, m, ?_, ?_, ?_⟩
    · have h2 : (⌊c.n_pulse * u2⌋ : ℝ) ≤ c.n_pulse * u2 := Int.floor_le _
      rw [hm'] at h2
      push_cast at h2
      nlinarith [hu2.2]
    · rw [show d.Tg = 2 * Real.pi / |c.omega| / c.n by rw [hd], show d.To = c.theta_0 * (Real.pi / 180) / |c.omega| by rw [hd]]
      have : c.angle a - c.omega * (c.angle a / c.omega + c.theta_0 * (Real.pi / 180) / |c.omega| * (2 * u1 - 1) / 2 +
          m * (2 * Real.pi / |c.omega| / c.n) - m * (2 * Real.pi / |c.omega| / c.n)) =
          -(c.omega / |c.omega|) * ((c.theta_0 * (Real.pi / 180) / 2) * (2 * u1 - 1)) := by
        field_simp; ring
      rw [this, abs_mul, abs_neg, abs_div, abs_abs, div_self hω'.ne', one_mul, abs_mul, abs_of_nonneg (by positivity : 0 ≤ c.theta_0 * (Real.pi / 180) / 2)]
      refine mul_le_of_le_one_right (by positivity) (abs_le.2 ⟨by linarith [hu1.1], by linarith [hu1.2]⟩)
    · unfold disk
      simp only [comes_prop hc, hab, if_neg q1, if_neg q2, if_pos hfirst, hang, ht0]
      congr 1
      · rw [show d.j = c.j by rw [hd], show d.omega = c.omega by rw [hd], show d.n_pulse = c.n_pulse by rw [hd], hm']
        push_cast
        ring
      · rw [show d.n = c.n by rw [hd], show d.theta_0 = c.theta_0 * (Real.pi / 180) by rw [hd]]
        field_simp
        ring

example : (∃ d, Disk.new (oneSlit 1 100 false) = .ok d) ∧
    Comes ⟨false, 0⟩ ⟨⟨1 / 2, 0, -3⟩, ⟨0, 0, 2⟩, 0, 0, 0, 1⟩ ⟨⟨1 / 2, 0, 0⟩, ⟨0, 0, 2⟩, 0, 0, 3 / 2, 1⟩ ∧
    SlitAt 100 1 (1 / 10) 1 0 (1 + 2 * Real.pi / 100) ∧ ¬ SlitAt 100 1 1 1 0 (1 + Real.pi / 100) := by
  have hp := Real.pi_gt_three
  refine ⟨disk_example _ _ (by norm_num) _, ⟨⟨3 / 2, ⟨by norm_num, ?_, fun s h1 h2 h3 => ?_⟩, ?_⟩, .inl ⟨rfl, by norm_num⟩⟩, ⟨-1, ?_⟩, ?_⟩
  · rw [flown_z, accel_off rfl]; norm_num
  · rw [flown_z, accel_off rfl] at h3; norm_num at h3; linarith
  · unfold flown; rw [accel_off rfl]; ext <;> simp
  · rw [show (0 : ℝ) - (100 * (1 + 2 * Real.pi / 100 - 1) + ((-1 : ℤ) : ℝ) * (2 * Real.pi / 1)) = 0 by push_cast; ring, abs_zero]
    norm_num
  · rintro ⟨k, hk⟩
    rw [show (0 : ℝ) - (100 * (1 + Real.pi / 100 - 1) + (k : ℝ) * (2 * Real.pi / 1)) = -(Real.pi * ((2 * k + 1 : ℤ) : ℝ)) by push_cast; ring,
      abs_neg, abs_mul, abs_of_pos (by linarith)] at hk
    have : (1 : ℝ) ≤ |((2 * k + 1 : ℤ) : ℝ)| := by
      rw [← Int.cast_abs]
      exact_mod_cast Int.one_le_abs (by omega)
    nlinarith

/-- C178 is false for neutrons that rise or fall: the height is taken where the component before has left the neutron, not at the chopper.
A neutron that is at the chopper ten radii above the axis of the disk passes. -/
theorem C178_height_false : ∃ (c : DiskPar) (d : Disk) (e a : Event ℝ), Disk.new c = .ok d ∧ c.absOut = true ∧ c.isFirst = false ∧
    Comes ⟨false, 0⟩ e a ∧ ¬ c.Ring a ∧ ∀ g u1 u2, disk d ⟨false, 0⟩ g u1 u2 e = a := by
  obtain ⟨d, hd⟩ := disk_example 0 1 one_ne_zero false
  have hc : Comes ⟨false, 0⟩ ⟨⟨0, 0, -1⟩, ⟨0, 10, 1⟩, 0, 0, -1, 1⟩ ⟨⟨0, 10, 0⟩, ⟨0, 10, 1⟩, 0, 0, 0, 1⟩ := by
    refine ⟨⟨1, ⟨by norm_num, ?_, fun s h1 h2 h3 => ?_⟩, ?_⟩, .inl ⟨rfl, by norm_num⟩⟩
    · rw [flown_z, accel_off rfl]; norm_num
    · rw [flown_z, accel_off rfl] at h3; norm_num at h3; linarith
    · unfold flown; rw [accel_off rfl]; ext <;> simp
  refine ⟨_, d, _, _, hd, rfl, rfl, hc, ?_, fun g u1 u2 => ?_⟩
  · unfold DiskPar.Ring DiskPar.above DiskPar.height oneSlit
    norm_num
  · have hp := Real.pi_gt_three
    have hd' := (new_ok hd rfl rfl one_ne_zero).2
    unfold disk
    simp only [comes_prop hc, hd', oneSlit]
    have ha : Frames.arctan2 0 (0 + (1 - 1 / 2)) = 0 := by
      unfold Frames.arctan2
      rw [show (⟨0 + (1 - 1 / 2), 0⟩ : ℂ) = ((1 / 2 : ℝ) : ℂ) by apply Complex.ext <;> norm_num]
      exact Complex.arg_ofReal_of_nonneg (by norm_num)
    have hf : ∀ x T : ℝ, 0 ≤ x → x < T → fmod x T = x := by
      intro x T h0 h1
      unfold fmod
      rw [show ⌊x / T⌋ = 0 by rw [Int.floor_eq_zero_iff]; exact ⟨div_nonneg h0 (h0.trans h1.le), (div_lt_one (h0.trans_lt h1)).2 h1⟩]
      simp
    simp only [DiskPar.height, if_true, Bool.false_eq_true, if_false, ha]
    norm_num
    have h1 := hf 0 (2 * Real.pi) le_rfl (by linarith)
    have h2 := hf (36 * (Real.pi / 180) / 2) (2 * Real.pi) (by positivity) (by linarith)
    rw [h1, h2]
    norm_num
    intro hh
    linarith

/-- C178 is false for a chopper with a negative frequency and a delay: a slit is at the top at the time `-t_0`, not at the time `t_0`. -/
theorem C178_delay_false : ∃ (c : DiskPar) (d : Disk) (e f : Event ℝ), Disk.new c = .ok d ∧ c.omega < 0 ∧ 0 < c.t_0 ∧ c.isFirst = false ∧
    e.t = c.t_0 ∧ f.t = -c.t_0 ∧ c.angle e = 0 ∧ c.angle f = 0 ∧ SlitAt c.omega c.n (c.theta_0 * (Real.pi / 180)) c.t_0 0 e.t ∧
    (∀ g u1 u2, (disk d ⟨false, 0⟩ g u1 u2 e).p = -1) ∧ ∀ g u1 u2, (disk d ⟨false, 0⟩ g u1 u2 f).p = f.p := by
  have hp := Real.pi_gt_three
  have hω : -(2 * Real.pi) < 0 := by linarith
  obtain ⟨d, hd⟩ := disk_example (1 / 4) (-(2 * Real.pi)) hω.ne false
  have hs : (1 / 4 : ℝ) * (-(2 * Real.pi) / |(-(2 * Real.pi))|) = -(1 / 4) := by
    rw [abs_of_neg hω]; field_simp
  have hang : ∀ (c : DiskPar) (t : ℝ), c.R = 1 → c.h = 0 → c.compat = false → c.angle ⟨⟨0, 0, 0⟩, ⟨0, 0, 1⟩, 0, 0, t, 1⟩ = 0 := by
    intro c t h1 h2 h3
    unfold DiskPar.angle DiskPar.above DiskPar.height
    simp only [h1, h2, h3, Bool.false_eq_true, if_false, if_true]
    rw [show (⟨0 + (1 - 1 / 2), 0⟩ : ℂ) = ((1 / 2 : ℝ) : ℂ) by apply Complex.ext <;> norm_num]
    exact Complex.arg_ofReal_of_nonneg (by norm_num)
  refine ⟨_, d, ⟨⟨0, 0, 0⟩, ⟨0, 0, 1⟩, 0, 0, 1 / 4, 1⟩, ⟨⟨0, 0, 0⟩, ⟨0, 0, 1⟩, 0, 0, -(1 / 4), 1⟩, hd, hω, by norm_num [oneSlit], rfl, rfl, rfl,
    hang _ _ rfl rfl rfl, hang _ _ rfl rfl rfl, ⟨0, ?_⟩, fun g u1 u2 => ?_, fun g u1 u2 => ?_⟩
  · simp [oneSlit]; positivity
  · refine (disk_top _ _ _ hω.ne hd g u1 u2).2 ?_
    rw [hs]
    rintro ⟨k, hk⟩
    rw [show (0 : ℝ) - (-(2 * Real.pi) * (1 / 4 - -(1 / 4)) + k * (2 * Real.pi / 1)) = Real.pi * ((1 - 2 * k : ℤ) : ℝ) by push_cast; ring,
      abs_mul, abs_of_pos (by linarith)] at hk
    have : (1 : ℝ) ≤ |((1 - 2 * k : ℤ) : ℝ)| := by
      rw [← Int.cast_abs]
      exact_mod_cast Int.one_le_abs (by omega)
    nlinarith
  · refine (disk_top _ _ _ hω.ne hd g u1 u2).1 ?_
    rw [hs]
    refine ⟨0, ?_⟩
    simp
    positivity

/-- C178 is false for a first chopper with a delay: it gives the times `-t_0` instead of `t_0`.  A neutron that has got its time from it
does not pass an ordinary chopper with the same parameters at the same place. -/
theorem C178_first_false : ∃ (c : DiskPar) (d d' : Disk) (e f : Event ℝ), Disk.new c = .ok d ∧ c.isFirst = true ∧ c.j = 0 ∧
    Disk.new { c with isFirst := false } = .ok d' ∧ 0 < e.p ∧ disk d ⟨false, 0⟩ 0 (1 / 2) 0 e = f ∧ 0 < f.p ∧
    ∀ g u1 u2, (disk d' ⟨false, 0⟩ g u1 u2 { f with p := 1 }).p = -1 := by
  have hp := Real.pi_gt_three
  have hω : 0 < 2 * Real.pi := by linarith
  obtain ⟨d, hd⟩ := disk_example (1 / 4) (2 * Real.pi) hω.ne' true
  obtain ⟨d', hd'⟩ := disk_example (1 / 4) (2 * Real.pi) hω.ne' false
  have hf : disk d ⟨false, 0⟩ 0 (1 / 2) 0 ⟨⟨0, 0, 0⟩, ⟨0, 0, 1⟩, 0, 0, 0, 1⟩ = ⟨⟨0, 0, 0⟩, ⟨0, 0, 1⟩, 0, 0, -(1 / 4), 1 / 10⟩ := by
    have hdd := (new_ok hd rfl rfl hω.ne').2
    unfold disk
    have ha : propZ0 ⟨false, 0⟩ ⟨⟨0, 0, 0⟩, ⟨0, 0, 1⟩, 0, 0, 0, 1⟩ = (⟨⟨0, 0, 0⟩, ⟨0, 0, 1⟩, 0, 0, 0, 1⟩ : Event ℝ) := by
      norm_num [propZ0, propZ0Free, propDtFree]
    have h0 : Frames.arctan2 0 (1 / 2) = 0 := by
      unfold Frames.arctan2
      rw [show (⟨1 / 2, 0⟩ : ℂ) = ((1 / 2 : ℝ) : ℂ) by apply Complex.ext <;> norm_num]
      exact Complex.arg_ofReal_of_nonneg (by norm_num)
    rw [ha, hdd]
    simp only [DiskPar.height, oneSlit, if_true, Bool.false_eq_true, if_false]
    norm_num [h0]
    constructor
    · rw [abs_of_pos (by linarith)]; field_simp
    · field_simp; norm_num
  refine ⟨_, d, d', ⟨⟨0, 0, 0⟩, ⟨0, 0, 1⟩, 0, 0, 0, 1⟩, _, hd, rfl, rfl, hd', by norm_num, hf, by norm_num, fun g u1 u2 => ?_⟩
  refine (disk_top _ _ _ hω.ne' hd' g u1 u2).2 ?_
  have hs : (1 / 4 : ℝ) * (2 * Real.pi / |2 * Real.pi|) = 1 / 4 := by
    rw [abs_of_pos hω]; field_simp
  rw [hs]
  rintro ⟨k, hk⟩
  rw [show (0 : ℝ) - (2 * Real.pi * (-(1 / 4) - 1 / 4) + k * (2 * Real.pi / 1)) = Real.pi * ((1 - 2 * k : ℤ) : ℝ) by push_cast; ring,
    abs_mul, abs_of_pos (by linarith)] at hk
  have : (1 : ℝ) ≤ |((1 - 2 * k : ℤ) : ℝ)| := by
    rw [← Int.cast_abs]
    exact_mod_cast Int.one_le_abs (by omega)
  nlinarith

/-! ### HYSPEC chopper -/

/-- C179, partial: a neutron that comes to the chopper passes if the first slit is there: its middle is at the time `pha` at the top (at
the bottom for a negative radius) and turns with `-f`, its width is `w` at the radius `R`.  Else it is absorbed.  Missing: the other slits
(`C179_slits_false`) and the diagonals (`C179_diagonal_false`). -/
theorem C179_partial {c : ChopV} (hR : c.R ≠ 0) (hf : c.f ≠ 0) {G : Gravity} {e a : Event ℝ} (hc : Comes G e a)
    (hd : |a.r.x| ≠ |a.r.y + c.R|) :
    chopV c G e = .ok (if |Complex.arg ⟨a.r.x, a.r.y + c.R⟩ - ((if 0 < c.R then Real.pi / 2 else -(Real.pi / 2)) - c.f * (a.t - c.pha))| ≤
      Real.arctan (c.w / |c.R| / 2) then a else stopped a) := by
  have htopp : c.topp = some (if 0 < c.R then Real.pi / 2 else -(Real.pi / 2)) := by
    unfold ChopV.topp
    rcases lt_or_gt_of_ne hR with h | h
    · rw [if_pos h, if_neg (by linarith)]; congr 1; ring
    · rw [if_neg (by linarith), if_pos h, if_pos h]
  unfold chopV
  simp only [comes_prop hc, htopp, thetaN_eq hd]
  set θ := Complex.arg ⟨a.r.x, a.r.y + c.R⟩
  set τ := if 0 < c.R then Real.pi / 2 else -(Real.pi / 2)
  have hf' : 0 < |c.f| := abs_pos.2 hf
  have key : |a.t - c.pha + (θ - τ) / c.f| = |θ - (τ - c.f * (a.t - c.pha))| / |c.f| := by
    rw [← abs_div]; congr 1; field_simp; ring
  rw [key]
  unfold ChopV.To
  by_cases h : |θ - (τ - c.f * (a.t - c.pha))| ≤ Real.arctan (c.w / |c.R| / 2)
  · rw [if_pos h, if_neg]
    rw [gt_iff_lt, not_lt]
    have : |θ - (τ - c.f * (a.t - c.pha))| / |c.f| ≤ Real.arctan (c.w / |c.R| / 2) / |c.f| := by gcongr
    rw [mul_div_assoc]; linarith
  · rw [if_neg h, if_pos]
    · rfl
    · push Not at h
      have : Real.arctan (c.w / |c.R| / 2) / |c.f| < |θ - (τ - c.f * (a.t - c.pha))| / |c.f| := by gcongr
      rw [mul_div_assoc]; linarith

example : Comes ⟨false, 0⟩ ⟨⟨0, 0, -3⟩, ⟨0, 0, 2⟩, 0, 0, 0, 1⟩ ⟨⟨0, 0, 0⟩, ⟨0, 0, 2⟩, 0, 0, 3 / 2, 1⟩ ∧ |(0 : ℝ)| ≠ |(0 : ℝ) + 1 / 2| ∧
    (1 / 2 : ℝ) ≠ 0 ∧ (100 : ℝ) ≠ 0 := by
  refine ⟨⟨⟨3 / 2, ⟨by norm_num, ?_, fun s h1 h2 h3 => ?_⟩, ?_⟩, .inl ⟨rfl, by norm_num⟩⟩, by norm_num, by norm_num, by norm_num⟩
  · rw [flown_z, accel_off rfl]; norm_num
  · rw [flown_z, accel_off rfl] at h3; norm_num at h3; linarith
  · unfold flown; rw [accel_off rfl]; ext <;> simp

/-- C179 is false for all slits but the first, and for the first after one turn: the number of slits is not used.  For a chopper with two
slits a neutron at the top is absorbed half a turn and a turn after the phase. -/
theorem C179_slits_false : ∃ (c : ChopV) (t : ℝ), c.n = 2 ∧ 0 < t ∧ 0 < c.w ∧ c.f * t = Real.pi ∧
    (∀ e : Event ℝ, e = ⟨⟨0, 0, 0⟩, ⟨0, 0, 1⟩, 0, 0, c.pha, 1⟩ → chopV c ⟨false, 0⟩ e = .ok e) ∧
    (∀ e : Event ℝ, e = ⟨⟨0, 0, 0⟩, ⟨0, 0, 1⟩, 0, 0, c.pha + t, 1⟩ → chopV c ⟨false, 0⟩ e = .ok (stopped e)) ∧
    (∀ e : Event ℝ, e = ⟨⟨0, 0, 0⟩, ⟨0, 0, 1⟩, 0, 0, c.pha + 2 * t, 1⟩ → chopV c ⟨false, 0⟩ e = .ok (stopped e)) := by
  have hp := Real.pi_gt_three
  have hc : ∀ t, Comes ⟨false, 0⟩ ⟨⟨0, 0, 0⟩, ⟨0, 0, 1⟩, 0, 0, t, 1⟩ ⟨⟨0, 0, 0⟩, ⟨0, 0, 1⟩, 0, 0, t, 1⟩ := by
    intro t
    refine ⟨⟨0, ⟨le_rfl, ?_, fun s h1 h2 => absurd h1 (by linarith)⟩, ?_⟩, .inl ⟨rfl, by norm_num⟩⟩
    · rw [flown_z, accel_off rfl]; norm_num
    · unfold flown; rw [accel_off rfl]; ext <;> simp
  have hi : Complex.arg ⟨0, 0 + 1⟩ = Real.pi / 2 := by
    rw [show (⟨0, 0 + 1⟩ : ℂ) = Complex.I by apply Complex.ext <;> simp]; exact Complex.arg_I
  have hat := Real.arctan_lt_pi_div_two ((1 : ℝ) / |1| / 2)
  have hat0 : 0 ≤ Real.arctan ((1 : ℝ) / |1| / 2) := Real.arctan_nonneg.2 (by positivity)
  refine ⟨⟨1, 1, 1, 2, 0⟩, Real.pi, rfl, by linarith, one_pos, one_mul _, ?_, ?_, ?_⟩
  · rintro e rfl
    rw [C179_partial one_ne_zero one_ne_zero (hc _) (by norm_num)]
    simp only [hi]
    rw [if_pos]
    norm_num at hat0 ⊢
  · rintro e rfl
    rw [C179_partial one_ne_zero one_ne_zero (hc _) (by norm_num)]
    simp only [hi]
    rw [if_neg]
    rw [if_pos one_pos, show Real.pi / 2 - (Real.pi / 2 - 1 * (0 + Real.pi - 0)) = Real.pi by ring, abs_of_pos (by linarith)]
    linarith
  · rintro e rfl
    rw [C179_partial one_ne_zero one_ne_zero (hc _) (by norm_num)]
    simp only [hi]
    rw [if_neg]
    rw [if_pos one_pos, show Real.pi / 2 - (Real.pi / 2 - 1 * (0 + 2 * Real.pi - 0)) = 2 * Real.pi by ring, abs_of_pos (by linarith)]
    linarith

/-- C179 is false on the diagonals: there no case sets the angle of the neutron, and a variable without a value is used. -/
theorem C179_diagonal_false : ∃ (c : ChopV) (e : Event ℝ), Comes ⟨false, 0⟩ e e ∧ 0 < c.R ∧ 0 < c.f ∧
    chopV c ⟨false, 0⟩ e = .error .undefinedBehaviour := by
  have hc : Comes ⟨false, 0⟩ ⟨⟨1, 0, 0⟩, ⟨0, 0, 1⟩, 0, 0, 0, 1⟩ ⟨⟨1, 0, 0⟩, ⟨0, 0, 1⟩, 0, 0, 0, 1⟩ := by
    refine ⟨⟨0, ⟨le_rfl, ?_, fun s h1 h2 => absurd h1 (by linarith)⟩, ?_⟩, .inl ⟨rfl, by norm_num⟩⟩
    · rw [flown_z, accel_off rfl]; norm_num
    · unfold flown; rw [accel_off rfl]; ext <;> simp
  refine ⟨⟨1, 1, 1, 2, 0⟩, _, hc, one_pos, one_pos, ?_⟩
  unfold chopV
  rw [comes_prop hc]
  norm_num [ChopV.topp, thetaN]

end Verif.McOpt
