import Verif.Lemmas.McPulse
/-!
Properties of the pulsed sources of McStas.
-/

namespace Verif.McPulse
open McStas Kinem McGuide McConst McSource Homog Sampling
noncomputable section
open Classical

/-! ### the short pulse -/

lemma Short.init_ok {c : Short} {w : ℝ} (h : c.init = .ok w) : c.n ≠ 1 ∧ c.n2 ≠ 1 ∧ 0 < c.low ∧ 0 < c.high ∧ c.dist ≠ 0 ∧ c.branch1 ≠ 1 ∧
    c.branch2 ≠ 1 ∧ c.tau ≠ 0 ∧ w = c.size ^ 2 * 1e4 * (c.high - c.low) := by
  unfold Short.init at h
  split_ifs at h with hok
  simp only [not_or, not_le] at hok
  cases h
  exact ⟨hok.1, hok.2.1, hok.2.2.1, hok.2.2.2.1, hok.2.2.2.2.1, hok.2.2.2.2.2.1, hok.2.2.2.2.2.2.1, hok.2.2.2.2.2.2.2, by ring⟩

/-- C277 (place and direction): the neutron starts on the moderator, flies through the target and has a wave length of the interval -/
theorem C277_place (c : Short) (w : ℝ) (hinit : c.init = .ok w) (hd : 0 < c.dist) (hx : 0 < c.xw) (hy : 0 < c.yh) (hs : 0 ≤ c.size) (hl : c.low ≤ c.high)
    (e e' : Event ℝ) (u1 u2 u3 u4 u5 u6 u7 u8 u9 u10 : ℝ) (h : ∀ u ∈ [u1, u2, u3, u4, u5], 0 ≤ u ∧ u ≤ 1)
    (he : c.trace w e u1 u2 u3 u4 u5 u6 u7 u8 u9 u10 = some e') :
    e'.r.z = 0 ∧ InRect c.size c.size e'.r.x e'.r.y ∧ (∃ X Y, InRect c.xw c.yh X Y ∧ Through c.dist X Y e') ∧
      (∃ L, c.low ≤ L ∧ L ≤ c.high ∧ Wave e' L) ∧ e'.s1 = e.s1 ∧ e'.s2 = e.s2 := by
  have k1 := h u1 (by simp); have k2 := h u2 (by simp); have k3 := h u3 (by simp); have k4 := h u4 (by simp); have k5 := h u5 (by simp)
  obtain ⟨-, -, hlow, -⟩ := Short.init_ok hinit
  obtain ⟨v, h1, h2⟩ := pulse_place (size := c.size) hd hx hy hlow hl (u1 := u1) (u2 := u2) (u3 := u3) (u4 := u4) k5.1
  unfold Short.trace at he
  rw [h1] at he
  simp only [Option.bind_eq_bind, Option.bind_some, Option.bind_eq_some_iff, Option.some.injEq] at he
  obtain ⟨a, -, b, -, he⟩ := he
  subst he
  obtain ⟨h3, h4⟩ := h2 { e with r := ⟨0.5 * c.size * (2 * u1 - 1), 0.5 * c.size * (2 * u2 - 1), 0⟩, v := v, t := b.1, p := b.2 } rfl rfl
  exact ⟨rfl, in_square hs k1 k2, ⟨_, _, in_rect hx hy k3.1 k3.2 k4.1 k4.2, h3⟩, ⟨_, by nlinarith [k5.1], by nlinarith [k5.2], h4⟩, rfl, rfl⟩

/-- C277 (pulse): for every place, direction and wave length the mean weight, counted with any efficiency of the time, is area * solid angle *
interval of wave lengths * the sum of the pulses of the frames that are simulated -/
theorem C277_mean (c : Short) (w : ℝ) (hinit : c.init = .ok w) (hd : 0 < c.dist) (hx : 0 < c.xw) (hy : 0 < c.yh) (hl : c.low ≤ c.high)
    (ht : 0 < c.tau) (ht2 : 0 < c.tau2) (hfreq : c.freq ≠ 0) (hb2 : 0 < c.branch2 ∧ c.branch2 < 1)
    (hb1 : 0 < c.tau1 → 0 < c.branch1 ∧ c.branch1 < 1) (hbf : 0 < c.branchframe ∧ c.branchframe ≤ 1) (f : ℝ → ℝ) (hf : Continuous f)
    (e : Event ℝ) (u1 u2 u3 u4 u5 : ℝ) (h : ∀ u ∈ [u1, u2, u3, u4, u5], 0 ≤ u ∧ u ≤ 1) : ∃ X Y L, InRect c.xw c.yh X Y ∧
    (∀ u6 u7 u8 u9 u10 e', c.trace w e u1 u2 u3 u4 u5 u6 u7 u8 u9 u10 = some e' → Through c.dist X Y e' ∧ Wave e' L) ∧
    mean3 (fun u6 u7 u8 => mean2 fun u9 u10 => observe (fun e' : Event ℝ => e'.p * f e'.t) (c.trace w e u1 u2 u3 u4 u5 u6 u7 u8 u9 u10)) =
      c.size ^ 2 * 1e4 * (c.high - c.low) * (c.xw * c.yh * solid c.dist 0 0 X Y) *
        (c.I0 * maxwell c.T L * (counts c.tau (fun t => shortPulse t c.tau c.n) (frames c.branchframe (1 / c.freq) f) +
          if 0 < c.tau1 then counts c.tau1 (fun t => shortPulse t c.tau1 c.n) (frames c.branchframe (1 / c.freq) f) else 0) +
        epithermal c.I2 c.chi2 L * counts (c.tau2 * L) (fun t => shortPulse t (c.tau2 * L) c.n2) (frames c.branchframe (1 / c.freq) f)) := by
  have k3 := h u3 (by simp); have k4 := h u4 (by simp); have k5 := h u5 (by simp)
  obtain ⟨hn, hn2, hlow, -, -, -, -, -, hw⟩ := Short.init_ok hinit
  obtain ⟨v, h1, h2⟩ := pulse_place (size := c.size) hd hx hy hlow hl (u1 := u1) (u2 := u2) (u3 := u3) (u4 := u4) k5.1
  have hpos : 0 < c.low + (c.high - c.low) * u5 := by nlinarith [k5.1]
  refine ⟨-(c.xw * (2 * u3 - 1) / 2), -(c.yh * (2 * u4 - 1) / 2), c.low + (c.high - c.low) * u5, in_rect hx hy k3.1 k3.2 k4.1 k4.2, ?_, ?_⟩
  · intro u6 u7 u8 u9 u10 e' he
    unfold Short.trace at he
    rw [h1] at he
    simp only [Option.bind_eq_bind, Option.bind_some, Option.bind_eq_some_iff, Option.some.injEq] at he
    obtain ⟨a, -, b, -, he⟩ := he
    subst he
    exact h2 { e with r := ⟨0.5 * c.size * (2 * u1 - 1), 0.5 * c.size * (2 * u2 - 1), 0⟩, v := v, t := b.1, p := b.2 } rfl rfl
  · have hF : Continuous (frames c.branchframe (1 / c.freq) f) := by
      unfold frames
      split_ifs <;> fun_prop
    have key := Short.pulse_mean (w := w) (focus := c.xw * c.yh * solid c.dist 0 0 (-(c.xw * (2 * u3 - 1) / 2)) (-(c.yh * (2 * u4 - 1) / 2)))
      hn hn2 ht ht2 hpos hb2 hb1 hF
    rw [← hw, mul_comm w, ← key]
    congr 1
    funext u6 u7 u8
    unfold Short.trace
    rw [h1]
    simp only [Option.bind_eq_bind, Option.bind_some]
    cases hp : c.pulse w (c.low + (c.high - c.low) * u5) (c.xw * c.yh * solid c.dist 0 0 (-(c.xw * (2 * u3 - 1) / 2)) (-(c.yh * (2 * u4 - 1) / 2))) u6 u7 u8 with
    | none => simp [observe, mean2, mean]
    | some x =>
      simp only [Option.bind_some, observe]
      rw [← Short.frame_mean hfreq hbf.1 hbf.2]
      congr 1
      funext u9 u10
      cases c.frame x.1 x.2 u9 u10 <;> rfl

/-- coupled water (`ESS_moderator_short.comp:28-29, 50-52`) -/
def water : Short := ⟨0.12, 1, 10, 2, 0.06, 0.12, 50, 325, 80e-6, 400e-6, 12e-6, 20, 5, 2.5, 4.5e11, 9.2e10, 0.5, 0.5, 0.5⟩

lemma water_ok : water.init = .ok (0.12 * 0.12 * 1e4 * (10 - 1) * (1 / 1)) := by
  unfold Short.init
  rw [if_neg]
  · rfl
  · norm_num [water]

example : water.init = .ok (0.12 * 0.12 * 1e4 * (10 - 1) * (1 / 1)) ∧ 0 < water.dist ∧ 0 < water.xw ∧ 0 < water.yh ∧ 0 ≤ water.size ∧
    water.low ≤ water.high ∧ 0 < water.tau ∧ 0 < water.tau2 ∧ water.freq ≠ 0 ∧ (0 < water.branch2 ∧ water.branch2 < 1) ∧
    (0 < water.tau1 → 0 < water.branch1 ∧ water.branch1 < 1) ∧ (0 < water.branchframe ∧ water.branchframe ≤ 1) ∧
    Continuous (fun t : ℝ => t ^ 2) ∧ ∀ u ∈ [(0.1 : ℝ), 0.2, 0.3, 0.4, 0.5], 0 ≤ u ∧ u ≤ 1 :=
  ⟨water_ok, by norm_num [water], by norm_num [water], by norm_num [water], by norm_num [water], by norm_num [water], by norm_num [water],
    by norm_num [water], by norm_num [water], by norm_num [water], by norm_num [water], by norm_num [water], by fun_prop, by norm_num⟩

/-- C277 needs `branchframe > 0`: with `branchframe = 0` the pulse itself is missing -/
theorem C277_frame_false : ∃ (c : Short) (w : ℝ), c.init = .ok w ∧ c.branchframe = 0 ∧ ∀ t p u9 u10, ∀ x, c.frame t p u9 u10 = some x → x.1 ≠ t := by
  refine ⟨{ water with branchframe := 0 }, 0.12 * 0.12 * 1e4 * (10 - 1) * (1 / 1), ?_, rfl, ?_⟩
  · have := water_ok
    exact this
  · intro t p u9 u10 x hx
    unfold Short.frame at hx
    rw [if_neg (by norm_num), divD_ok (by norm_num [water]), divD_ok (by norm_num)] at hx
    simp only [Option.bind_eq_bind, Option.bind_some, Option.some.injEq] at hx
    subst hx
    simp only [water]
    split_ifs <;> norm_num

/-! ### the long pulse -/

/-- time and weight of the long pulse before the choice of the frame, as functions of the random number of the time -/
def Long.time (c : Long) (w l focus u6 u7 u8 u : ℝ) : ℝ := observe Prod.fst (c.pulse w l focus u6 u7 u8 u)

/-- see `Long.time` -/
def Long.weight (c : Long) (w l focus u6 u7 u8 u : ℝ) : ℝ := observe Prod.snd (c.pulse w l focus u6 u7 u8 u)

/-- C278 (place and direction) -/
theorem C278_place (c0 c : Long) (w : ℝ) (hinit : c0.init = .ok (c, w)) (hd : 0 < c.dist) (hx : 0 < c.xw) (hy : 0 < c.yh) (hs : 0 ≤ c.size)
    (hl : c.low ≤ c.high) (e e' : Event ℝ) (u1 u2 u3 u4 u5 u6 u7 u8 u9 u10 : ℝ) (h : ∀ u ∈ [u1, u2, u3, u4, u5], 0 ≤ u ∧ u ≤ 1)
    (he : c.trace w e u1 u2 u3 u4 u5 u6 u7 u8 u9 u10 = some e') :
    e'.r.z = 0 ∧ InRect c.size c.size e'.r.x e'.r.y ∧
      (∃ X Y L t p, InRect c.xw c.yh X Y ∧ Through c.dist X Y e' ∧ c.low ≤ L ∧ L ≤ c.high ∧ Wave e' L ∧
        c.pulse w L (c.xw * c.yh * solid c.dist 0 0 X Y) u6 u7 u8 u9 = some (t, p) ∧ c.frame t p u10 = some (e'.t, e'.p)) ∧
      w = c.size ^ 2 * 1e4 * (c.high - c.low) * c.freq ∧ e'.s1 = e.s1 ∧ e'.s2 = e.s2 := by
  have k1 := h u1 (by simp); have k2 := h u2 (by simp); have k3 := h u3 (by simp); have k4 := h u4 (by simp); have k5 := h u5 (by simp)
  unfold Long.init at hinit
  split_ifs at hinit with hok ht
  all_goals
    simp only [Except.ok.injEq, Prod.mk.injEq] at hinit
    obtain ⟨rfl, rfl⟩ := hinit
    simp only [not_or, not_le] at hok
    obtain ⟨v, h1, h2⟩ := pulse_place (size := c0.size) hd hx hy hok.2.2.1 hl (u1 := u1) (u2 := u2) (u3 := u3) (u4 := u4) k5.1
    unfold Long.trace at he
    simp only [] at he h1
    rw [h1] at he
    simp only [Option.bind_eq_bind, Option.bind_some, Option.bind_eq_some_iff, Option.some.injEq] at he
    obtain ⟨a, ha, b, hb, he⟩ := he
    subst he
    obtain ⟨h3, h4⟩ := h2 { e with r := ⟨0.5 * c0.size * (2 * u1 - 1), 0.5 * c0.size * (2 * u2 - 1), 0⟩, v := v, t := b.1, p := b.2 } rfl rfl
    exact ⟨rfl, in_square hs k1 k2, ⟨_, _, _, a.1, a.2, in_rect hx hy k3.1 k3.2 k4.1 k4.2, h3, by nlinarith [k5.1], by nlinarith [k5.2], h4, ha, hb⟩,
      by ring, rfl, rfl⟩

/-- C278 (frames): the mean over the choice of the frame is the pulse and, if `branchframe` is not 0, the following pulse -/
theorem C278_frame (c : Long) (h0 : 0 ≤ c.branchframe) (h1 : c.branchframe < 1) (hf : c.freq ≠ 0) (t p : ℝ) (f : ℝ → ℝ) :
    mean (fun u => observe (fun x : ℝ × ℝ => x.2 * f x.1) (c.frame t p u)) =
      p * (f t + if 0 < c.branchframe then f (t + 1 / c.freq) else 0) := by
  have hne : 1 - c.branchframe ≠ 0 := by linarith
  rw [McSample.mean_two h0 h1.le (p / c.branchframe * f (t + 1 / c.freq)) (p / (1 - c.branchframe) * f t)]
  · rcases h0.lt_or_eq with h | h
    · rw [if_pos h]
      have := h.ne'
      field_simp
      ring
    · rw [if_neg h.not_lt, ← h]
      simp
  · intro u hu hu'
    unfold Long.frame
    rw [if_pos hu', divD_ok hf, divD_ok (hu.trans hu').ne']
    rfl
  · intro u hu _
    unfold Long.frame
    rw [if_neg hu.not_gt, divD_ok hne]
    rfl

example : (0 : ℝ) ≤ 0.5 ∧ (0.5 : ℝ) < 1 ∧ (16.67 : ℝ) ≠ 0 := by norm_num

/-- C278 (bulk): between 0 and `d` the times and the weights, times the probability of the branch, represent the long pulse -/
theorem C278_bulk_partial (c : Long) (w l focus u6 u7 u8 u : ℝ) (hn : 0 < c.n ∧ c.n ≠ 1) (hn2 : 0 < c.n2 ∧ c.n2 ≠ 1) (hd : 0 < c.d)
    (hl : 0 < l) (h6 : c.branch_tail ≤ u6) (hbt : c.branch_tail < 1) (hu : 0 < u ∧ u < 1) (hb2 : 0 < c.branch2) (hb1 : 0 < c.branch1) :
    (u7 < c.branch2 → u8 < c.branch1 → 0 < c.tau →
      Represents (c.time w l focus u6 u7 u8) (fun u => (1 - c.branch_tail) * c.branch2 * c.branch1 * c.weight w l focus u6 u7 u8 u)
        (fun t => focus * w * (c.I0 * maxwell c.T l * longPulse t c.tau c.n c.d)) u) ∧
    (u7 < c.branch2 → c.branch1 ≤ u8 → c.branch1 < 1 → 0 < c.tau1 →
      Represents (c.time w l focus u6 u7 u8) (fun u => (1 - c.branch_tail) * c.branch2 * (1 - c.branch1) * c.weight w l focus u6 u7 u8 u)
        (fun t => focus * w * (c.I0 * maxwell c.T l * longPulse t c.tau1 c.n c.d)) u) ∧
    (c.branch2 ≤ u7 → c.branch2 < 1 → 0 < c.tau2 →
      Represents (c.time w l focus u6 u7 u8) (fun u => (1 - c.branch_tail) * (1 - c.branch2) * c.weight w l focus u6 u7 u8 u)
        (fun t => focus * w * (epithermal c.I2 c.chi2 l * longPulse t (c.tau2 * l) c.n2 c.d)) u) := by
  have hbt' : 0 < 1 - c.branch_tail := by linarith
  have ht0 : 0 ≤ c.d * u := by nlinarith
  have htd : c.d * u < c.d := by nlinarith
  have hD : HasDerivAt (fun u : ℝ => c.d * u) c.d u := by simpa using (hasDerivAt_id u).const_mul c.d
  refine ⟨fun h7 h8 ht => ?_, fun h7 h8 hb1' ht => ?_, fun h7 hb2' ht => ?_⟩
  · have hq : c.branch1 * c.branch2 * (1 - c.branch_tail) ≠ 0 := by positivity
    have hp : ∀ v, c.pulse w l focus u6 u7 u8 v = some (c.d * v, 1 / (c.branch1 * c.branch2 * (1 - c.branch_tail)) *
        (1 - c.n / (c.n - 1) * (Real.exp (-(c.d * v) / c.tau) - Real.exp (-c.n * (c.d * v) / c.tau) / c.n)) * focus * (c.I0 * w * maxwell c.T l)) := by
      intro v
      unfold Long.pulse Long.firstBulk
      simp only [if_neg h6.not_gt, if_pos h7, if_pos h8, divD_ok hq, Option.map_some, Option.bind_eq_bind, Option.bind_some, build_ok hn.2 hn.1 ht]
    refine ⟨c.d, ?_, ?_⟩
    · have : c.time w l focus u6 u7 u8 = fun v => c.d * v := by funext v; unfold Long.time; rw [hp]; rfl
      rw [this]; exact hD
    · simp only [Long.time, Long.weight, hp, observe]
      rw [← build_long hn.2 hn.1 ht ht0 htd, abs_of_pos hd]
      field_simp
  · have hb1'' : 0 < 1 - c.branch1 := by linarith
    have hq : (1 - c.branch1) * c.branch2 * (1 - c.branch_tail) ≠ 0 := by positivity
    have hp : ∀ v, c.pulse w l focus u6 u7 u8 v = some (c.d * v, 1 / ((1 - c.branch1) * c.branch2 * (1 - c.branch_tail)) *
        (1 - c.n / (c.n - 1) * (Real.exp (-(c.d * v) / c.tau1) - Real.exp (-c.n * (c.d * v) / c.tau1) / c.n)) * focus * (c.I0 * w * maxwell c.T l)) := by
      intro v
      unfold Long.pulse Long.firstBulk
      simp only [if_neg h6.not_gt, if_pos h7, if_neg h8.not_gt, divD_ok hq, Option.map_some, Option.bind_eq_bind, Option.bind_some,
        build_ok hn.2 hn.1 ht]
    refine ⟨c.d, ?_, ?_⟩
    · have : c.time w l focus u6 u7 u8 = fun v => c.d * v := by funext v; unfold Long.time; rw [hp]; rfl
      rw [this]; exact hD
    · simp only [Long.time, Long.weight, hp, observe]
      rw [← build_long hn.2 hn.1 ht ht0 htd, abs_of_pos hd]
      field_simp
  · have hb2'' : 0 < 1 - c.branch2 := by linarith
    have hq : (1 - c.branch2) * (1 - c.branch_tail) ≠ 0 := by positivity
    have htl : 0 < c.tau2 * l := mul_pos ht hl
    have hp : ∀ v, c.pulse w l focus u6 u7 u8 v = some (c.d * v, (1 - c.n2 / (c.n2 - 1) * (Real.exp (-(c.d * v) / (c.tau2 * l)) -
        Real.exp (-c.n2 * (c.d * v) / (c.tau2 * l)) / c.n2)) / ((1 - c.branch2) * (1 - c.branch_tail)) * focus * (w * epithermal c.I2 c.chi2 l)) := by
      intro v
      unfold Long.pulse
      simp only [if_neg h6.not_gt, if_neg h7.not_gt, divD_ok hq, Option.bind_eq_bind, Option.bind_some, build_ok hn2.2 hn2.1 htl, second_ok hl]
    refine ⟨c.d, ?_, ?_⟩
    · have : c.time w l focus u6 u7 u8 = fun v => c.d * v := by funext v; unfold Long.time; rw [hp]; rfl
      rw [this]; exact hD
    · simp only [Long.time, Long.weight, hp, observe]
      rw [← build_long hn2.2 hn2.1 htl ht0 htd, abs_of_pos hd]
      field_simp

/-- the time in the tail -/
lemma Long.tail_time {c : Long} {w l focus u6 u7 u8 tau : ℝ} {W : ℝ → ℝ} (ht : 0 < tau)
    (hp : ∀ v, 0 ≤ v → c.pulse w l focus u6 u7 u8 v = some (-tau * Real.log (1e-12 + v) + c.d, W v)) {u : ℝ} (hu : 0 < u) :
    HasDerivAt (c.time w l focus u6 u7 u8) (-tau * (1 / (1e-12 + u))) u ∧ |(-tau * (1 / (1e-12 + u)))| = tau / (1e-12 + u) := by
  have hpos : (0 : ℝ) < 1e-12 + u := by norm_num; linarith
  constructor
  · refine ((tail_deriv tau hu.le).add_const c.d).congr_of_eventuallyEq ?_
    filter_upwards [lt_mem_nhds hu] with v hv
    unfold Long.time
    rw [hp v hv.le]
    rfl
  · rw [neg_mul, abs_neg, abs_of_pos (by positivity)]
    ring

/-- C278 (tail, second spectrum): if `n` and `n2` are equal, the times and the weights after `d` represent the second spectrum -/
theorem C278_tail_partial (c : Long) (w l focus u6 u7 u8 u : ℝ) (hn2 : 0 < c.n2 ∧ c.n2 ≠ 1) (hn : c.n = c.n2) (hd : 0 < c.d)
    (hl : 0 < l) (h6 : u6 < c.branch_tail) (hbt : 0 < c.branch_tail) (hu : 0 < u ∧ u ≤ 1 - 1e-12) (h7 : c.branch2 ≤ u7) (hb2 : c.branch2 < 1)
    (ht : 0 < c.tau2) :
    Represents (c.time w l focus u6 u7 u8) (fun u => c.branch_tail * (1 - c.branch2) * c.weight w l focus u6 u7 u8 u)
      (fun t => focus * w * (epithermal c.I2 c.chi2 l * longPulse t (c.tau2 * l) c.n2 c.d)) u := by
  have hb2'' : 0 < 1 - c.branch2 := by linarith
  have hq : (1 - c.branch2) * c.branch_tail ≠ 0 := by positivity
  have htl : 0 < c.tau2 * l := mul_pos ht hl
  have hpos : (0 : ℝ) < 1e-12 + u := by norm_num; linarith
  have hp : ∀ v, 0 ≤ v → c.pulse w l focus u6 u7 u8 v = some (-(c.tau2 * l) * Real.log (1e-12 + v) + c.d,
      (c.n2 / (c.n2 - 1) * ((1 - Real.exp (-c.d / (c.tau2 * l))) - (1 - Real.exp (-c.n2 * c.d / (c.tau2 * l))) *
        Real.exp (-(c.n2 - 1) * (-(c.tau2 * l) * Real.log (1e-12 + v)) / (c.tau2 * l)) / c.n2)) / ((1 - c.branch2) * c.branch_tail) *
        (c.tau2 * l / c.d) * focus * (w * epithermal c.I2 c.chi2 l)) := by
    intro v hv
    unfold Long.pulse
    simp only [if_pos h6, if_neg h7.not_gt, divD_ok hq, Option.bind_eq_bind, Option.bind_some, tail_ok _ hv, hn, fall_ok hn2.2 hn2.1 htl,
      divD_ok hd.ne', second_ok hl]
  obtain ⟨h1, h2⟩ := Long.tail_time htl hp hu.1
  refine ⟨_, h1, ?_⟩
  rw [h2]
  have hs : 0 ≤ -(c.tau2 * l) * Real.log (1e-12 + u) := by
    have := Real.log_nonpos hpos.le (by linarith [hu.2])
    nlinarith
  simp only [Long.time, Long.weight, hp u hu.1.le, observe]
  have key := fall_long hn2.2 hn2.1 htl hd hs
  rw [exp_tail htl hu.1.le] at key
  have key' := eq_div_of_mul_eq hd.ne' key
  rw [key']
  generalize c.n2 / (c.n2 - 1) * ((1 - Real.exp (-c.d / (c.tau2 * l))) - _) = E
  field_simp

/-- the cold moderator, with the default parameters (`ESS_moderator_long.comp:94-97`) -/
def hydrogen : Long := ⟨0.12, 1, 10, 5, 0.1, 0.1, 16.67, 50, 287e-6, 0, 20e-6, 2e-3, 20, 5, 0.9, 6.9e11, 27.6e10, 1, 0.5, 0.1435, 0⟩

lemma hydrogen_ok : hydrogen.init = .ok (hydrogen, 0.12 * 0.12 * 1e4 * (10 - 1) * (1 / 1) * 16.67) := by
  unfold Long.init
  rw [if_neg, if_neg]
  · rfl
  · norm_num [hydrogen]
  · norm_num [hydrogen]

example : hydrogen.init = .ok (hydrogen, 0.12 * 0.12 * 1e4 * (10 - 1) * (1 / 1) * 16.67) ∧ 0 < hydrogen.dist ∧ 0 < hydrogen.xw ∧ 0 < hydrogen.yh ∧
    0 ≤ hydrogen.size ∧ hydrogen.low ≤ hydrogen.high ∧ (0 < hydrogen.n ∧ hydrogen.n ≠ 1) ∧ (0 < hydrogen.n2 ∧ hydrogen.n2 ≠ 1) ∧ 0 < hydrogen.d ∧
    hydrogen.branch_tail ≤ 0.5 ∧ hydrogen.branch_tail < 1 ∧ 0 < hydrogen.branch2 ∧ 0 < hydrogen.branch1 ∧ 0 < hydrogen.tau ∧
    (0.3 : ℝ) < hydrogen.branch2 ∧ (0.4 : ℝ) < hydrogen.branch1 :=
  ⟨hydrogen_ok, by norm_num [hydrogen], by norm_num [hydrogen], by norm_num [hydrogen], by norm_num [hydrogen], by norm_num [hydrogen],
    by norm_num [hydrogen], by norm_num [hydrogen], by norm_num [hydrogen], by norm_num [hydrogen], by norm_num [hydrogen], by norm_num [hydrogen],
    by norm_num [hydrogen], by norm_num [hydrogen], by norm_num [hydrogen], by norm_num [hydrogen]⟩

example : ∃ c : Long, (0 < c.n2 ∧ c.n2 ≠ 1) ∧ c.n = c.n2 ∧ 0 < c.d ∧ 0.1 < c.branch_tail ∧ 0 < c.branch_tail ∧ c.branch2 ≤ 0.7 ∧ c.branch2 < 1 ∧
    0 < c.tau2 :=
  ⟨{ hydrogen with n := 5 }, by norm_num [hydrogen], by norm_num [hydrogen], by norm_num [hydrogen], by norm_num [hydrogen], by norm_num [hydrogen],
    by norm_num [hydrogen], by norm_num [hydrogen], by norm_num [hydrogen]⟩

/-- C278 is false in the tail of the first spectrum: the correction for the shape of the pulse is missing; with the default parameters the weight
is too large for every wave length, at the start of the tail -/
theorem C278_first_false : ∃ w, hydrogen.init = .ok (hydrogen, w) ∧ 0 < w ∧ ∀ l focus, 0 < l → 0 < focus → ∀ u8,
    ¬ Represents (hydrogen.time w l focus 0.1 0.3 u8) (fun u => hydrogen.branch_tail * hydrogen.branch2 * hydrogen.weight w l focus 0.1 0.3 u8 u)
      (fun t => focus * w * (hydrogen.I0 * maxwell hydrogen.T l * longPulse t hydrogen.tau hydrogen.n hydrogen.d)) (1 - 1e-12) := by
  refine ⟨_, hydrogen_ok, by norm_num, fun l focus hl hfo u8 => ?_⟩
  generalize hw : (0.12 * 0.12 * 1e4 * (10 - 1) * (1 / 1) * 16.67 : ℝ) = w
  have hw0 : 0 < w := by rw [← hw]; norm_num
  have ht : 0 < hydrogen.tau := by norm_num [hydrogen]
  have hd : 0 < hydrogen.d := by norm_num [hydrogen]
  have hq : hydrogen.branch2 * hydrogen.branch_tail ≠ 0 := by norm_num [hydrogen]
  have hp : ∀ v, 0 ≤ v → hydrogen.pulse w l focus 0.1 0.3 u8 v = some (-hydrogen.tau * Real.log (1e-12 + v) + hydrogen.d,
      1 / (hydrogen.branch2 * hydrogen.branch_tail) * focus * (hydrogen.tau / hydrogen.d) * (hydrogen.I0 * w * maxwell hydrogen.T l)) := by
    intro v hv
    unfold Long.pulse Long.firstTail
    simp only [if_pos (show (0.1 : ℝ) < hydrogen.branch_tail by norm_num [hydrogen]), if_pos (show (0.3 : ℝ) < hydrogen.branch2 by norm_num [hydrogen]),
      if_neg (show ¬ hydrogen.tau1 > 0 by norm_num [hydrogen]), divD_ok hq, Option.map_some, Option.bind_eq_bind, Option.bind_some, tail_ok _ hv,
      divD_ok hd.ne']
  obtain ⟨h1, h2⟩ := Long.tail_time ht hp (u := 1 - 1e-12) (by norm_num)
  rintro ⟨D, hD, hh⟩
  rw [hD.unique h1, h2] at hh
  simp only [Long.time, Long.weight, hp (1 - 1e-12) (by norm_num), observe] at hh
  rw [show (1e-12 : ℝ) + (1 - 1e-12) = 1 by norm_num, Real.log_one, mul_zero, div_one] at hh
  have key := fall_long (n := hydrogen.n) (by norm_num [hydrogen]) (by norm_num [hydrogen]) ht hd (le_refl 0)
  have hM : 0 < hydrogen.I0 * maxwell hydrogen.T l := by
    refine mul_pos (by norm_num [hydrogen]) ?_
    unfold maxwell
    have : (0 : ℝ) < 949 / hydrogen.T := by norm_num [hydrogen]
    positivity
  simp only [mul_zero, neg_zero, zero_div, Real.exp_zero, one_mul, mul_one] at key
  have hE : 0 < Real.exp (-hydrogen.d / hydrogen.tau) := Real.exp_pos _
  have hE2 : Real.exp (-hydrogen.n * hydrogen.d / hydrogen.tau) ≤ Real.exp (-hydrogen.d / hydrogen.tau) := by
    refine Real.exp_le_exp.2 ?_
    norm_num [hydrogen]
  have hlt : longPulse (0 + hydrogen.d) hydrogen.tau hydrogen.n hydrogen.d * hydrogen.d < 1 := by
    rw [key]
    have h20 : hydrogen.n = 20 := rfl
    rw [h20] at hE2 ⊢
    generalize Real.exp (-20 * hydrogen.d / hydrogen.tau) = E at hE2 ⊢
    generalize Real.exp (-hydrogen.d / hydrogen.tau) = G at hE hE2 ⊢
    rw [show (20 : ℝ) / (20 - 1) = 20 / 19 by norm_num]
    linarith
  have h3 : hydrogen.branch_tail * hydrogen.branch2 * (1 / (hydrogen.branch2 * hydrogen.branch_tail) * focus * (hydrogen.tau / hydrogen.d) *
      (hydrogen.I0 * w * maxwell hydrogen.T l)) = focus * w * (hydrogen.I0 * maxwell hydrogen.T l) * (hydrogen.tau / hydrogen.d) * 1 := by
    have := left_ne_zero_of_mul hq
    have := right_ne_zero_of_mul hq
    field_simp
  have h4 : focus * w * (hydrogen.I0 * maxwell hydrogen.T l * longPulse (0 + hydrogen.d) hydrogen.tau hydrogen.n hydrogen.d) * hydrogen.tau =
      focus * w * (hydrogen.I0 * maxwell hydrogen.T l) * (hydrogen.tau / hydrogen.d) *
        (longPulse (0 + hydrogen.d) hydrogen.tau hydrogen.n hydrogen.d * hydrogen.d) := by
    field_simp
  rw [h3, h4] at hh
  have := mul_left_cancel₀ (by positivity) hh
  linarith

/-- C278 is false in the tail of the second spectrum: the correction is divided by `n` instead of `n2` -/
theorem C278_second_false : ∃ w, hydrogen.init = .ok (hydrogen, w) ∧ 0 < w ∧ ∀ l focus, 0 < l → 0 < focus → ∀ u8,
    ¬ Represents (hydrogen.time w l focus 0.1 0.7 u8) (fun u => hydrogen.branch_tail * (1 - hydrogen.branch2) * hydrogen.weight w l focus 0.1 0.7 u8 u)
      (fun t => focus * w * (epithermal hydrogen.I2 hydrogen.chi2 l * longPulse t (hydrogen.tau2 * l) hydrogen.n2 hydrogen.d)) (1 - 1e-12) := by
  refine ⟨_, hydrogen_ok, by norm_num, fun l focus hl hfo u8 => ?_⟩
  generalize hw : (0.12 * 0.12 * 1e4 * (10 - 1) * (1 / 1) * 16.67 : ℝ) = w
  have hw0 : 0 < w := by rw [← hw]; norm_num
  have ht : 0 < hydrogen.tau2 * l := mul_pos (by norm_num [hydrogen]) hl
  have hd : 0 < hydrogen.d := by norm_num [hydrogen]
  have hq : (1 - hydrogen.branch2) * hydrogen.branch_tail ≠ 0 := by norm_num [hydrogen]
  have hn2 : hydrogen.n2 ≠ 1 := by norm_num [hydrogen]
  have hn : 0 < hydrogen.n := by norm_num [hydrogen]
  have hp : ∀ v, 0 ≤ v → hydrogen.pulse w l focus 0.1 0.7 u8 v = some (-(hydrogen.tau2 * l) * Real.log (1e-12 + v) + hydrogen.d,
      (hydrogen.n2 / (hydrogen.n2 - 1) * ((1 - Real.exp (-hydrogen.d / (hydrogen.tau2 * l))) - (1 - Real.exp (-hydrogen.n2 * hydrogen.d / (hydrogen.tau2 * l))) *
        Real.exp (-(hydrogen.n2 - 1) * (-(hydrogen.tau2 * l) * Real.log (1e-12 + v)) / (hydrogen.tau2 * l)) / hydrogen.n)) /
        ((1 - hydrogen.branch2) * hydrogen.branch_tail) *
        (hydrogen.tau2 * l / hydrogen.d) * focus * (w * epithermal hydrogen.I2 hydrogen.chi2 l)) := by
    intro v hv
    unfold Long.pulse
    simp only [if_pos (show (0.1 : ℝ) < hydrogen.branch_tail by norm_num [hydrogen]), if_neg (show ¬ (0.7 : ℝ) < hydrogen.branch2 by norm_num [hydrogen]),
      divD_ok hq, Option.bind_eq_bind, Option.bind_some, tail_ok _ hv, fall_ok hn2 hn ht, divD_ok hd.ne', second_ok hl]
  obtain ⟨h1, h2⟩ := Long.tail_time ht hp (u := 1 - 1e-12) (by norm_num)
  rintro ⟨D, hD, hh⟩
  rw [hD.unique h1, h2] at hh
  simp only [Long.time, Long.weight, hp (1 - 1e-12) (by norm_num), observe] at hh
  rw [show (1e-12 : ℝ) + (1 - 1e-12) = 1 by norm_num, Real.log_one, mul_zero, div_one] at hh
  have key := fall_long (n := hydrogen.n2) hn2 (by norm_num [hydrogen]) ht hd (le_refl 0)
  have hM : 0 < epithermal hydrogen.I2 hydrogen.chi2 l := by
    unfold epithermal
    have : (0 : ℝ) < hydrogen.I2 := by norm_num [hydrogen]
    positivity
  simp only [mul_zero, neg_zero, zero_div, Real.exp_zero, one_mul, mul_one] at key hh
  have hE2 : Real.exp (-hydrogen.n2 * hydrogen.d / (hydrogen.tau2 * l)) < 1 := by
    have h0 : -hydrogen.n2 * hydrogen.d / (hydrogen.tau2 * l) < 0 := div_neg_of_neg_of_pos (by norm_num [hydrogen]) ht
    have := Real.exp_lt_exp.2 h0
    rwa [Real.exp_zero] at this
  have h4 : focus * w * (epithermal hydrogen.I2 hydrogen.chi2 l * longPulse (0 + hydrogen.d) (hydrogen.tau2 * l) hydrogen.n2 hydrogen.d) * (hydrogen.tau2 * l) =
      focus * w * (epithermal hydrogen.I2 hydrogen.chi2 l) * (hydrogen.tau2 * l / hydrogen.d) *
        (longPulse (0 + hydrogen.d) (hydrogen.tau2 * l) hydrogen.n2 hydrogen.d * hydrogen.d) := by
    field_simp
  rw [h4, key] at hh
  generalize Real.exp (-hydrogen.n2 * hydrogen.d / (hydrogen.tau2 * l)) = E at hh hE2
  generalize Real.exp (-hydrogen.d / (hydrogen.tau2 * l)) = G at hh
  have h5 : focus * w * (epithermal hydrogen.I2 hydrogen.chi2 l) * (hydrogen.tau2 * l / hydrogen.d) *
        (hydrogen.n2 / (hydrogen.n2 - 1) * (1 - G - (1 - E) / hydrogen.n)) =
      focus * w * (epithermal hydrogen.I2 hydrogen.chi2 l) * (hydrogen.tau2 * l / hydrogen.d) *
        (hydrogen.n2 / (hydrogen.n2 - 1) * (1 - G - (1 - E) / hydrogen.n2)) := by
    rw [← hh]
    have : 1 - hydrogen.branch2 ≠ 0 := by norm_num [hydrogen]
    have : hydrogen.branch_tail ≠ 0 := by norm_num [hydrogen]
    generalize hydrogen.n2 / (hydrogen.n2 - 1) * (1 - G - (1 - E) / hydrogen.n) = A
    field_simp
  have h6 := mul_left_cancel₀ (by positivity) h5
  norm_num [hydrogen] at h6
  linarith

end
end Verif.McPulse
