import Verif.Lemmas.McSource
import Verif.Spec.Sampling
/-! Properties of the sources of McStas. -/

namespace Verif.McSource
open McStas Kinem McGuide McConst Homog Solid Flight Sampling
noncomputable section
open Classical

/-! ### Source_simple -/

lemma point_in (c : Simple) {u1 u2 : ℝ} (k1 : 0 ≤ u1 ∧ u1 ≤ 1) (k2 : 0 ≤ u2 ∧ u2 ≤ 1) :
    if c.radius ≠ 0 then (c.point (!decide (c.radius ≠ 0)) u1 u2).1 ^ 2 + (c.point (!decide (c.radius ≠ 0)) u1 u2).2 ^ 2 ≤ c.radius ^ 2
    else InRect |c.width| |c.height| (c.point (!decide (c.radius ≠ 0)) u1 u2).1 (c.point (!decide (c.radius ≠ 0)) u1 u2).2 := by
  by_cases h1 : c.radius ≠ 0
  · rw [if_pos h1]
    simp only [h1, ne_eq, not_false_eq_true, decide_true, Bool.not_true, Simple.point, Bool.false_eq_true, if_false]
    exact on_disk k2.1 k2.2
  · rw [if_neg h1]
    simp only [h1, decide_false, Bool.not_false, Simple.point, if_true]
    constructor
    · rw [abs_mul, mul_comm]
      have : |u1 - 0.5| ≤ 1 / 2 := by rw [abs_le]; constructor <;> norm_num <;> linarith [k1.1, k1.2]
      nlinarith [abs_nonneg c.width]
    · rw [abs_mul, mul_comm]
      have : |u2 - 0.5| ≤ 1 / 2 := by rw [abs_le]; constructor <;> norm_num <;> linarith [k2.1, k2.2]
      nlinarith [abs_nonneg c.height]

/-- C187 (partial): a neutron of `Source_simple` (not gaussian, with positive energies or wave lengths) starts on the source at time 0,
flies through the target, has an energy or a wave length in the interval, and the weight flux * area * (solid angle of the target, seen from the
center of the source).  Missing: the solid angle seen from the point of the source (`C187_weight_false`), gaussian wave lengths
(`C187_gauss_false`), intervals with wave lengths below 0, which are accepted (`C187_spectrum_false`). -/
theorem C187_partial (c : Simple) (square : Bool) (pmul : ℝ) (hinit : c.init = .ok (square, pmul)) (hd : 0 < c.dist) (hx : 0 < c.xw)
    (hy : 0 < c.yh) (hg : c.gauss = false) (hs : if c.Lambda0 = 0 then |c.dE| < c.E0 else |c.dLambda| < c.Lambda0) (e : Event ℝ)
    (u1 u2 u3 u4 u5 g : ℝ) (h : ∀ u ∈ [u1, u2, u3, u4, u5], 0 ≤ u ∧ u ≤ 1) :
    ∃ e' X Y, c.trace square pmul e u1 u2 u3 u4 u5 g = some e' ∧ Starts e' ∧ InRect c.xw c.yh X Y ∧ Through c.dist X Y e' ∧
      (if c.radius ≠ 0 then e'.r.x ^ 2 + e'.r.y ^ 2 ≤ c.radius ^ 2 else InRect |c.width| |c.height| e'.r.x e'.r.y) ∧
      (if c.Lambda0 = 0 then ∃ E, |E - c.E0| ≤ |c.dE| ∧ Energy e' E else ∃ L, |L - c.Lambda0| ≤ |c.dLambda| ∧ Wave e' L) ∧
      e'.p = c.flux * 1e4 * (if c.radius ≠ 0 then Real.pi * c.radius ^ 2 else c.width * c.height) * (c.xw * c.yh * solid c.dist 0 0 X Y) ∧
      e'.s1 = e.s1 ∧ e'.s2 = e.s2 := by
  have k1 := h u1 (by simp); have k2 := h u2 (by simp); have k3 := h u3 (by simp); have k4 := h u4 (by simp); have k5 := h u5 (by simp)
  have hsq : square = !decide (c.radius ≠ 0) ∧
      pmul = c.flux * 1e4 * (if c.radius ≠ 0 then Real.pi * c.radius ^ 2 else c.width * c.height) := by
    unfold Simple.init at hinit
    split_ifs at hinit with h1 h2
    all_goals first | (cases hinit; done) | skip
    · simp only [bind, Except.bind] at hinit
      split_ifs at hinit with h3
      cases hinit
      simp only [h1.1, ne_eq, not_false_eq_true, decide_true, Bool.not_true, if_true, true_and]
      ring
    · simp only [bind, Except.bind] at hinit
      split_ifs at hinit with h3
      cases hinit
      simp [h2.1]
  obtain ⟨v, hv, hv0, hsp⟩ : ∃ v, c.speed u5 g = some v ∧ 0 < v ∧
      (if c.Lambda0 = 0 then ∃ E, |E - c.E0| ≤ |c.dE| ∧ 0 ≤ E ∧ v = SE2V * √E
        else ∃ L, |L - c.Lambda0| ≤ |c.dLambda| ∧ 0 < L ∧ v = K2V * (2 * Real.pi / L)) := by
    have habs : ∀ d : ℝ, |d * (2 * u5 - 1)| ≤ |d| := by
      intro d
      rw [abs_mul]
      have : |2 * u5 - 1| ≤ 1 := by rw [abs_le]; constructor <;> linarith [k5.1, k5.2]
      exact mul_le_of_le_one_right (abs_nonneg d) this
    unfold Simple.speed
    rw [hg]
    by_cases hL : c.Lambda0 = 0
    · rw [if_pos hL] at hs ⊢
      simp only [if_pos hL]
      have hb := habs c.dE
      have hb2 := abs_le.1 hb
      have hpos : 0 < c.E0 + c.dE * (2 * u5 - 1) := by linarith [hb2.1]
      simp only [sqrtD, hpos.not_gt, if_false, Bool.false_eq_true, Option.bind_eq_bind, Option.bind_some]
      refine ⟨_, rfl, mul_pos (Real.sqrt_pos.2 hpos) (by norm_num [SE2V]), _, ?_, hpos.le, mul_comm _ _⟩
      rw [show c.E0 + c.dE * (2 * u5 - 1) - c.E0 = c.dE * (2 * u5 - 1) by ring]
      exact hb
    · rw [if_neg hL] at hs ⊢
      simp only [if_neg hL]
      have hb := habs c.dLambda
      have hb2 := abs_le.1 hb
      have hpos : 0 < c.Lambda0 + c.dLambda * (2 * u5 - 1) := by linarith [hb2.1]
      simp only [divD, hpos.ne', if_false, Bool.false_eq_true, Option.bind_eq_bind, Option.bind_some]
      refine ⟨_, rfl, mul_pos (by norm_num [K2V]) (by positivity), _, ?_, hpos, rfl⟩
      rw [show c.Lambda0 + c.dLambda * (2 * u5 - 1) - c.Lambda0 = c.dLambda * (2 * u5 - 1) by ring]
      exact hb
  unfold Simple.trace
  rw [target_eq hd hx hy, hv]
  simp only [Option.bind_eq_bind, Option.bind_some, aim_eq hd]
  refine ⟨_, _, _, rfl, ⟨rfl, rfl⟩, in_rect hx hy k3.1 k3.2 k4.1 k4.2, aim_through hd hv0 _ rfl rfl, ?_, ?_, ?_, rfl, rfl⟩
  · rw [hsq.1]
    exact point_in c k1 k2
  · by_cases hL : c.Lambda0 = 0
    · rw [if_pos hL] at hsp ⊢
      obtain ⟨E, h1, h2, h3⟩ := hsp
      exact ⟨E, h1, h2, by rw [← h3]; exact aim_length hd hv0.le⟩
    · rw [if_neg hL] at hsp ⊢
      obtain ⟨E, h1, h2, h3⟩ := hsp
      exact ⟨E, h1, h2, by rw [← h3]; exact aim_length hd hv0.le⟩
  · rw [hsq.2]; ring

/-- the default source -/
def simple : Simple := ⟨0.05, 0, 0, 10, 0.1, 0.1, 60, 10, 0, 0, 1, false⟩

example : (∃ pmul, simple.init = .ok (false, pmul)) ∧ 0 < simple.dist ∧ 0 < simple.xw ∧ 0 < simple.yh ∧ simple.gauss = false ∧
    (if simple.Lambda0 = 0 then |simple.dE| < simple.E0 else |simple.dLambda| < simple.Lambda0) := by
  refine ⟨⟨simple.flux * 1e4 * (Real.pi * simple.radius * simple.radius) / 1, ?_⟩, by norm_num [simple], by norm_num [simple],
    by norm_num [simple], rfl, by norm_num [simple, abs_of_pos]⟩
  have hp := Real.pi_pos
  unfold Simple.init
  rw [if_pos (by norm_num [simple])]
  simp only [bind, Except.bind]
  rw [if_neg]
  norm_num [simple, badSpectrum]
  positivity

/-- C187 (uniform target): with its weight, the mean of an observable of the velocity over the points in the target is the integral over the target of
the flux * area * solid angle (seen from the center of the source) -/
theorem C187_mean_partial (c : Simple) (square : Bool) (pmul : ℝ) (hd : 0 < c.dist) (hx : 0 < c.xw) (hy : 0 < c.yh) (e : Event ℝ)
    (u1 u2 u5 g v : ℝ) (hv : c.speed u5 g = some v) (f : V3 ℝ → ℝ) :
    mean2 (fun u3 u4 => observe (fun e' => e'.p * f e'.v) (c.trace square pmul e u1 u2 u3 u4 u5 g)) =
      pmul * overTarget c.xw c.yh fun X Y => solid c.dist 0 0 X Y *
        f ((v / √((X - (c.point square u1 u2).1) ^ 2 + (Y - (c.point square u1 u2).2) ^ 2 + c.dist ^ 2)) •
          (⟨X - (c.point square u1 u2).1, Y - (c.point square u1 u2).2, c.dist⟩ : V3 ℝ)) := by
  unfold Simple.trace
  simp only [target_eq hd hx hy, hv, Option.bind_eq_bind, Option.bind_some, aim_eq hd, observe]
  unfold overTarget mean2
  rw [← mean_pm, ← mean_mul]
  congr 1
  funext u
  rw [← mean_pm, ← mean_mul, ← mean_mul]
  congr 1
  funext u'
  ring

example : ∃ v, simple.speed (1 / 2) 0 = some v := by
  norm_num [simple, Simple.speed, sqrtD]

/-- C187 (uniform disk): the points on a disk are uniformly distributed: the mean of a function is its integral over the disk (in polar
coordinates) divided by the area -/
theorem C187_disk (R : ℝ) (hR : 0 < R) (f : ℝ → ℝ → ℝ) (hf : Continuous fun p : ℝ × ℝ => f p.1 p.2) :
    mean2 (fun u1 u2 => f (onDisk R u1 u2).1 (onDisk R u1 u2).2) =
      1 / (Real.pi * R ^ 2) * ∫ phi in (0 : ℝ)..2 * Real.pi, ∫ r in (0 : ℝ)..R, f (r * Real.cos phi) (r * Real.sin phi) * r := by
  unfold mean2 onDisk
  have : ∀ phi, mean (fun u => f (√u * R * Real.cos phi) (√u * R * Real.sin phi)) =
      2 / R ^ 2 * ∫ r in (0 : ℝ)..R, f (r * Real.cos phi) (r * Real.sin phi) * r := by
    intro phi
    refine mean_sqrt (g := fun r => f (r * Real.cos phi) (r * Real.sin phi)) ?_ R hR
    exact hf.comp (f := fun r : ℝ => (r * Real.cos phi, r * Real.sin phi)) (by fun_prop)
  simp only [this]
  rw [mean_angle (g := fun phi => 2 / R ^ 2 * ∫ r in (0 : ℝ)..R, f (r * Real.cos phi) (r * Real.sin phi) * r), intervalIntegral.integral_const_mul]
  field_simp

example : (0 : ℝ) < 0.05 ∧ Continuous fun p : ℝ × ℝ => p.1 ^ 2 + p.2 := ⟨by norm_num, by fun_prop⟩

/-- C187 (uniform rectangle) -/
theorem C187_rectangle (c : Simple) (hw : 0 < c.width) (hh : 0 < c.height) (f : ℝ → ℝ → ℝ) :
    mean2 (fun u1 u2 => f (c.point true u1 u2).1 (c.point true u1 u2).2) =
      1 / (c.width * c.height) * ∫ x in (-(c.width / 2))..(c.width / 2), ∫ y in (-(c.height / 2))..(c.height / 2), f x y := by
  have key : ∀ (w : ℝ), 0 < w → ∀ g : ℝ → ℝ, mean (fun u => g (w * (u - 0.5))) = 1 / w * ∫ x in (-(w / 2))..(w / 2), g x := by
    intro w hw g
    rw [← mean_affine, ← mean_mul]
    congr 1
    funext u
    rw [show -(w / 2) + u * (w / 2 - -(w / 2)) = w * (u - 0.5) by norm_num; ring]
    field_simp
    ring
  unfold mean2 Simple.point
  simp only [if_true, key c.height hh]
  rw [key c.width hw (fun x => 1 / c.height * ∫ y in (-(c.height / 2))..(c.height / 2), f x y), intervalIntegral.integral_const_mul]
  field_simp

/-- C187 is false for the solid angle: at the corner of a square of 2 m, 1 m before a target of 1 m, the weight is more than five times too large -/
theorem C187_weight_false : ¬ ∀ (c : Simple) (square : Bool) (pmul : ℝ), c.init = .ok (square, pmul) → 0 < c.dist → 0 < c.xw → 0 < c.yh →
    c.gauss = false → (if c.Lambda0 = 0 then |c.dE| < c.E0 else |c.dLambda| < c.Lambda0) → ∀ (e : Event ℝ) (u1 u2 u3 u4 u5 g : ℝ),
    (∀ u ∈ [u1, u2, u3, u4, u5], 0 ≤ u ∧ u ≤ 1) → ∀ e', c.trace square pmul e u1 u2 u3 u4 u5 g = some e' → ∀ X Y, Through c.dist X Y e' →
    e'.p ≤ 5 * (c.flux * 1e4 * (if c.radius ≠ 0 then Real.pi * c.radius ^ 2 else c.width * c.height) * (c.xw * c.yh * solid c.dist e'.r.x e'.r.y X Y)) := by
  intro hh
  let c : Simple := ⟨0, 2, 2, 1, 1, 1, 60, 10, 0, 0, 1, false⟩
  let e : Event ℝ := ⟨⟨0, 0, 0⟩, ⟨0, 0, 0⟩, 0, 0, 0, 1⟩
  have hinit : c.init = .ok (true, 4e4) := by
    unfold Simple.init
    norm_num [c, badSpectrum, bind, Except.bind]
  have hs : (if c.Lambda0 = 0 then |c.dE| < c.E0 else |c.dLambda| < c.Lambda0) := by norm_num [c, abs_of_pos]
  have hu : ∀ u ∈ [(1 : ℝ), 1, 1 / 2, 1 / 2, 1 / 2], 0 ≤ u ∧ u ≤ 1 := by
    intro u hu
    simp only [List.mem_cons, List.not_mem_nil, or_false] at hu
    rcases hu with rfl | rfl | rfl | rfl | rfl <;> norm_num
  obtain ⟨v, hv⟩ : ∃ v, c.speed (1 / 2) 0 = some v ∧ 0 < v := by
    norm_num [c, Simple.speed, sqrtD, SE2V]
  have htr : c.trace true 4e4 e 1 1 (1 / 2) (1 / 2) (1 / 2) 0 = some { e with
      r := ⟨1, 1, 0⟩, v := (v / √((0 - 1) ^ 2 + (0 - 1) ^ 2 + c.dist ^ 2)) • (⟨0 - 1, 0 - 1, c.dist⟩ : V3 ℝ), t := 0, p := 4e4 } := by
    unfold Simple.trace
    rw [target_eq (by norm_num [c]) (by norm_num [c]) (by norm_num [c]), hv.1]
    simp only [Option.bind_eq_bind, Option.bind_some, aim_eq (show 0 < c.dist by norm_num [c])]
    norm_num [Simple.point, c, solid]
  have := hh c true 4e4 hinit (by norm_num [c]) (by norm_num [c]) (by norm_num [c]) rfl hs e 1 1 (1 / 2) (1 / 2) (1 / 2) 0 hu _ htr 0 0
    (aim_through (by norm_num [c]) hv.2 _ rfl rfl)
  norm_num [c, solid] at this
  have h3 : (1.72 : ℝ) ≤ √3 := by
    rw [Real.le_sqrt (by norm_num) (by norm_num)]
    norm_num
  have h4 : (5.08 : ℝ) ≤ √3 ^ 3 := by
    calc (5.08 : ℝ) ≤ 1.72 ^ 3 := by norm_num
      _ ≤ √3 ^ 3 := by gcongr
  have h5 : (√3 ^ 3)⁻¹ ≤ 1 / 5.08 := by
    rw [inv_eq_one_div]
    exact one_div_le_one_div_of_le (by norm_num) h4
  linarith

/-- C187 (gaussian energies): the energy is `E0 + g dE` for a normal random number `g` -/
theorem C187_gauss_partial (c : Simple) (square : Bool) (pmul : ℝ) (hd : 0 < c.dist) (hx : 0 < c.xw) (hy : 0 < c.yh) (hg : c.gauss = true)
    (hL : c.Lambda0 = 0) (e : Event ℝ) (u1 u2 u3 u4 u5 g : ℝ) (hE : 0 ≤ c.E0 + g * c.dE) :
    ∃ e', c.trace square pmul e u1 u2 u3 u4 u5 g = some e' ∧ Starts e' ∧ Energy e' (c.E0 + g * c.dE) := by
  unfold Simple.trace Simple.speed
  simp only [target_eq hd hx hy, if_pos hL, hg, if_true, sqrtD, hE.not_gt, if_false, Option.bind_eq_bind, Option.bind_some, aim_eq hd]
  refine ⟨_, rfl, ⟨rfl, rfl⟩, hE, ?_⟩
  simp only
  rw [aim_length hd (mul_nonneg (Real.sqrt_nonneg _) (by norm_num [SE2V])), mul_comm]

example : ∃ (c : Simple) (g : ℝ), 0 < c.dist ∧ 0 < c.xw ∧ 0 < c.yh ∧ c.gauss = true ∧ c.Lambda0 = 0 ∧ 0 ≤ c.E0 + g * c.dE ∧ g ≠ 0 ∧ c.dE ≠ 0 :=
  ⟨⟨0, 2, 2, 1, 1, 1, 60, 10, 0, 0, 1, true⟩, -1, by norm_num, by norm_num, by norm_num, rfl, rfl, by norm_num, by norm_num, by norm_num⟩

/-- C187 is false for gaussian wave lengths: the mean `Lambda0` is missing; for 5 AA with a width of 0.1 AA a neutron one sigma above has a wave
length of 0.1 AA -/
theorem C187_gauss_false : ¬ ∀ (c : Simple) (square : Bool) (pmul : ℝ), c.init = .ok (square, pmul) → 0 < c.dist → 0 < c.xw → 0 < c.yh →
    c.gauss = true → 0 < c.dLambda → 10 * c.dLambda < c.Lambda0 → ∀ (e : Event ℝ) (u1 u2 u3 u4 u5 g : ℝ), |g| ≤ 1 →
    ∀ e', c.trace square pmul e u1 u2 u3 u4 u5 g = some e' → Wave e' (c.Lambda0 + g * c.dLambda) := by
  intro hh
  let c : Simple := ⟨0, 2, 2, 1, 1, 1, 0, 0, 5, 0.1, 1, true⟩
  let e : Event ℝ := ⟨⟨0, 0, 0⟩, ⟨0, 0, 0⟩, 0, 0, 0, 1⟩
  have hinit : c.init = .ok (true, 4e4) := by
    unfold Simple.init
    norm_num [c, badSpectrum, bind, Except.bind]
  have hpi := Real.pi_pos
  have hv : c.speed 0 1 = some (K2V * (2 * Real.pi / 0.1)) := by
    norm_num [c, Simple.speed, divD]
  have htr : ∃ a b, c.trace true 4e4 e 0 0 0 0 0 1 = some { e with
      r := a, v := (K2V * (2 * Real.pi / 0.1) / √((1 / 2 - -1) ^ 2 + (1 / 2 - -1) ^ 2 + c.dist ^ 2)) • (⟨1 / 2 - -1, 1 / 2 - -1, c.dist⟩ : V3 ℝ), t := 0,
      p := b } := by
    unfold Simple.trace
    rw [target_eq (by norm_num [c]) (by norm_num [c]) (by norm_num [c]), hv]
    simp only [Option.bind_eq_bind, Option.bind_some, aim_eq (show 0 < c.dist by norm_num [c])]
    norm_num [Simple.point, c]
  obtain ⟨a, b, htr⟩ := htr
  have hk : 0 < K2V := by norm_num [K2V]
  have := (hh c true 4e4 hinit (by norm_num [c]) (by norm_num [c]) (by norm_num [c]) rfl (by norm_num [c]) (by norm_num [c]) e 0 0 0 0 0 1 (by simp) _
    htr).2
  simp only at this
  rw [aim_length (by norm_num [c]) (by positivity)] at this
  have := mul_left_cancel₀ hk.ne' this
  norm_num [c] at this
  rw [div_eq_div_iff (by norm_num) (by norm_num)] at this
  nlinarith

/-- C187 is false for the tests of the parameters: as the default of `E0` is not 0, a given interval of wave lengths is not tested; neutrons with a
negative wave length fly away from the target -/
theorem C187_spectrum_false : ¬ ∀ (c : Simple) (square : Bool) (pmul : ℝ), c.init = .ok (square, pmul) → c.gauss = false → 0 < c.dist →
    ∀ (e : Event ℝ) (u1 u2 u3 u4 u5 g : ℝ), (∀ u ∈ [u1, u2, u3, u4, u5], 0 < u ∧ u < 1) →
    ∀ e', c.trace square pmul e u1 u2 u3 u4 u5 g = some e' → 0 < e'.v.z := by
  intro hh
  let c : Simple := ⟨0, 2, 2, 1, 1, 1, 60, 10, 1, 2, 1, false⟩
  let e : Event ℝ := ⟨⟨0, 0, 0⟩, ⟨0, 0, 0⟩, 0, 0, 0, 1⟩
  have hinit : c.init = .ok (true, 4e4) := by
    unfold Simple.init
    norm_num [c, badSpectrum, bind, Except.bind]
  have hpi := Real.pi_pos
  have hv : c.speed (1 / 8) 0 = some (K2V * (2 * Real.pi / -(1 / 2))) := by
    norm_num [c, Simple.speed, divD]
  have htr : c.trace true 4e4 e (1 / 2) (1 / 2) (1 / 2) (1 / 2) (1 / 8) 0 = some { e with
      r := ⟨0, 0, 0⟩, v := (K2V * (2 * Real.pi / -(1 / 2)) / √((0 - 0) ^ 2 + (0 - 0) ^ 2 + c.dist ^ 2)) • (⟨0 - 0, 0 - 0, c.dist⟩ : V3 ℝ), t := 0, p := 4e4 } := by
    unfold Simple.trace
    rw [target_eq (by norm_num [c]) (by norm_num [c]) (by norm_num [c]), hv]
    simp only [Option.bind_eq_bind, Option.bind_some, aim_eq (show 0 < c.dist by norm_num [c])]
    norm_num [Simple.point, c, solid]
  have := hh c true 4e4 hinit rfl (by norm_num [c]) e (1 / 2) (1 / 2) (1 / 2) (1 / 2) (1 / 8) 0 (by
    intro u hu
    simp only [List.mem_cons, List.not_mem_nil, or_false] at hu
    rcases hu with rfl | rfl | rfl | rfl | rfl <;> norm_num) _ htr
  norm_num [c, K2V] at this
  linarith

/-! ### Source_div -/

/-- C188 (partial): a neutron of `Source_div` with accepted energies (|dE| < E0) or wave lengths starts in the rectangle of the source at time 0 with
weight 1; its energy or wave length (with the constant 3956.036) is in the interval, it flies forward, and the slopes of its direction
are the tangents of the two angles, which are, if the distribution is not gaussian, at most the divergences.  Missing: parameters that
are accepted and lead to the end of the program (`C188_exit_false`), divergences above 90 degrees (`C188_angle_false`). -/
theorem C188_partial (c : Div) (hok : c.check = .ok ()) (hs : |c.dE| < c.E0 ∨ (¬ |c.dE| < c.E0 ∧ |c.dLambda| < c.Lambda0)) (e : Event ℝ)
    (u1 u2 u3 u4 u5 g1 g2 : ℝ) (h : ∀ u ∈ [u1, u2, u3, u4, u5], 0 ≤ u ∧ u ≤ 1) :
    ∃ e' th tv, c.trace e u1 u2 u3 u4 u5 g1 g2 = .ok (some e') ∧ Starts e' ∧ InRect c.width c.height e'.r.x e'.r.y ∧ e'.p = 1 ∧
      (if |c.dE| < c.E0 then ∃ E, |E - c.E0| ≤ |c.dE| ∧ Energy e' E
        else ∃ L, |L - c.Lambda0| ≤ |c.dLambda| ∧ 0 < L ∧ length e'.v = 3956.036 / L) ∧
      0 < e'.v.z ∧ e'.v.x = Real.tan th * e'.v.z ∧ e'.v.y = Real.tan tv * e'.v.z ∧
      (c.gauss = true → th = g1 * sigma c.hdiv ∧ tv = g2 * sigma c.vdiv) ∧
      (c.gauss = false → |th| ≤ Real.pi / 180 * c.hdiv ∧ |tv| ≤ Real.pi / 180 * c.vdiv) ∧ e'.s1 = e.s1 ∧ e'.s2 = e.s2 := by
  have k1 := h u1 (by simp); have k2 := h u2 (by simp); have k3 := h u3 (by simp); have k4 := h u4 (by simp); have k5 := h u5 (by simp)
  have hpos : 0 ≤ c.width ∧ 0 ≤ c.height ∧ 0 ≤ c.hdiv ∧ 0 ≤ c.vdiv := by
    unfold Div.check at hok
    split_ifs at hok with h1
    simp only [not_or, not_lt] at h1
    exact ⟨h1.1, h1.2.1, h1.2.2.1, h1.2.2.2.1⟩
  have hpm : ∀ d u : ℝ, 0 ≤ u ∧ u ≤ 1 → |d * (2 * u - 1)| ≤ |d| := by
    intro d u hu
    rw [abs_mul]
    have : |2 * u - 1| ≤ 1 := by rw [abs_le]; constructor <;> linarith [hu.1, hu.2]
    exact mul_le_of_le_one_right (abs_nonneg d) this
  obtain ⟨v, hv, hv0, hsp⟩ : ∃ v, c.speed u3 = .ok (some v) ∧ 0 < v ∧
      (if |c.dE| < c.E0 then ∃ E, |E - c.E0| ≤ |c.dE| ∧ 0 ≤ E ∧ v = SE2V * √E
        else ∃ L, |L - c.Lambda0| ≤ |c.dLambda| ∧ 0 < L ∧ v = 3956.036 / L) := by
    unfold Div.speed
    rcases hs with hs | ⟨hs, hs2⟩
    · have hb := hpm c.dE u3 k3
      have hb2 := abs_le.1 hb
      have hp : 0 < c.E0 + c.dE * (2 * u3 - 1) := by linarith [hb2.1]
      rw [if_pos ⟨lt_of_le_of_lt (abs_nonneg _) hs, hs⟩]
      simp only [if_pos hs, sqrtD, hp.not_gt, if_false, Option.map_some]
      refine ⟨_, rfl, mul_pos (Real.sqrt_pos.2 hp) (by norm_num [SE2V]), _, ?_, hp.le, mul_comm _ _⟩
      rw [show c.E0 + c.dE * (2 * u3 - 1) - c.E0 = c.dE * (2 * u3 - 1) by ring]
      exact hb
    · have hb := hpm c.dLambda u3 k3
      have hb2 := abs_le.1 hb
      have hp : 0 < c.Lambda0 + c.dLambda * (2 * u3 - 1) := by linarith [hb2.1]
      rw [if_neg (fun hh => hs hh.2), if_pos ⟨lt_of_le_of_lt (abs_nonneg _) hs2, hs2⟩]
      simp only [if_neg hs, divD, hp.ne', if_false]
      refine ⟨_, rfl, by positivity, _, ?_, hp, rfl⟩
      rw [show c.Lambda0 + c.dLambda * (2 * u3 - 1) - c.Lambda0 = c.dLambda * (2 * u3 - 1) by ring]
      exact hb
  unfold Div.trace
  rw [hv]
  simp only [bind, Except.bind, Option.map_some]
  generalize hth : (if c.gauss = true then g1 * sigma c.hdiv else (2 * u4 - 1) * c.hdiv * (Real.pi / 180)) = th
  generalize htv : (if c.gauss = true then g2 * sigma c.vdiv else (2 * u5 - 1) * c.vdiv * (Real.pi / 180)) = tv
  have hroot : 0 < √(1 + Real.tan tv * Real.tan tv + Real.tan th * Real.tan th) :=
    Real.sqrt_pos.2 (by nlinarith [mul_self_nonneg (Real.tan tv), mul_self_nonneg (Real.tan th)])
  have hlen : length (⟨Real.tan th * (v / √(1 + Real.tan tv * Real.tan tv + Real.tan th * Real.tan th)),
      Real.tan tv * (v / √(1 + Real.tan tv * Real.tan tv + Real.tan th * Real.tan th)),
      v / √(1 + Real.tan tv * Real.tan tv + Real.tan th * Real.tan th)⟩ : V3 ℝ) = v := by
    have hsq := Real.sq_sqrt (show 0 ≤ 1 + Real.tan tv * Real.tan tv + Real.tan th * Real.tan th by
      nlinarith [mul_self_nonneg (Real.tan tv), mul_self_nonneg (Real.tan th)])
    rw [length_eq]
    simp only [V3.dot]
    generalize √(1 + Real.tan tv * Real.tan tv + Real.tan th * Real.tan th) = q at hroot hsq ⊢
    rw [show Real.tan th * (v / q) * (Real.tan th * (v / q)) + Real.tan tv * (v / q) * (Real.tan tv * (v / q)) + v / q * (v / q) =
      (v / q) ^ 2 * (1 + Real.tan tv * Real.tan tv + Real.tan th * Real.tan th) by ring, ← hsq, ← mul_pow, div_mul_cancel₀ _ hroot.ne',
      Real.sqrt_sq hv0.le]
  refine ⟨_, th, tv, rfl, ⟨rfl, rfl⟩, ⟨?_, ?_⟩, by norm_num, ?_, div_pos hv0 hroot, rfl, rfl, ?_, ?_, rfl, rfl⟩
  · have := hpm c.width u1 k1
    rw [abs_of_nonneg hpos.1] at this
    simp only
    rw [abs_div, abs_two, mul_comm]
    linarith
  · have := hpm c.height u2 k2
    rw [abs_of_nonneg hpos.2.1] at this
    simp only
    rw [abs_div, abs_two, mul_comm]
    linarith
  · by_cases hL : |c.dE| < c.E0
    · rw [if_pos hL] at hsp ⊢
      obtain ⟨E, h1, h2, h3⟩ := hsp
      exact ⟨E, h1, h2, by rw [← h3]; exact hlen⟩
    · rw [if_neg hL] at hsp ⊢
      obtain ⟨E, h1, h2, h3⟩ := hsp
      exact ⟨E, h1, h2, by rw [← h3]; exact hlen⟩
  · intro hg
    rw [if_pos hg] at hth htv
    exact ⟨hth.symm, htv.symm⟩
  · intro hg
    rw [if_neg (by simp [hg])] at hth htv
    have hpi : 0 < Real.pi / 180 := by positivity
    constructor
    · have := hpm c.hdiv u4 k4
      rw [abs_of_nonneg hpos.2.2.1] at this
      rw [← hth, abs_mul, abs_of_pos hpi, mul_comm (2 * u4 - 1), mul_comm]
      exact mul_le_mul_of_nonneg_left this hpi.le
    · have := hpm c.vdiv u5 k5
      rw [abs_of_nonneg hpos.2.2.2] at this
      rw [← htv, abs_mul, abs_of_pos hpi, mul_comm (2 * u5 - 1), mul_comm]
      exact mul_le_mul_of_nonneg_left this hpi.le

/-- a source with 5 meV, and 1 and 2 degrees -/
def divSource : Div := ⟨0.1, 0.2, 1, 2, 5, 1, 0, 0, false⟩

example : divSource.check = .ok () ∧ |divSource.dE| < divSource.E0 := by
  constructor
  · unfold Div.check
    rw [if_neg]
    norm_num [divSource, badSpectrum]
  · norm_num [divSource, abs_of_pos]

/-- C188 (width): the divergence is the full width at half maximum of the gaussian distribution: at half of it the density is one half of the density at 0 -/
theorem C188_fwhm (div : ℝ) (h : 0 < div) : Real.exp (-(Real.pi / 180 * div / 2) ^ 2 / (2 * sigma div ^ 2)) = 1 / 2 * Real.exp 0 := by
  have hl : 0 < Real.log 2 := Real.log_pos (by norm_num)
  have hpi := Real.pi_pos
  have hsq : √(2 * Real.log 2) ^ 2 = 2 * Real.log 2 := Real.sq_sqrt (by positivity)
  have e : -(Real.pi / 180 * div / 2) ^ 2 / (2 * sigma div ^ 2) = -Real.log 2 := by
    unfold sigma
    rw [div_pow (Real.pi / 180 * div) (2 * √(2 * Real.log 2)), mul_pow 2 √(2 * Real.log 2), hsq]
    field_simp
  rw [e, Real.exp_neg, Real.exp_log (by norm_num), Real.exp_zero]
  norm_num

example : (0 : ℝ) < 1 := one_pos

/-- C188 is false for the test of the parameters: some are accepted, and the first neutron ends the program -/
theorem C188_exit_false : ∃ c : Div, c.check = .ok () ∧ ∀ e u1 u2 u3 u4 u5 g1 g2, c.trace e u1 u2 u3 u4 u5 g1 g2 = .error .cppException := by
  refine ⟨⟨0.1, 0.2, 1, 2, 1, 2, 0, 1, false⟩, ?_, fun e u1 u2 u3 u4 u5 g1 g2 => ?_⟩
  · unfold Div.check
    rw [if_neg]
    norm_num [badSpectrum]
  · unfold Div.trace Div.speed
    norm_num [bind, Except.bind, abs_of_pos]

/-- C188 is false for large angles: a neutron with the angle 120 degrees to the forward direction flies in the direction of -60 degrees -/
theorem C188_angle_false : ∃ c : Div, c.check = .ok () ∧ |c.dE| < c.E0 ∧ c.gauss = false ∧ c.hdiv = 120 ∧ ∀ e : Event ℝ, ∃ e' : Event ℝ,
    c.trace e 0 0 0 1 0 0 0 = .ok (some e') ∧ ¬ ∃ s > 0, e'.v.x = s * Real.sin (120 * (Real.pi / 180)) ∧ e'.v.z = s * Real.cos (120 * (Real.pi / 180)) := by
  have hc : (⟨0.1, 0.2, 120, 0, 5, 1, 0, 0, false⟩ : Div).check = .ok () := by
    unfold Div.check
    rw [if_neg]
    norm_num [badSpectrum]
  refine ⟨⟨0.1, 0.2, 120, 0, 5, 1, 0, 0, false⟩, hc, by norm_num [abs_of_pos], rfl, rfl, fun e => ?_⟩
  obtain ⟨e', th, tv, h1, -, -, -, -, h2, -⟩ := C188_partial _ hc (Or.inl (by norm_num [abs_of_pos])) e 0 0 0 1 0 0 0 (by simp)
  refine ⟨e', h1, ?_⟩
  rintro ⟨s, hs, -, h3⟩
  have hcos : Real.cos (120 * (Real.pi / 180)) < 0 := by
    apply Real.cos_neg_of_pi_div_two_lt_of_lt <;> linarith [Real.pi_pos]
  nlinarith

/-! ### Moderator -/

/-- C189 (partial): a neutron of `Moderator` starts on the disk, flies through the target, has an energy between `E0` and `E1`, the weight
(solid angle of the target, seen from the center) / 4 pi.  Missing: the solid angle seen from the point of the source (as in
`C187_weight_false`). -/
theorem C189_partial (c : Moderator) (hok : c.check = .ok ()) (hx : 0 < c.xw) (hy : 0 < c.yh) (hE : 0 < c.E0 ∧ 0 < c.E1) (e : Event ℝ)
    (u1 u2 u3 u4 u5 u6 : ℝ) (h : ∀ u ∈ [u1, u2, u3, u4, u5], 0 ≤ u ∧ u ≤ 1) (h6 : 0 < u6) :
    ∃ e' X Y E, c.trace e u1 u2 u3 u4 u5 u6 = some e' ∧ e'.r.z = 0 ∧ e'.r.x ^ 2 + e'.r.y ^ 2 ≤ c.radius ^ 2 ∧ InRect c.xw c.yh X Y ∧
      Through c.dist X Y e' ∧ min c.E0 c.E1 ≤ E ∧ E ≤ max c.E0 c.E1 ∧ Energy e' E ∧ e'.p = c.xw * c.yh * solid c.dist 0 0 X Y / (4 * Real.pi) ∧
      e'.t = -c.tau E * Real.log u6 * 1e-6 ∧ e'.s1 = e.s1 ∧ e'.s2 = e.s2 := by
  have k2 := h u2 (by simp); have k3 := h u3 (by simp); have k4 := h u4 (by simp); have k5 := h u5 (by simp)
  have hd : 0 < c.dist := by
    unfold Moderator.check at hok
    split_ifs at hok with h1
    simp only [not_or, not_lt, not_le] at h1
    exact h1.2.2.2.1
  have hlo : min c.E0 c.E1 ≤ c.E0 + (c.E1 - c.E0) * u5 := by
    rcases le_total c.E0 c.E1 with hh | hh
    · rw [min_eq_left hh]; nlinarith [k5.1]
    · rw [min_eq_right hh]; nlinarith [k5.2]
  have hhi : c.E0 + (c.E1 - c.E0) * u5 ≤ max c.E0 c.E1 := by
    rcases le_total c.E0 c.E1 with hh | hh
    · rw [max_eq_right hh]; nlinarith [k5.2]
    · rw [max_eq_left hh]; nlinarith [k5.1]
  have hpos : 0 < c.E0 + (c.E1 - c.E0) * u5 := lt_of_lt_of_le (lt_min hE.1 hE.2) hlo
  have hv0 : 0 < SE2V * √(c.E0 + (c.E1 - c.E0) * u5) := mul_pos (by norm_num [SE2V]) (Real.sqrt_pos.2 hpos)
  unfold Moderator.trace
  simp only [target_eq hd hx hy, sqrtD, hpos.not_gt, if_false, Option.bind_eq_bind, Option.bind_some, aim_eq hd, logD, h6.not_ge]
  refine ⟨_, _, _, _, rfl, rfl, on_disk k2.1 k2.2, in_rect hx hy k3.1 k3.2 k4.1 k4.2, aim_through hd hv0 _ rfl rfl, hlo, hhi,
    ⟨hpos.le, aim_length hd hv0.le⟩, ?_, rfl, rfl, rfl⟩
  simp only
  ring

/-- a moderator -/
def moderator : Moderator := ⟨0.05, 1, 100, 5, 0.1, 0.1, 37.15, 9, 39.1⟩

lemma moderator_ok : moderator.check = .ok () := by
  unfold Moderator.check
  rw [if_neg]
  norm_num [moderator]

example : moderator.check = .ok () ∧ 0 < moderator.xw ∧ 0 < moderator.yh ∧ 0 < moderator.E0 ∧ 0 < moderator.E1 :=
  ⟨moderator_ok, by norm_num [moderator], by norm_num [moderator], by norm_num [moderator], by norm_num [moderator]⟩

/-- C189 (time): the time of emission is exponentially distributed: the probability that a neutron of the energy `E` starts after `s` seconds is
exp (- s / tau), where tau (microseconds) is t0 up to the critical energy, and t0 / (1 + ((E - Ec) / gam)^2) above -/
theorem C189_time (c : Moderator) (hok : c.check = .ok ()) (hx : 0 < c.xw) (hy : 0 < c.yh) (hE : 0 < c.E0 ∧ 0 < c.E1) (e : Event ℝ)
    (ht : 0 < c.t0) (u1 u2 u3 u4 u5 E s : ℝ) (h5 : 0 ≤ u5 ∧ u5 ≤ 1) (hs : 0 ≤ s) (hE5 : E = c.E0 + (c.E1 - c.E0) * u5) :
    mean (fun u => observe (fun e' => if s < e'.t then 1 else 0) (c.trace e u1 u2 u3 u4 u5 u)) =
      Real.exp (-s * 1e6 / (if E ≤ c.Ec then c.t0 else c.t0 / (1 + ((E - c.Ec) / c.gam) ^ 2))) := by
  have hd : 0 < c.dist := by
    unfold Moderator.check at hok
    split_ifs at hok with h1
    simp only [not_or, not_lt, not_le] at h1
    exact h1.2.2.2.1
  have hEpos : 0 < E := by
    rw [hE5]
    rcases le_total c.E0 c.E1 with hh | hh <;> nlinarith [h5.1, h5.2, hE.1, hE.2]
  have htr : ∀ u, 0 < u → observe (fun e' : Event ℝ => if s < e'.t then (1 : ℝ) else 0) (c.trace e u1 u2 u3 u4 u5 u) =
      if s < -c.tau E * Real.log u * 1e-6 then 1 else 0 := by
    intro u hu
    unfold Moderator.trace
    simp only [← hE5, target_eq hd hx hy, sqrtD, hEpos.not_gt, if_false, Option.bind_eq_bind, Option.bind_some, aim_eq hd, logD, hu.not_ge,
      observe]
  have htau : c.tau E = if E ≤ c.Ec then c.t0 else c.t0 / (1 + ((E - c.Ec) / c.gam) ^ 2) := by
    unfold Moderator.tau
    split_ifs with h1 h2 h2
    · rfl
    · exact absurd h1.le h2
    · have : E = c.Ec := le_antisymm h2 (not_lt.1 h1)
      rw [this]; simp
    · simp only; rw [sq]
  have hpos : 0 < c.tau E := by
    rw [htau]
    split_ifs
    · exact ht
    · positivity
  rw [← htau]
  have key : ∀ u, 0 < u → (s < -c.tau E * Real.log u * 1e-6 ↔ u < Real.exp (-s * 1e6 / c.tau E)) := by
    intro u hu
    rw [← Real.log_lt_iff_lt_exp hu, lt_div_iff₀ hpos]
    constructor <;> intro hh <;> norm_num at hh ⊢ <;> nlinarith
  have hle : Real.exp (-s * 1e6 / c.tau E) ≤ 1 := by
    rw [Real.exp_le_one_iff]
    apply div_nonpos_of_nonpos_of_nonneg _ hpos.le
    norm_num; exact hs
  rw [mean_step (a := 0) (b := Real.exp (-s * 1e6 / c.tau E)) (A := 1) le_rfl (Real.exp_pos _).le hle]
  · ring
  · intro u h1 h2; linarith
  · intro u h1 h2
    rw [htr u h1, if_pos ((key u h1).2 h2)]
  · intro u h1 h2
    have h0 : 0 < u := (Real.exp_pos _).trans h1
    rw [htr u h0, if_neg (fun hh => absurd ((key u h0).1 hh) h1.not_gt)]

example : moderator.check = .ok () ∧ 0 < moderator.t0 ∧ (0 : ℝ) ≤ 1e-5 ∧ moderator.E0 + (moderator.E1 - moderator.E0) * 0.5 = 50.5 :=
  ⟨moderator_ok, by norm_num [moderator], by norm_num, by norm_num [moderator]⟩

/-! ### Source_Maxwell_3 -/

/-- C190 (partial): a neutron of `Source_Maxwell_3` (l_low < l_high) starts in the rectangle of the source at time 0, flies through the target, has
a wave length in the interval, and its weight is the old weight * area (cm2) * solid angle of the target (seen from the center) * width of the
interval * flux per wave length.  Missing: the solid angle seen from the point of the source (as in `C187_weight_false`); intervals in the
wrong order, which are accepted (`C190_order_false`). -/
theorem C190_partial (c : Maxwell) (w_mult : ℝ) (hinit : c.init = .ok w_mult) (hx : 0 < c.xw) (hy : 0 < c.yh) (hl : c.low < c.high)
    (e : Event ℝ) (u1 u2 u3 u4 u5 : ℝ) (h : ∀ u ∈ [u1, u2, u3, u4, u5], 0 ≤ u ∧ u ≤ 1) :
    ∃ e' X Y L, c.trace w_mult e u1 u2 u3 u4 u5 = some e' ∧ Starts e' ∧ InRect c.wide.1 c.wide.2 e'.r.x e'.r.y ∧ InRect c.xw c.yh X Y ∧
      Through c.dist X Y e' ∧ c.low ≤ L ∧ L ≤ c.high ∧ Wave e' L ∧
      e'.p = e.p * (c.wide.1 * c.wide.2 * 1e4) * (c.xw * c.yh * solid c.dist 0 0 X Y) * (c.high - c.low) *
        (c.I1 * maxwell c.T1 L + c.I2 * maxwell c.T2 L + c.I3 * maxwell c.T3 L) ∧ e'.s1 = e.s1 ∧ e'.s2 = e.s2 := by
  have k1 := h u1 (by simp); have k2 := h u2 (by simp); have k3 := h u3 (by simp); have k4 := h u4 (by simp); have k5 := h u5 (by simp)
  unfold Maxwell.init at hinit
  split_ifs at hinit with hok
  simp only [not_or, not_lt, not_le] at hok
  obtain ⟨q1, q2, q3, q4, hd, -⟩ := hok
  cases hinit
  have hlo : c.low ≤ c.low + (c.high - c.low) * u5 := by nlinarith [k5.1]
  have hhi : c.low + (c.high - c.low) * u5 ≤ c.high := by nlinarith [k5.2]
  have hpos : 0 < c.low + (c.high - c.low) * u5 := q3.trans_le hlo
  have hv0 : 0 < K2V * (2 * Real.pi / (c.low + (c.high - c.low) * u5)) := mul_pos (by norm_num [K2V]) (by positivity)
  unfold Maxwell.trace
  simp only [target_eq hd hx hy, divD, hpos.ne', if_false, Option.bind_eq_bind, Option.bind_some, aim_eq hd]
  refine ⟨_, _, _, _, rfl, ⟨rfl, rfl⟩, ⟨?_, ?_⟩, in_rect hx hy k3.1 k3.2 k4.1 k4.2, aim_through hd hv0 _ rfl rfl, hlo, hhi,
    ⟨hpos, aim_length hd hv0.le⟩, ?_, rfl, rfl⟩
  · simp only
    rw [abs_le]; constructor <;> norm_num <;> nlinarith [k1.1, k1.2]
  · simp only
    rw [abs_le]; constructor <;> norm_num <;> nlinarith [k2.1, k2.2]
  · simp only
    ring

/-- a cold source -/
def cold : Maxwell := ⟨0, 0.1, 0.2, 1, 10, 5, 0.1, 0.1, 30, 300, 300, 1e13, 0, 0⟩

lemma cold_ok : cold.init = .ok (cold.wide.1 * cold.wide.2 * 1e4 * (cold.high - cold.low) * (1 / 1)) := by
  unfold Maxwell.init
  rw [if_neg]
  norm_num [cold, Maxwell.wide]

example : (∃ w, cold.init = .ok w) ∧ 0 < cold.xw ∧ 0 < cold.yh ∧ cold.low < cold.high :=
  ⟨⟨_, cold_ok⟩, by norm_num [cold], by norm_num [cold], by norm_num [cold]⟩

/-- C190 (spectrum): the mean weight over the wave lengths is the weight * area * solid angle * the integral of the flux over the interval of wave
lengths, that is the sum of the fluxes times the part of the Maxwell distribution in the interval (which is all for the interval from 0 to infinity, `C190_all`) -/
theorem C190_spectrum (c : Maxwell) (w_mult : ℝ) (hinit : c.init = .ok w_mult) (hx : 0 < c.xw) (hy : 0 < c.yh) (hl : c.low < c.high)
    (e : Event ℝ) (u1 u2 u3 u4 : ℝ) (h3 : 0 ≤ u3 ∧ u3 ≤ 1) (h4 : 0 ≤ u4 ∧ u4 ≤ 1) : ∃ X Y, InRect c.xw c.yh X Y ∧
    mean (fun u => observe (fun e' => e'.p) (c.trace w_mult e u1 u2 u3 u4 u)) =
    e.p * (c.wide.1 * c.wide.2 * 1e4) * (c.xw * c.yh * solid c.dist 0 0 X Y) *
      (c.I1 * (maxwellBelow c.T1 c.high - maxwellBelow c.T1 c.low) + c.I2 * (maxwellBelow c.T2 c.high - maxwellBelow c.T2 c.low) +
        c.I3 * (maxwellBelow c.T3 c.high - maxwellBelow c.T3 c.low)) := by
  refine ⟨_, _, in_rect hx hy h3.1 h3.2 h4.1 h4.2, ?_⟩
  unfold Maxwell.init at hinit
  split_ifs at hinit with hok
  simp only [not_or, not_lt, not_le] at hok
  obtain ⟨q1, q2, hlo, q4, hd, -⟩ := hok
  cases hinit
  have htr : ∀ u, 0 < u → u < 1 → observe (fun e' : Event ℝ => e'.p) (c.trace (c.wide.1 * c.wide.2 * 1e4 * (c.high - c.low) * (1 / 1)) e u1 u2 u3 u4 u) =
      e.p * (c.wide.1 * c.wide.2 * 1e4) * (c.xw * c.yh * solid c.dist 0 0 (-(c.xw * (2 * u3 - 1) / 2)) (-(c.yh * (2 * u4 - 1) / 2))) *
      ((c.high - c.low) * (c.I1 * maxwell c.T1 (c.low + (c.high - c.low) * u) +
      c.I2 * maxwell c.T2 (c.low + (c.high - c.low) * u) + c.I3 * maxwell c.T3 (c.low + (c.high - c.low) * u))) := by
    intro u hu0 hu1
    have hpos : 0 < c.low + (c.high - c.low) * u := by nlinarith
    unfold Maxwell.trace
    simp only [target_eq hd hx hy, divD, hpos.ne', if_false, Option.bind_eq_bind, Option.bind_some, aim_eq hd, observe]
    ring
  rw [mean_congr htr, mean_mul]
  congr 1
  have hhi := hlo.trans hl
  have hint : ∀ T, IntervalIntegrable (maxwell T) MeasureTheory.volume c.low c.high := fun T => maxwell_integrable T hlo hhi
  rw [← maxwell_integral c.T1 hlo hhi, ← maxwell_integral c.T2 hlo hhi, ← maxwell_integral c.T3 hlo hhi,
    ← intervalIntegral.integral_const_mul, ← intervalIntegral.integral_const_mul, ← intervalIntegral.integral_const_mul,
    ← intervalIntegral.integral_add ((hint _).const_mul _) ((hint _).const_mul _),
    ← intervalIntegral.integral_add (((hint _).const_mul _).add ((hint _).const_mul _)) ((hint _).const_mul _), ← mean_affine]
  congr 1
  funext u
  rw [mul_comm u]

example : (∃ w, cold.init = .ok w) ∧ 0 < cold.xw ∧ 0 < cold.yh ∧ cold.low < cold.high ∧ (0 : ℝ) ≤ 0.5 ∧ (0.5 : ℝ) ≤ 1 :=
  ⟨⟨_, cold_ok⟩, by norm_num [cold], by norm_num [cold], by norm_num [cold], by norm_num, by norm_num⟩

/-- C190 (normalisation): the Maxwell distribution is normalised -/
theorem C190_all (T : ℝ) (hT : 0 < T) : Filter.Tendsto (maxwellBelow T) Filter.atTop (nhds 1) ∧
    Filter.Tendsto (maxwellBelow T) (nhdsWithin 0 (Set.Ioi 0)) (nhds 0) := by
  have e : maxwellBelow T = (fun s : ℝ => (1 + s) * Real.exp (-s)) ∘ fun l => 949 / T / l ^ 2 := by
    funext l; rfl
  have ha : 0 < 949 / T := by positivity
  constructor
  · rw [e]
    have h1 : Filter.Tendsto (fun l : ℝ => 949 / T / l ^ 2) Filter.atTop (nhds 0) :=
      Filter.Tendsto.const_div_atTop (Filter.tendsto_pow_atTop two_ne_zero) _
    have h2 : Filter.Tendsto (fun s : ℝ => (1 + s) * Real.exp (-s)) (nhds 0) (nhds 1) := by
      have : Continuous fun s : ℝ => (1 + s) * Real.exp (-s) := by fun_prop
      have := this.tendsto 0
      simpa using this
    exact h2.comp h1
  · rw [e]
    have h1 : Filter.Tendsto (fun l : ℝ => 949 / T / l ^ 2) (nhdsWithin 0 (Set.Ioi 0)) Filter.atTop := by
      have h3 : Filter.Tendsto (fun l : ℝ => (l ^ 2)⁻¹) (nhdsWithin 0 (Set.Ioi 0)) Filter.atTop := by
        apply Filter.Tendsto.inv_tendsto_nhdsGT_zero
        rw [tendsto_nhdsWithin_iff]
        constructor
        · have : Filter.Tendsto (fun l : ℝ => l ^ 2) (nhds 0) (nhds 0) := by
            have := (continuous_pow 2 (M := ℝ)).tendsto 0
            simpa using this
          exact this.mono_left nhdsWithin_le_nhds
        · filter_upwards [self_mem_nhdsWithin] with l hl
          exact pow_pos (Set.mem_Ioi.1 hl) 2
      exact (h3.const_mul_atTop ha).congr fun l => (div_eq_mul_inv _ _).symm
    have h2 : Filter.Tendsto (fun s : ℝ => (1 + s) * Real.exp (-s)) Filter.atTop (nhds 0) := by
      have a := Real.tendsto_exp_neg_atTop_nhds_zero
      have b := Real.tendsto_pow_mul_exp_neg_atTop_nhds_zero 1
      have := a.add b
      simp only [add_zero] at this
      exact this.congr fun s => by ring
    exact h2.comp h1

example : (0 : ℝ) < 300 := by norm_num

/-- C190 is false for intervals in the wrong order: they are accepted, and all weights are negative -/
theorem C190_order_false : ¬ ∀ (c : Maxwell) (w_mult : ℝ), c.init = .ok w_mult → 0 < c.xw → 0 < c.yh → 0 ≤ c.I1 → 0 ≤ c.I2 → 0 ≤ c.I3 →
    ∀ (e : Event ℝ) (u1 u2 u3 u4 u5 : ℝ), (∀ u ∈ [u1, u2, u3, u4, u5], 0 ≤ u ∧ u ≤ 1) → 0 < e.p →
    ∀ e', c.trace w_mult e u1 u2 u3 u4 u5 = some e' → 0 ≤ e'.p := by
  intro hh
  let c : Maxwell := ⟨0, 1, 1, 2, 1, 1, 1, 1, 949, 300, 300, 1, 0, 0⟩
  let e : Event ℝ := ⟨⟨0, 0, 0⟩, ⟨0, 0, 0⟩, 0, 0, 0, 1⟩
  have hinit : c.init = .ok (-1e4) := by
    unfold Maxwell.init
    rw [if_neg (by norm_num [c, Maxwell.wide])]
    norm_num [c, Maxwell.wide]
  have htr : ∃ a b d s, 0 < s ∧ c.trace (-1e4) e (1 / 2) (1 / 2) (1 / 2) (1 / 2) 1 = some { e with r := a, v := b, t := d, p := -s } := by
    unfold Maxwell.trace
    rw [target_eq (by norm_num [c]) (by norm_num [c]) (by norm_num [c])]
    norm_num [divD, c, aim_eq, solid, e, maxwell]
    exact ⟨_, _, _, _, mul_pos (by norm_num) (mul_pos two_pos (Real.exp_pos (-1))), rfl, rfl, rfl, rfl⟩
  obtain ⟨a, b, d, s, hs, htr⟩ := htr
  have := hh c (-1e4) hinit (by norm_num [c]) (by norm_num [c]) (by norm_num [c]) (by norm_num [c]) (by norm_num [c]) e _ _ _ _ _ (by
    intro u hu
    simp only [List.mem_cons, List.not_mem_nil, or_false] at hu
    rcases hu with rfl | rfl | rfl | rfl | rfl <;> norm_num) (by norm_num [e]) _ htr
  simp only at this
  linarith

end
end Verif.McSource
