import Verif.Lemmas.ResPixel
import Verif.Props.Homog
/-!
Property theorems about the helium-3 gas and the pixel of the resolution calculation: C300, C301,
C302.
-/

namespace Verif.ResPixel
open Solid Flight Kinem
open Classical

/-! ### C300 the gas of a helium-3 detector -/

/-- **C300** The gas absorbs with a cross section inversely proportional to the speed, 5333 barn at
a speed between 2200 and 2201 m/s, for every moving neutron, and does not scatter. -/
theorem C300_one_over_v :
    ∃ v0 : ℝ, 2200 < v0 ∧ v0 < 2201 ∧ ∀ (pressure : ℝ) (ev : Ev), ev.v ≠ 0 →
      absorption pressure ev =
        some (oneOverV (pressure * 2.414e20) (5333 * 1e-28) v0 √(ev.v.dot ev.v)) ∧
      scattering ev = 0 := by
  refine ⟨speed0, speed0_bounds.1, speed0_bounds.2, fun pressure ev hv => ⟨?_, rfl⟩⟩
  rw [absorption_eq pressure hv]
  norm_num

/-- **C300** The number density is that of an ideal gas of the pressure in pascal at 300 kelvin,
to two parts in ten thousand. -/
theorem C300_density (pressure : ℝ) (hp : 0 ≤ pressure) :
    |numberDensity pressure - pressure / (1.380649e-23 * 300)| ≤
      pressure / (1.380649e-23 * 300) * (2 / 10000) := by
  unfold numberDensity
  rw [abs_le]
  constructor <;> · norm_num; nlinarith

/-- a neutron of 1000 m/s -/
example : (⟨⟨0, 0, 0⟩, ⟨0, 0, 1000⟩, 0, 0, 0, 1⟩ : Ev).v ≠ 0 := by
  intro h; have := congrArg V3.z h; norm_num at this

/-! ### C301 the pixel of the resolution calculation -/

/-- **C301** A neutron that enters the pixel as `a` and needs the time `τ` to leave it comes out
where the passage ends, with the number epsilon as weight if the time asked for is not within
the passage, otherwise with its weight times `μ d exp (-μ x)`, `d` being the length of the
passage and `x` the part before the time asked for. -/
theorem C301_passage (tol par : ℝ) (s : Shape) (pressure mtof : ℝ) (ev a : Ev) (τ : ℝ)
    (hin : Enters tol par s ev a) (ht : tofBeforeExit tol par s a = .ok τ) (hv : a.v ≠ 0) :
    ∃ mu out w, absorption pressure a = some mu ∧ interact tol par s pressure mtof ev = .ok out ∧
      Passage ev a { out with p := a.p } τ ∧ out.p = w ∧
      ((mtof < a.t ∨ a.t + τ < mtof) → w = epsilon) ∧
      (a.t ≤ mtof → mtof ≤ a.t + τ → w = a.p * (mu * (τ * √(a.v.dot a.v)) *
        Real.exp (-mu * ((mtof - a.t) * √(a.v.dot a.v))))) := by
  have hmu := absorption_eq pressure hv
  refine ⟨_, _, _, hmu, interact_eq pressure mtof hin ht hmu,
    ⟨hin.flies, ⟨rfl, rfl, rfl, rfl, rfl, rfl⟩, (tofBeforeExit_toExit ht).1⟩, rfl, ?_, ?_⟩
  · intro h; exact if_pos h
  · intro h1 h2
    exact if_neg (by rintro (h | h); exacts [absurd h (not_lt.2 h1), absurd h (not_lt.2 h2)])

/-- **C301** If the time asked for is uniform over the passage, the mean weight is the weight times
the fraction absorbed on the way through the pixel. -/
theorem C301_mean (tol par : ℝ) (s : Shape) (pressure : ℝ) (ev a : Ev) (τ : ℝ)
    (hin : Enters tol par s ev a) (ht : tofBeforeExit tol par s a = .ok τ) (hv : a.v ≠ 0) :
    ∃ mu, absorption pressure a = some mu ∧
      Homog.mean (fun u => Homog.score (interact tol par s pressure (a.t + u * τ) ev) (·.p)) =
        a.p * (1 - Real.exp (-mu * (τ * √(a.v.dot a.v)))) := by
  have hmu := absorption_eq pressure hv
  refine ⟨_, hmu, ?_⟩
  set mu := oneOverV (pressure * 2.414e20) 5333e-28 speed0 √(a.v.dot a.v)
  have hτ := (tofBeforeExit_toExit ht).1
  rw [← Homog.integral_decay, ← Homog.mean_distance, Homog.mean, Homog.mean,
    ← intervalIntegral.integral_const_mul, ← intervalIntegral.integral_const_mul]
  apply intervalIntegral.integral_congr
  intro u hu
  rw [Set.uIcc_of_le zero_le_one] at hu
  simp only
  rw [interact_eq pressure _ hin ht hmu]
  simp only [Homog.score, propagate]
  rw [if_neg]
  · rw [show (a.t + u * τ - a.t) * √(a.v.dot a.v) = u * (τ * √(a.v.dot a.v)) by ring]
    ring
  · have h1 : 0 ≤ u * τ := mul_nonneg hu.1 hτ
    have h2 : u * τ ≤ 1 * τ := mul_le_mul_of_nonneg_right hu.2 hτ
    rintro (h | h) <;> linarith

theorem inner_enters : Enters (1 / 1000) (1 / 1000) (.sphere 1) Homog.inner Homog.inner :=
  ⟨_, Homog.inner_locate, Or.inl ⟨rfl, rfl⟩⟩

/-- the neutron in the middle of a ball -/
example : Enters (1 / 1000) (1 / 1000) (.sphere 1) Homog.inner Homog.inner ∧
    tofBeforeExit (1 / 1000) (1 / 1000) (.sphere 1) Homog.inner = .ok (1 / 2) ∧
    Homog.inner.v ≠ 0 :=
  ⟨inner_enters, Homog.inner_tof, Homog.inner_v⟩

/-! ### C302 the weight of a neutron seen by the pixel -/

/-- the neutron in the middle of the ball with the weight 0 -/
noncomputable def ghost : Ev := { Homog.inner with p := 0 }

/-- **C302** is false: a neutron of weight 0 that leaves the pixel before the time asked for comes
out with a positive weight. -/
theorem C302_undetected_false :
    ¬ ∀ (tol par : ℝ) (s : Shape) (pressure mtof : ℝ) (ev out : Ev), 0 < tol → 0 < par →
      0 ≤ pressure → ev.v ≠ 0 → 0 ≤ ev.p →
      interact tol par s pressure mtof ev = .ok out → out.p ≤ ev.p := by
  intro H
  have ht : tofBeforeExit (1 / 1000) (1 / 1000) (.sphere 1) ghost = .ok (1 / 2) :=
    (Homog.tof_weight _ _ _ _ _).trans Homog.inner_tof
  have hv : ghost.v ≠ 0 := Homog.inner_v
  have hin : Enters (1 / 1000) (1 / 1000) (.sphere 1) ghost ghost :=
    ⟨_, Homog.inner_locate, Or.inl ⟨rfl, rfl⟩⟩
  have h := H (1 / 1000) (1 / 1000) (.sphere 1) 1 5 ghost _ (by norm_num) (by norm_num) (by norm_num)
    hv le_rfl (interact_eq 1 5 hin ht (absorption_eq 1 hv))
  simp only [propagate] at h
  rw [if_pos (Or.inr (by norm_num [ghost, Homog.inner]))] at h
  norm_num [epsilon, ghost] at h

/-- **C302** is false also for a neutron that is detected: the factor is the mean number of
absorption lengths of the passage for a detection at the beginning of the passage, which may
be more than one. -/
theorem C302_gain_false :
    ¬ ∀ (tol par : ℝ) (s : Shape) (pressure : ℝ) (ev out : Ev), 0 < tol → 0 < par →
      0 ≤ pressure → ev.v ≠ 0 → 0 ≤ ev.p →
      interact tol par s pressure ev.t ev = .ok out → out.p ≤ ev.p := by
  intro H
  have h := H (1 / 1000) (1 / 1000) (.sphere 1) 1000 Homog.inner _ (by norm_num) (by norm_num)
    (by norm_num) Homog.inner_v (by norm_num [Homog.inner])
    (interact_eq 1000 _ inner_enters Homog.inner_tof (absorption_eq 1000 Homog.inner_v))
  have e3 : √(Homog.inner.v.dot Homog.inner.v) = 2 := by
    rw [show Homog.inner.v.dot Homog.inner.v = 2 ^ 2 by norm_num [Homog.inner, V3.dot]]
    exact Real.sqrt_sq (by norm_num)
  simp only [propagate] at h
  rw [if_neg (by rintro (h | h) <;> norm_num at h), e3, sub_self, zero_mul, mul_zero, Real.exp_zero]
    at h
  have h1 : Homog.inner.p = 1 := rfl
  rw [h1] at h
  unfold oneOverV at h
  have := speed0_bounds.1
  norm_num at h
  nlinarith

/-- **C302**, what holds: a neutron of at least the weight epsilon does not gain weight if the
pixel is not longer than an absorption length for it, and keeps a weight that is not
negative. -/
theorem C302_partial (tol par : ℝ) (s : Shape) (pressure mtof : ℝ) (hp : 0 ≤ pressure)
    (ev a : Ev) (τ mu : ℝ) (hin : Enters tol par s ev a) (ht : tofBeforeExit tol par s a = .ok τ)
    (hv : a.v ≠ 0) (hw : epsilon ≤ ev.p) (hmu : absorption pressure a = some mu)
    (hthin : mu * (τ * √(a.v.dot a.v)) ≤ 1) :
    ∃ out, interact tol par s pressure mtof ev = .ok out ∧ 0 ≤ out.p ∧ out.p ≤ ev.p := by
  refine ⟨_, interact_eq pressure mtof hin ht hmu, ?_⟩
  obtain ⟨t, h0, hf⟩ := hin.flies
  have hpe : a.p = ev.p := hf.2.2.2.2.2
  have he : 0 < epsilon := by unfold epsilon; norm_num
  have hτ := (tofBeforeExit_toExit ht).1
  have hmu0 : 0 ≤ mu := by
    rw [absorption_eq pressure hv] at hmu
    cases hmu
    have := speed0_bounds.1
    unfold oneOverV
    have : 0 ≤ speed0 := by linarith
    positivity
  simp only [propagate]
  by_cases hc : mtof < a.t ∨ a.t + τ < mtof
  · rw [if_pos hc]
    exact ⟨he.le, hw⟩
  · rw [if_neg hc, hpe]
    push Not at hc
    have hx : 0 ≤ (mtof - a.t) * √(a.v.dot a.v) :=
      mul_nonneg (by linarith [hc.1]) (Real.sqrt_nonneg _)
    have hexp : Real.exp (-mu * ((mtof - a.t) * √(a.v.dot a.v))) ≤ 1 := by
      rw [Real.exp_le_one_iff]; nlinarith
    have hd : 0 ≤ mu * (τ * √(a.v.dot a.v)) := by positivity
    have hev : 0 ≤ ev.p := he.le.trans hw
    refine ⟨by positivity, ?_⟩
    have : mu * (τ * √(a.v.dot a.v)) * Real.exp (-mu * ((mtof - a.t) * √(a.v.dot a.v))) ≤ 1 := by
      nlinarith [Real.exp_pos (-mu * ((mtof - a.t) * √(a.v.dot a.v)))]
    nlinarith

/-- **C302** Multiple scattering mode is refused. -/
theorem C302_multiple (ev : Ev) : interactM ev = .error .cppException := rfl

/-- an empty ball -/
example : Enters (1 / 1000) (1 / 1000) (.sphere 1) Homog.inner Homog.inner ∧
    tofBeforeExit (1 / 1000) (1 / 1000) (.sphere 1) Homog.inner = .ok (1 / 2) ∧
    Homog.inner.v ≠ 0 ∧ epsilon ≤ Homog.inner.p ∧ absorption 0 Homog.inner = some 0 := by
  refine ⟨inner_enters, Homog.inner_tof, Homog.inner_v, by norm_num [epsilon, Homog.inner], ?_⟩
  rw [absorption_eq _ Homog.inner_v]
  simp [oneOverV]

/-- a ball of gas of the pressure 1 pascal, in which the neutron is absorbed with a small but
positive probability -/
example : ∃ mu, absorption 1 Homog.inner = some mu ∧ 0 < mu ∧
    mu * (1 / 2 * √(Homog.inner.v.dot Homog.inner.v)) ≤ 1 := by
  have e3 : √(Homog.inner.v.dot Homog.inner.v) = 2 := by
    rw [show Homog.inner.v.dot Homog.inner.v = 2 ^ 2 by norm_num [Homog.inner, V3.dot]]
    exact Real.sqrt_sq (by norm_num)
  refine ⟨_, absorption_eq _ Homog.inner_v, ?_, ?_⟩ <;> rw [e3] <;>
    · unfold oneOverV
      have h := speed0_bounds
      norm_num
      nlinarith [h.1, h.2]

end Verif.ResPixel
