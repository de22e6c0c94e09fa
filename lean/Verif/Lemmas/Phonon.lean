import Verif.Spec.Phonon
import Verif.Lemmas.Kinem
import Verif.Lemmas.Dos
import Mathlib.MeasureTheory.Integral.IntervalIntegral.FundThmCalculus
import Mathlib.Analysis.SpecialFunctions.Trigonometric.Deriv
import Mathlib.Analysis.SpecialFunctions.ExpDeriv
/-!
Helper lemmas for incoherent phonon scattering.
-/

namespace Verif.Phonon
open Solid Flight Homog Kinem Dos MeasureTheory

theorem chooseDirection_eq (u1 u2 : ℝ) :
    chooseDirection u1 u2 = ⟨√(1 - (-1 + u1 * (1 - -1)) ^ 2) * Real.cos (0 + u2 * (2 * Real.pi - 0)),
      √(1 - (-1 + u1 * (1 - -1)) ^ 2) * Real.sin (0 + u2 * (2 * Real.pi - 0)), -1 + u1 * (1 - -1)⟩ := by
  unfold chooseDirection
  simp only [random_eq, Real.sin_arccos]

theorem direction_unit {c : ℝ} (h0 : -1 ≤ c) (h1 : c ≤ 1) (ph : ℝ) :
    V3.dot (⟨√(1 - c ^ 2) * Real.cos ph, √(1 - c ^ 2) * Real.sin ph, c⟩ : V3 ℝ)
      ⟨√(1 - c ^ 2) * Real.cos ph, √(1 - c ^ 2) * Real.sin ph, c⟩ = 1 := by
  have h : √(1 - c ^ 2) * √(1 - c ^ 2) = 1 - c ^ 2 := Real.mul_self_sqrt (by nlinarith)
  simp only [V3.dot]
  linear_combination (Real.cos ph ^ 2 + Real.sin ph ^ 2) * h + (1 - c ^ 2) * Real.cos_sq_add_sin_sq ph

theorem chooseDirection_unit {u1 : ℝ} (h0 : 0 ≤ u1) (h1 : u1 ≤ 1) (u2 : ℝ) :
    (chooseDirection u1 u2).dot (chooseDirection u1 u2) = 1 := by
  rw [chooseDirection_eq]
  exact direction_unit (by linarith) (by linarith) _

theorem normalize_unit {n : V3 ℝ} (h : n.dot n = 1) : Kinem.normalize n = some n := by
  unfold Kinem.normalize
  rw [length_eq, h, Real.sqrt_one, divD_ok one_ne_zero]
  simp only [Option.bind_eq_bind, Option.bind_some, Option.some.injEq]
  ext <;> simp

theorem E2v_eq {E : ℝ} (h : 0 ≤ E) : E2v E = some √(E / vsq2e) := by
  rw [E2v_ok h]
  congr 1
  have h1 := sqrte2v_sq
  have h2 := vsq2e_pos
  have e : 1 / vsq2e = sqrte2v ^ 2 := by field_simp; linarith
  rw [div_eq_mul_one_div, Real.sqrt_mul h, e, Real.sqrt_sq sqrte2v_pos.le]

theorem energy_velocity {E : ℝ} (h : 0 ≤ E) {n : V3 ℝ} (hn : n.dot n = 1) : energy (velocity E n) = E := by
  unfold velocity
  have h2 := vsq2e_pos
  rw [energy_smul, Real.mul_self_sqrt (by positivity), hn]
  field_simp

theorem velocity_length {E : ℝ} {n : V3 ℝ} (hn : n.dot n = 1) :
    √((velocity E n).dot (velocity E n)) = √(E / vsq2e) := by
  have e : (velocity E n).dot (velocity E n) = √(E / vsq2e) ^ 2 * n.dot n := by
    simp only [velocity, V3.dot, V3.smul_x, V3.smul_y, V3.smul_z]; ring
  rw [e, hn, mul_one, Real.sqrt_sq (Real.sqrt_nonneg _)]

theorem transfer_eq (v v' : V3 ℝ) : length (v2k • (v - v')) = transfer v v' := by
  rw [length_eq]; unfold transfer wave
  congr 1
  simp only [V3.dot, V3.sub_x, V3.sub_y, V3.sub_z, V3.smul_x, V3.smul_y, V3.smul_z]; ring

theorem transfer_comm (v v' : V3 ℝ) : transfer v v' = transfer v' v := by
  unfold transfer
  congr 1
  simp only [V3.dot, V3.sub_x, V3.sub_y, V3.sub_z]; ring

theorem k2E_eq (Q : ℝ) : k2E Q = neutronRecoil Q := by
  unfold k2E ksquare2E vsquare2E neutronRecoil; ring

theorem bose_recip {w T : ℝ} (hw : w ≠ 0) (hT : 0 < T) : ∃ b, boseFactor w T = some b ∧ 0 < b ∧
    b / |w| = 1 / (w * (1 - Real.exp (-(w / kT T)))) := by
  have hk : 0 < kT T := mul_pos hT kelvin2meV_pos
  obtain ⟨h1, h2⟩ := bose_pos (abs_pos.2 hw) hT
  have hx : 1 < Real.exp (|w| / kT T) := by
    rw [Real.one_lt_exp_iff]; exact div_pos (abs_pos.2 hw) hk
  refine ⟨(if w > 0 then 1 else 0) + 1 / (Real.exp (|w| / kT T) - 1), ?_, ?_, ?_⟩
  · unfold boseFactor
    rw [if_neg hw, h1]; rfl
  · split <;> linarith
  · rcases lt_or_gt_of_ne hw with h | h
    · rw [if_neg (by linarith), abs_of_neg h] at *
      rw [← neg_div]
      have : Real.exp (-w / kT T) - 1 ≠ 0 := by linarith
      have h3 : 1 - Real.exp (-w / kT T) ≠ 0 := by linarith
      generalize Real.exp (-w / kT T) = x at *
      rw [div_eq_div_iff (by linarith) (mul_ne_zero hw h3)]
      have : 1 / (x - 1) * (1 - x) = -1 := by field_simp; ring
      linear_combination w * this
    · rw [if_pos h, abs_of_pos h] at *
      rw [Real.exp_neg]
      have h3 : Real.exp (w / kT T) - 1 ≠ 0 := by linarith
      have h4 := Real.exp_pos (w / kT T)
      field_simp
      ring

/-- the weight of a scattering event that is not almost elastic -/
theorem inelFinish_eq {K : Inel} {r Ef : ℝ} {n : V3 ℝ} {ev : Ev} (hT : 0 < K.T) (hm : K.mass ≠ 0)
    (hv : ev.v ≠ 0) (hn : n.dot n = 1) (hE : 0 ≤ Ef) (he : 0 < K.emax)
    (hw : 1e-2 * K.emax ≤ |energy ev.v - Ef|) :
    inelFinish K r Ef n ev = some { ev with
      v := velocity Ef n
      p := ev.p * r * phononXs K (neutronRecoil (transfer ev.v (velocity Ef n)) / K.mass) ev.v (velocity Ef n) } := by
  have hl := (length_pos hv).ne'
  have hw0 : 0 < |energy ev.v - Ef| := by nlinarith
  have hw1 : energy ev.v - Ef ≠ 0 := abs_pos.1 hw0
  obtain ⟨b, hb, _, hb2⟩ := bose_recip hw1 hT
  unfold inelFinish phononXs
  rw [energy_velocity hE hn, velocity_length hn, ← length_eq]
  simp only [v2E_length, E2v_eq hE, Option.bind_eq_bind, Option.bind_some, hb, divD_ok hm, divD_ok hl]
  rw [if_neg (not_lt.2 hw), divD_ok hw0.ne']
  simp only [Option.bind_some]
  rw [show √(Ef / vsq2e) • n = velocity Ef n from rfl, transfer_eq, k2E_eq]
  congr 2
  rw [mul_div_assoc (neutronRecoil _ / _), mul_div_assoc]
  have e : ∀ R : ℝ, R / K.mass * (K.dos |energy ev.v - Ef| / ((energy ev.v - Ef) *
      (1 - Real.exp (-((energy ev.v - Ef) / kT K.T))))) = R / K.mass * K.dos |energy ev.v - Ef| *
      (b / |energy ev.v - Ef|) := by
    intro R; rw [hb2]; ring
  rw [e]
  ring

/-- the energies that `pickEf` picks -/
theorem pickEf_eq {emax Ei u : ℝ} : pickEf emax Ei u =
    (max 0 (Ei - emax) + u * (Ei + emax - max 0 (Ei - emax)), width emax Ei) := by
  unfold pickEf width
  split
  · next h => rw [max_eq_right (by linarith)]; congr 1 <;> ring
  · next h => rw [max_eq_left (by linarith)]; congr 1 <;> ring

theorem width_pos {emax Ei : ℝ} (he : 0 < emax) (hE : 0 ≤ Ei) : 0 < width emax Ei := by
  unfold width
  rcases max_cases 0 (Ei - emax) with ⟨h, _⟩ | ⟨h, _⟩ <;> rw [h] <;> linarith

theorem energy_pos {v : V3 ℝ} (hv : v ≠ 0) : 0 < energy v := by
  have := length_pos hv
  have h := length_mul_self v
  unfold energy
  rw [← h]
  have := vsq2e_pos
  positivity

/-- what the kernel does -/
theorem inelasticS_eq {K : Inel} {u1 u2 u3 : ℝ} {ev : Ev} (h0 : 0 ≤ u1) (h1 : u1 ≤ 1) :
    inelasticS K u1 u2 u3 ev = inelFinish K (width K.emax (energy ev.v))
      (max 0 (energy ev.v - K.emax) + u3 * (energy ev.v + K.emax - max 0 (energy ev.v - K.emax)))
      (chooseDirection u1 u2) ev := by
  unfold inelasticS
  rw [normalize_unit (chooseDirection_unit h0 h1 u2), v2E_length, pickEf_eq]
  rfl

/-- average over the sphere of expectations -/
theorem mean_sphere (F : V3 ℝ → ℝ) (c : ℝ) (f : ℝ → ℝ → ℝ)
    (h : ∀ u1 u2, 0 < u1 → u1 < 1 → f u1 u2 = c * F (chooseDirection u1 u2)) :
    mean (fun u1 => mean fun u2 => f u1 u2) = c * sphere F := by
  have hpi := Real.pi_pos.ne'
  unfold sphere
  rw [← mean_affine, ← mean_mul, ← mean_mul]
  apply mean_congr
  intro u1 h0 h1
  rw [← mean_affine, ← mean_mul, ← mean_mul, ← mean_mul]
  apply mean_congr
  intro u2 _ _
  rw [h u1 u2 h0 h1, chooseDirection_eq]
  field_simp
  ring

/-- expectation over the final energy -/
theorem mean_energy {K : Inel} {ev : Ev} (hT : 0 < K.T) (hm : K.mass ≠ 0)
    (hv : ev.v ≠ 0) (he : 0 < K.emax) {H : V3 ℝ → ℝ} (hH : Inelastic K ev.v H) {n : V3 ℝ} (hn : n.dot n = 1)
    {lo hi r : ℝ} (hlo : 0 ≤ lo) (hlt : lo ≤ hi) (hr : r = hi - lo) :
    mean (fun u => outWeight H (inelFinish K r (lo + u * (hi - lo)) n ev)) =
      ev.p * ∫ E in lo..hi, phononXs K (neutronRecoil (transfer ev.v (velocity E n)) / K.mass) ev.v (velocity E n)
        * H (velocity E n) := by
  rw [← mean_affine, ← mean_mul]
  apply mean_congr
  intro u h0 h1
  have hE : 0 ≤ lo + u * (hi - lo) := by nlinarith [mul_nonneg h0.le (sub_nonneg.2 hlt)]
  set E := lo + u * (hi - lo)
  by_cases hw : 1e-2 * K.emax ≤ |energy ev.v - E|
  · rw [inelFinish_eq hT hm hv hn hE he hw]
    simp only [outWeight]
    rw [hr]
    ring
  · have hz : H (velocity E n) = 0 := hH _ (by rw [energy_velocity hE hn]; linarith)
    rw [hz, mul_zero, mul_zero, mul_zero]
    unfold outWeight
    split
    · rfl
    · next ev' h =>
      have : ev'.v = velocity E n := by
        unfold inelFinish at h
        simp only [v2E_length, E2v_eq hE, Option.bind_eq_bind, Option.bind_some, Option.bind_eq_some_iff] at h
        obtain ⟨_, _, _, _, _, _, h⟩ := h
        rw [if_pos (lt_of_not_ge hw)] at h
        simp only [Option.some.injEq] at h
        rw [← h]; rfl
      rw [this, hz, mul_zero]

/-- there are no phonons outside the range of the density of states -/
theorem all_energies {K : Inel} {v : V3 ℝ} (H : V3 ℝ → ℝ) (R : V3 ℝ → ℝ) {n : V3 ℝ} (hn : n.dot n = 1)
    {lo hi : ℝ} (hlo : 0 ≤ lo) (hlt : lo ≤ hi)
    (h : ∀ E, 0 < E → E < lo ∨ hi < E → K.emax < |energy v - E|) :
    ∫ E in lo..hi, phononXs K (R (velocity E n)) v (velocity E n) * H (velocity E n) =
      ∫ E in Set.Ioi (0 : ℝ), phononXs K (R (velocity E n)) v (velocity E n) * H (velocity E n) := by
  rw [intervalIntegral.integral_of_le hlt]
  symm
  apply setIntegral_eq_of_subset_of_ae_sdiff_eq_zero measurableSet_Ioi.nullMeasurableSet
  · intro x hx; exact lt_of_le_of_lt hlo hx.1
  · have : ∀ᵐ x : ℝ, x ≠ lo := by
      have : ({lo} : Set ℝ)ᶜ ∈ ae (volume : Measure ℝ) := compl_mem_ae_iff.2 (by simp)
      exact this
    filter_upwards [this] with E hne hE
    have hE0 : 0 < E := hE.1
    have hcut := h E hE0 (by
      have := hE.2
      simp only [Set.mem_Ioc, not_and_or, not_lt, not_le] at this
      rcases this with h | h
      · exact .inl (lt_of_le_of_ne h hne)
      · exact .inr h)
    unfold phononXs
    rw [energy_velocity hE0.le hn]
    simp only [Inel.dos, if_pos (show _ < K.emin ∨ _ > K.emax from .inr hcut)]
    simp

/-- the elastic kernel with its axes -/
theorem elasticS_some {core u1 u2 : ℝ} {ev ev' : Ev} (h : elasticS core u1 u2 ev = some ev') :
    ∃ e1 e2, length ev.v • e1 = ev.v ∧ 0 < length ev.v ∧ e1.dot e1 = 1 ∧ e2.dot e2 = 1 ∧
      axes 1e-4 ev.v = some (e1, e2, V3.cross e1 e2) ∧
      (Clear 1e-4 ev.v → e1.dot e2 = 0) ∧ ev' = { ev with
        v := length ev.v • outDir e1 e2 (V3.cross e1 e2) (Real.cos (u1 * Real.pi)) (Real.sin (u1 * Real.pi))
          (u2 * (Real.pi * 2))
        p := ev.p * (Real.sin (u1 * Real.pi) * (Real.pi / 2) *
          Real.exp (-core * (2 * kOf ev.v * Real.sin (u1 * Real.pi / 2)) ^ 2)) } := by
  unfold elasticS at h
  simp only [Option.bind_eq_bind, Option.bind_eq_some_iff] at h
  obtain ⟨⟨e1, e2, e3⟩, hax, h⟩ := h
  obtain ⟨m1, m2, m3, m4, m5, m6, rfl⟩ := axes_some (by norm_num) hax
  refine ⟨e1, e2, m1, m2, m3, m4, hax, m6, ?_⟩
  simp only [Option.some.injEq, random_eq, sub_zero, zero_add] at h
  rw [← h]
  congr 1
  · unfold outDir
    ext <;> simp only [V3.smul_x, V3.smul_y, V3.smul_z, V3.add_x, V3.add_y, V3.add_z] <;> ring
  · rw [← kOf_eq]
    congr 3
    ring

theorem elasticS_ok {core u1 u2 : ℝ} {ev : Ev} (hv : ev.v ≠ 0) : ∃ ev', elasticS core u1 u2 ev = some ev' := by
  obtain ⟨⟨e1, e2, e3⟩, h⟩ := axes_ok (eps := 1e-4) (by norm_num) hv
  unfold elasticS
  rw [h]
  exact ⟨_, rfl⟩

/-- the integral over the angle -/
theorem elastic_integral {a : ℝ} (ha : a ≠ 0) :
    ∫ th in (0 : ℝ)..Real.pi, Real.sin th * Real.exp (-(a * Real.sin (th / 2) ^ 2)) =
      2 * (1 - Real.exp (-a)) / a := by
  have hd : ∀ x ∈ Set.uIcc 0 Real.pi, HasDerivAt (fun t => -2 / a * Real.exp (-(a * ((1 - Real.cos t) / 2))))
      (Real.sin x * Real.exp (-(a * Real.sin (x / 2) ^ 2))) x := by
    intro x _
    have h1 : HasDerivAt (fun t => -(a * ((1 - Real.cos t) / 2))) (-(a * (Real.sin x / 2))) x := by
      have := (((Real.hasDerivAt_cos x).const_sub 1).div_const 2).const_mul a
      have h5 := this.fun_neg
      rw [neg_neg] at h5
      exact h5
    have h2 := h1.exp.const_mul (-2 / a)
    have e : Real.sin (x / 2) ^ 2 = (1 - Real.cos x) / 2 := by
      have := Real.cos_two_mul (x / 2)
      have h3 := Real.sin_sq_add_cos_sq (x / 2)
      rw [show 2 * (x / 2) = x by ring] at this
      linarith
    have e2 : Real.sin x * Real.exp (-(a * Real.sin (x / 2) ^ 2)) =
        -2 / a * (Real.exp (-(a * ((1 - Real.cos x) / 2))) * -(a * (Real.sin x / 2))) := by
      rw [e]
      field_simp
    rw [e2]
    exact h2
  rw [intervalIntegral.integral_eq_sub_of_hasDerivAt hd
    (Continuous.intervalIntegrable (by fun_prop) _ _)]
  rw [Real.cos_pi, Real.cos_zero]
  norm_num
  field_simp
  ring

/-- a kernel with a constant density of states -/
noncomputable def K0 : Inel := ⟨0, 1, 0, fun _ => 1, fun _ => 0, 11.605, 1⟩

theorem K0_T : kT K0.T = 1 := by unfold kT kelvin2meV K0; norm_num

/-- a neutron that goes on along the z axis -/
theorem forward {K : Inel} {Ef : ℝ} {ev : Ev} (he : 0 < K.emax) (hE : energy ev.v ≤ K.emax)
    (hv : ev.v ≠ 0) :
    inelasticS K 1 0 (Ef / (energy ev.v + K.emax)) ev =
      inelFinish K (energy ev.v + K.emax) Ef ⟨0, 0, 1⟩ ev := by
  have hp := energy_pos hv
  have hd : chooseDirection 1 0 = ⟨0, 0, 1⟩ := by unfold chooseDirection random; norm_num
  rw [inelasticS_eq zero_le_one le_rfl, hd]
  unfold width
  rw [max_eq_left (by linarith), sub_zero, zero_add, div_mul_cancel₀ _ (by linarith)]

/-- velocity after the scattering -/
theorem inelFinish_some {K : Inel} {r Ef : ℝ} {n : V3 ℝ} {ev ev' : Ev} (hE : 0 ≤ Ef)
    (h : inelFinish K r Ef n ev = some ev') : ev'.v = velocity Ef n ∧ SamePlace ev ev' := by
  unfold inelFinish at h
  simp only [v2E_length, E2v_eq hE, Option.bind_eq_bind, Option.bind_some, Option.bind_eq_some_iff] at h
  obtain ⟨_, _, _, _, _, _, h⟩ := h
  split at h
  · simp only [Option.some.injEq] at h
    rw [← h]; exact ⟨rfl, rfl, rfl, rfl, rfl⟩
  · simp only [Option.bind_eq_some_iff, Option.some.injEq] at h
    obtain ⟨_, _, h⟩ := h
    rw [← h]; exact ⟨rfl, rfl, rfl, rfl, rfl⟩

/-- weight and velocity after a scattering that is not almost elastic -/
theorem inelasticS_weight {K : Inel} {u1 u2 u3 : ℝ} {ev ev' : Ev} (hT : 0 < K.T) (hm : K.mass ≠ 0)
    (he : 0 < K.emax) (hv : ev.v ≠ 0) (h0 : 0 ≤ u1) (h1 : u1 ≤ 1) (g0 : 0 ≤ u3)
    (h : inelasticS K u1 u2 u3 ev = some ev') (hw : 1e-2 * K.emax ≤ |energy ev.v - energy ev'.v|) :
    ev'.p = ev.p * width K.emax (energy ev.v) *
      phononXs K (neutronRecoil (transfer ev.v ev'.v) / K.mass) ev.v ev'.v ∧
    ev'.v = velocity (energy ev'.v) (chooseDirection u1 u2) := by
  rw [inelasticS_eq h0 h1] at h
  have hn := chooseDirection_unit h0 h1 u2
  have hwd := width_pos he (energy_pos hv).le
  have hE : 0 ≤ max 0 (energy ev.v - K.emax) + u3 * (energy ev.v + K.emax - max 0 (energy ev.v - K.emax)) := by
    have : 0 ≤ u3 * (energy ev.v + K.emax - max 0 (energy ev.v - K.emax)) := mul_nonneg g0 hwd.le
    have := le_max_left 0 (energy ev.v - K.emax)
    linarith
  generalize max 0 (energy ev.v - K.emax) + u3 * (energy ev.v + K.emax - max 0 (energy ev.v - K.emax)) = Ef at *
  obtain ⟨hvel, _⟩ := inelFinish_some hE h
  have hEd : energy ev'.v = Ef := by rw [hvel, energy_velocity hE hn]
  rw [inelFinish_eq hT hm hv hn hE he (by rw [← hEd]; exact hw)] at h
  simp only [Option.some.injEq] at h
  refine ⟨?_, by rw [hEd]; exact hvel⟩
  have hp : ev'.p = ev.p * width K.emax (energy ev.v) *
      phononXs K (neutronRecoil (transfer ev.v (velocity Ef (chooseDirection u1 u2))) / K.mass) ev.v
        (velocity Ef (chooseDirection u1 u2)) := by rw [← h]
  rw [hp, hvel]

/-- a neutron at 5 µeV that gains energy -/
theorem K0_gain : ∃ ev', inelasticS K0 1 0 (1 / 2 / (energy evz.v + K0.emax)) evz = some ev' ∧ 0 < ev'.p ∧
    1e-2 * K0.emax ≤ |energy evz.v - energy ev'.v| ∧ energy ev'.v = 1 / 2 := by
  have hz : V3.dot (⟨0, 0, 1⟩ : V3 ℝ) ⟨0, 0, 1⟩ = 1 := by norm_num [V3.dot]
  have hs : vsq2e < 0.1 := by unfold vsq2e; norm_num
  have hp := vsq2e_pos
  have hb : 1e-2 * K0.emax ≤ |energy evz.v - 1 / 2| := by
    rw [evz_energy, abs_of_neg (by linarith)]; norm_num [K0]; linarith
  have he : energy (velocity (1 / 2) ⟨0, 0, 1⟩) = 1 / 2 := energy_velocity (by norm_num) hz
  refine ⟨{ evz with
      v := velocity (1 / 2) ⟨0, 0, 1⟩
      p := evz.p * (energy evz.v + K0.emax) * phononXs K0 (neutronRecoil (transfer evz.v (velocity (1 / 2) ⟨0, 0, 1⟩)) / K0.mass)
        evz.v (velocity (1 / 2) ⟨0, 0, 1⟩) }, ?_, ?_, ?_, he⟩
  · rw [forward (by norm_num [K0]) (by rw [evz_energy]; norm_num [K0]; linarith) evz_ne]
    exact inelFinish_eq (by norm_num [K0]) (by norm_num [K0]) evz_ne hz (by norm_num) (by norm_num [K0]) hb
  · have h1 : 0 < phononXs K0 (neutronRecoil (transfer evz.v (velocity (1 / 2) ⟨0, 0, 1⟩)) / K0.mass)
        evz.v (velocity (1 / 2) ⟨0, 0, 1⟩) := by
      unfold phononXs
      rw [he, velocity_length hz, ← length_eq, evz_length, K0_T, evz_energy]
      have ht : 0 < transfer evz.v (velocity (1 / 2) ⟨0, 0, 1⟩) := by
        unfold transfer
        apply Real.sqrt_pos.2
        have hq : 1 < √(1 / 2 / vsq2e) := by
          rw [Real.lt_sqrt zero_le_one, lt_div_iff₀ hp]; linarith
        rw [show (wave evz.v - wave (velocity (1 / 2) ⟨0, 0, 1⟩)).dot (wave evz.v - wave (velocity (1 / 2) ⟨0, 0, 1⟩)) =
          v2k ^ 2 * (1 - √(1 / 2 / vsq2e)) ^ 2 by
          simp only [wave, velocity, evz, V3.dot, V3.sub_x, V3.sub_y, V3.sub_z, V3.smul_x, V3.smul_y, V3.smul_z]; ring]
        have h2 : 1 - √(1 / 2 / vsq2e) ≠ 0 := by linarith
        have := v2k_pos
        positivity
      have hR : 0 < neutronRecoil (transfer evz.v (velocity (1 / 2) ⟨0, 0, 1⟩)) := by
        unfold neutronRecoil
        have := k2v_pos
        positivity
      have hd : K0.dos |vsq2e - 1 / 2| = 1 := by
        unfold Inel.dos
        rw [if_neg]
        · rfl
        · rw [abs_of_neg (by linarith)]
          norm_num [K0]
          constructor <;> linarith
      simp only [hd]
      have hD : 0 < (vsq2e - 1 / 2) * (1 - Real.exp (-((vsq2e - 1 / 2) / 1))) := by
        apply mul_pos_of_neg_of_neg (by linarith)
        have : 1 < Real.exp (-((vsq2e - 1 / 2) / 1)) := by rw [Real.one_lt_exp_iff]; linarith
        linarith
      have hq : 0 < √(1 / 2 / vsq2e) := Real.sqrt_pos.2 (by positivity)
      have hm : (0 : ℝ) < K0.mass := by norm_num [K0]
      positivity
    have h2 := energy_pos evz_ne
    have h3 : (0 : ℝ) < K0.emax := by norm_num [K0]
    have h4 : (0 : ℝ) < evz.p := by norm_num [evz]
    positivity
  · rw [he]; exact hb

end Verif.Phonon
