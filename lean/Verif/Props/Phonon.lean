import Verif.Lemmas.Phonon
/-!
Property theorems about incoherent phonon scattering: C110, C111, C112, C113, C114, C115.
-/

namespace Verif.Phonon
open Solid Flight Homog Kinem Dos MeasureTheory

/-! ### C110 elastic kernel -/

/-- **C110** The elastic kernel keeps energy, place and time, and turns the neutron by the angle that goes with
its weight.  Missing: directions of flight close to the z axis, see `C110_layer_false`. -/
theorem C110_energy_partial {core u1 u2 : ℝ} {ev ev' : Ev} (hc : Clear 1e-4 ev.v)
    (h : elasticS core u1 u2 ev = some ev') :
    SamePlace ev ev' ∧ Transfer ev ev' (2 * kOf ev.v * Real.sin (u1 * Real.pi / 2)) 0 := by
  obtain ⟨e1, e2, m1, m2, m3, m4, _, m6, rfl⟩ := elasticS_some h
  obtain ⟨o1, o2⟩ := outDir_dot m3 m4 (Real.cos (u1 * Real.pi)) (Real.sin (u1 * Real.pi)) (u2 * (Real.pi * 2))
  rw [m6 hc] at o1 o2
  have hcs := Real.cos_sq_add_sin_sq (u1 * Real.pi)
  refine ⟨⟨rfl, rfl, rfl, rfl⟩, ?_, ?_⟩
  · rw [energy_smul, o1, length_mul_self]
    unfold energy
    linear_combination (-vsq2e * ev.v.dot ev.v) * hcs
  · rw [wave_diff ev.v e1 _ m1 m3, o1, o2, kOf_eq]
    have h2 := Real.cos_two_mul (u1 * Real.pi / 2)
    have h3 := Real.sin_sq_add_cos_sq (u1 * Real.pi / 2)
    rw [show 2 * (u1 * Real.pi / 2) = u1 * Real.pi by ring] at h2
    linear_combination kOf ev.v ^ 2 * hcs - 2 * kOf ev.v ^ 2 * h2 - 4 * kOf ev.v ^ 2 * h3

/-- the hypotheses of `C110_energy_partial` can be met -/
example : Clear 1e-4 evz.v ∧ ∃ ev', elasticS 0.01 (1 / 2) 0 evz = some ev' ∧ 0 < ev'.p := by
  refine ⟨evz_clear _, ?_⟩
  obtain ⟨ev', h⟩ := elasticS_ok (core := 0.01) (u1 := 1 / 2) (u2 := 0) evz_ne
  obtain ⟨_, _, _, _, _, _, _, _, h2⟩ := elasticS_some h
  refine ⟨ev', h, ?_⟩
  rw [h2]
  have : Real.sin (1 / 2 * Real.pi) = 1 := by rw [show 1 / 2 * Real.pi = Real.pi / 2 by ring, Real.sin_pi_div_two]
  simp only [this]
  have h3 : (0 : ℝ) < evz.p := by norm_num [evz]
  positivity

/-- **C110** Close to the z axis the axes are not orthogonal, and the elastic kernel does not keep the energy. -/
theorem C110_layer_false :
    ¬ ∀ (core u1 u2 : ℝ) (ev ev' : Ev), 0 ≤ u1 → u1 ≤ 1 → 0 ≤ u2 → u2 ≤ 1 → ev.v ≠ 0 →
      elasticS core u1 u2 ev = some ev' → energy ev'.v = energy ev.v := by
  intro H
  set v : V3 ℝ := ⟨2e-5, 0, 1 - 1e-10⟩ with hv
  have hl : length v = 1 + 1e-10 := by
    rw [length_eq, show v.dot v = (1 + 1e-10) ^ 2 by rw [hv]; norm_num [V3.dot],
      Real.sqrt_sq (by norm_num)]
  have hne : v ≠ 0 := fun h => by
    have := congrArg V3.x h
    norm_num [hv] at this
  obtain ⟨ev', h⟩ := elasticS_ok (core := 0) (u1 := 1 / 4) (u2 := 0) (ev := ⟨0, v, 0, 0, 0, 1⟩) hne
  have hE := H 0 (1 / 4) 0 ⟨0, v, 0, 0, 0, 1⟩ ev' (by norm_num) (by norm_num) le_rfl zero_le_one hne h
  obtain ⟨e1, e2, m1, m2, m3, m4, hax, m6, rfl⟩ := elasticS_some h
  simp only at hE m1 m2 hax
  rw [hl] at *
  have hx : e1.x = 2e-5 / (1 + 1e-10) := by
    have := congrArg V3.x m1
    rw [V3.smul_x] at this
    rw [eq_div_iff (by norm_num), mul_comm, this]
  have hy : e1.y = 0 := by
    have := congrArg V3.y m1
    rw [V3.smul_y] at this
    have h0 : (1 + 1e-10 : ℝ) * e1.y = 0 := this
    exact (mul_eq_zero.1 h0).resolve_left (by norm_num)
  have he2 : e2 = ⟨1, 0, 0⟩ := by
    unfold axes at hax
    rw [Option.bind_eq_bind, Option.bind_eq_some_iff] at hax
    obtain ⟨a, h1, hax⟩ := hax
    split at hax
    · next hcond =>
      exfalso
      simp only [Option.bind_eq_some_iff] at hax
      obtain ⟨b, _, h3⟩ := hax
      simp only [Option.some.injEq, Prod.mk.injEq] at h3
      obtain ⟨rfl, _, _⟩ := h3
      rw [hx, hy] at hcond
      norm_num [abs_of_pos] at hcond
    · simp only [Option.bind_some, Option.some.injEq, Prod.mk.injEq] at hax
      exact hax.2.1.symm
  obtain ⟨o1, o2⟩ := outDir_dot m3 m4 (Real.cos (1 / 4 * Real.pi)) (Real.sin (1 / 4 * Real.pi)) (0 * (Real.pi * 2))
  rw [energy_smul, o1] at hE
  have hg : e1.dot e2 = 2e-5 / (1 + 1e-10) := by rw [he2]; simp [V3.dot, hx]
  rw [hg] at hE
  have hvv : energy v = vsq2e * ((1 + 1e-10) * (1 + 1e-10)) := by
    unfold energy; rw [show v.dot v = (1 + 1e-10) ^ 2 by rw [hv]; norm_num [V3.dot]]; ring
  have hc : Real.cos (1 / 4 * Real.pi) = √2 / 2 := by rw [show 1 / 4 * Real.pi = Real.pi / 4 by ring, Real.cos_pi_div_four]
  have hs : Real.sin (1 / 4 * Real.pi) = √2 / 2 := by rw [show 1 / 4 * Real.pi = Real.pi / 4 by ring, Real.sin_pi_div_four]
  have h2 : √2 * √2 = 2 := Real.mul_self_sqrt (by norm_num)
  rw [hvv, hc, hs] at hE
  have hk := vsq2e_pos
  have e : √2 / 2 * (√2 / 2) = 1 / 2 := by linarith
  rw [e] at hE
  norm_num at hE
  linarith

/-- **C110** The expected weight is the Debye-Waller factor averaged over all directions:
`(1 - exp(-4 d k^2)) / (4 d k^2)`. -/
theorem C110_total {core : ℝ} (hd : core ≠ 0) {ev : Ev} (hv : ev.v ≠ 0) :
    mean2 (fun u1 u2 => prob (elasticS core u1 u2 ev)) =
      ev.p * ((1 - Real.exp (-(4 * core * kOf ev.v ^ 2))) / (4 * core * kOf ev.v ^ 2)) := by
  have hk : kOf ev.v ≠ 0 := by
    rw [← kOf_eq]; exact mul_ne_zero v2k_pos.ne' (length_pos hv).ne'
  have ha : 4 * core * kOf ev.v ^ 2 ≠ 0 := by positivity
  have hi := elastic_integral ha
  rw [← mean_affine] at hi
  have hf : ∀ u1, mean (fun u2 => prob (elasticS core u1 u2 ev)) = ev.p / 2 * ((Real.pi - 0) *
      (Real.sin (0 + u1 * (Real.pi - 0)) *
        Real.exp (-(4 * core * kOf ev.v ^ 2 * Real.sin ((0 + u1 * (Real.pi - 0)) / 2) ^ 2)))) := by
    intro u1
    rw [← mean_const (ev.p / 2 * _)]
    congr 1
    funext u2
    obtain ⟨ev', h⟩ := elasticS_ok (core := core) (u1 := u1) (u2 := u2) hv
    rw [h]
    obtain ⟨e1, e2, _, _, _, _, _, _, rfl⟩ := elasticS_some h
    simp only [prob, sub_zero, zero_add]
    rw [show -core * (2 * kOf ev.v * Real.sin (u1 * Real.pi / 2)) ^ 2 =
      -(4 * core * kOf ev.v ^ 2 * Real.sin (u1 * Real.pi / 2) ^ 2) by ring]
    ring
  unfold mean2
  simp only [hf]
  rw [mean_mul, hi]
  ring

/-- the hypotheses of `C110_total` can be met -/
example : mean2 (fun u1 u2 => prob (elasticS 0.01 u1 u2 evz)) =
    1 * ((1 - Real.exp (-(4 * 0.01 * v2k ^ 2))) / (4 * 0.01 * v2k ^ 2)) := by
  have := C110_total (core := 0.01) (by norm_num) evz_ne
  rwa [evz_k] at this

/-- **C110** The weight is distributed over the scattering angle like the Debye-Waller factor times the solid
angle.  Missing: directions of flight close to the z axis. -/
theorem C110_distribution_partial {core : ℝ} {ev : Ev} (hv : ev.v ≠ 0) (hc : Clear 1e-4 ev.v) (G : ℝ → ℝ → ℝ) :
    mean2 (fun u1 u2 => weigh G ev (elasticS core u1 u2 ev)) =
      ev.p * (1 / 2 * ∫ th in (0 : ℝ)..Real.pi, Real.sin th *
        Real.exp (-core * (2 * kOf ev.v * Real.sin (th / 2)) ^ 2) * G 0 (2 * kOf ev.v * Real.sin (th / 2))) := by
  rw [← mean_affine, ← mean_mul, ← mean_mul]
  unfold mean2
  apply mean_congr
  intro u1 h0 h1
  rw [← mean_const (ev.p * _)]
  apply mean_congr
  intro u2 _ _
  obtain ⟨ev', h⟩ := elasticS_ok (core := core) (u1 := u1) (u2 := u2) hv
  obtain ⟨_, t1, t2⟩ := C110_energy_partial hc h
  simp only [h, weigh]
  have hk : 0 ≤ kOf ev.v := by
    rw [← kOf_eq]; exact mul_nonneg v2k_pos.le (Kinem.length_nonneg _)
  have hs : 0 ≤ Real.sin (u1 * Real.pi / 2) := by
    apply Real.sin_nonneg_of_nonneg_of_le_pi
    · have := Real.pi_pos; positivity
    · nlinarith [Real.pi_pos]
  rw [t1, t2, Real.sqrt_sq (by positivity)]
  obtain ⟨e1, e2, _, _, _, _, _, _, rfl⟩ := elasticS_some h
  simp only [sub_zero, zero_add]
  ring

/-! ### C111 inelastic kernel: expected weight -/

/-- **C111** The final energy differs from the first by at most the largest phonon energy; place and time stay. -/
theorem C111_range {K : Inel} {u1 u2 u3 : ℝ} {ev ev' : Ev} (he : 0 ≤ K.emax) (h0 : 0 ≤ u1) (h1 : u1 ≤ 1)
    (g0 : 0 ≤ u3) (g1 : u3 ≤ 1) (h : inelasticS K u1 u2 u3 ev = some ev') :
    SamePlace ev ev' ∧ |energy ev.v - energy ev'.v| ≤ K.emax := by
  rw [inelasticS_eq h0 h1] at h
  have hE0 : 0 ≤ energy ev.v := mul_nonneg vsq2e_pos.le (dot_self_nonneg _)
  have hE : 0 ≤ max 0 (energy ev.v - K.emax) + u3 * (energy ev.v + K.emax - max 0 (energy ev.v - K.emax)) ∧
      |energy ev.v - (max 0 (energy ev.v - K.emax) + u3 * (energy ev.v + K.emax - max 0 (energy ev.v - K.emax)))|
        ≤ K.emax := by
    rw [abs_le]
    rcases max_cases 0 (energy ev.v - K.emax) with ⟨hm, hm2⟩ | ⟨hm, hm2⟩ <;> rw [hm]
    · refine ⟨by nlinarith, by nlinarith, by nlinarith⟩
    · refine ⟨by nlinarith, by nlinarith, by nlinarith⟩
  generalize max 0 (energy ev.v - K.emax) + u3 * (energy ev.v + K.emax - max 0 (energy ev.v - K.emax)) = Ef at *
  have hv := inelFinish_some hE.1 h
  refine ⟨hv.2, ?_⟩
  rw [hv.1, energy_velocity hE.1 (chooseDirection_unit h0 h1 u2)]
  exact hE.2

/-- **C111** The expected value of an observable is its integral with the one-phonon cross section over all
directions and all final energies, for observables that do not see energy transfers below one percent of the
largest phonon energy.  Missing: those energy transfers, see `C112_small_false`; and the recoil energy is that of a
neutron instead of an atom of mass 1, see `C113_mass_false`. -/
theorem C111_expected_partial {K : Inel} {ev : Ev} (hT : 0 < K.T) (hm : K.mass ≠ 0) (hv : ev.v ≠ 0)
    (he : 0 < K.emax) {H : V3 ℝ → ℝ} (hH : Inelastic K ev.v H) :
    mean3 (fun u1 u2 u3 => outWeight H (inelasticS K u1 u2 u3 ev)) =
      ev.p * sphere fun n => ∫ E in Set.Ioi (0 : ℝ),
        phononXs K (neutronRecoil (transfer ev.v (velocity E n)) / K.mass) ev.v (velocity E n) *
          H (velocity E n) := by
  have hE := energy_pos hv
  unfold mean3
  apply mean_sphere
  intro u1 u2 h0 h1
  have hn := chooseDirection_unit h0.le h1.le u2
  simp only [inelasticS_eq h0.le h1.le]
  have hlt : max 0 (energy ev.v - K.emax) ≤ energy ev.v + K.emax := by
    have := width_pos he hE.le
    unfold width at this; linarith
  rw [mean_energy hT hm hv he hH hn (le_max_left _ _) hlt (show width K.emax (energy ev.v) = _ from rfl)]
  rw [all_energies H (fun v' => neutronRecoil (transfer ev.v v') / K.mass) hn (le_max_left _ _) hlt]
  intro E hE0 hor
  rcases hor with h | h
  · have : E < energy ev.v - K.emax := by
      rcases lt_max_iff.1 h with h | h
      · linarith
      · exact h
    rw [abs_of_pos (by linarith)]; linarith
  · rw [abs_of_neg (by linarith)]; linarith

/-- the hypotheses of `C111_expected_partial` can be met -/
example : ∃ H : V3 ℝ → ℝ, Inelastic K0 evz.v H ∧ (∃ v, H v ≠ 0) ∧ 0 < K0.T ∧ K0.mass ≠ 0 ∧ 0 < K0.emax := by
  classical
  refine ⟨fun v => if |energy evz.v - energy v| < 1e-2 * K0.emax then 0 else 1, fun v h => if_pos h,
    ⟨velocity 1 ⟨0, 0, 1⟩, ?_⟩, by norm_num [K0], by norm_num [K0], by norm_num [K0]⟩
  simp only [ne_eq]
  rw [energy_velocity zero_le_one (by norm_num [V3.dot]), evz_energy, if_neg]
  · exact one_ne_zero
  · have : vsq2e < 0.1 := by unfold vsq2e; norm_num
    rw [abs_of_neg (by linarith)]
    norm_num [K0]
    linarith

/-! ### C112 detailed balance -/

/-- **C112** Detailed balance: per unit of the sampled energy range, scattering from `a` to `b` and from `b` to `a`
are in balance for neutrons in thermal equilibrium.  Missing: energy transfers below one percent of the
largest phonon energy, see `C112_small_false`. -/
theorem C112_balance_partial {K : Inel} {u1 u2 u3 w1 w2 w3 : ℝ} {a b a' b' : Ev} (hT : 0 < K.T) (hm : K.mass ≠ 0)
    (he : 0 < K.emax) (hva : a.v ≠ 0) (hvb : b.v ≠ 0)
    (hu : 0 ≤ u1 ∧ u1 ≤ 1 ∧ 0 ≤ u3 ∧ u3 ≤ 1) (hw : 0 ≤ w1 ∧ w1 ≤ 1 ∧ 0 ≤ w3 ∧ w3 ≤ 1)
    (h : inelasticS K u1 u2 u3 a = some b') (h' : inelasticS K w1 w2 w3 b = some a')
    (hb : b'.v = b.v) (ha : a'.v = a.v) (pa : a.p = 1) (pb : b.p = 1)
    (hs : 1e-2 * K.emax ≤ |energy a.v - energy b.v|) :
    b'.p / width K.emax (energy a.v) * (energy a.v * Real.exp (-(energy a.v / kT K.T))) =
      a'.p / width K.emax (energy b.v) * (energy b.v * Real.exp (-(energy b.v / kT K.T))) := by
  have key : ∀ {x1 x2 x3 : ℝ} {c d d' : Ev}, c.v ≠ 0 → c.p = 1 → 0 ≤ x1 ∧ x1 ≤ 1 ∧ 0 ≤ x3 ∧ x3 ≤ 1 →
      inelasticS K x1 x2 x3 c = some d' → d'.v = d.v → 1e-2 * K.emax ≤ |energy c.v - energy d.v| →
      d'.p / width K.emax (energy c.v) =
        phononXs K (neutronRecoil (transfer c.v d.v) / K.mass) c.v d.v := by
    intro x1 x2 x3 c d d' hvc hpc hx hc hd hcd
    have hwd := width_pos he (energy_pos hvc).le
    obtain ⟨hp, _⟩ := inelasticS_weight hT hm he hvc hx.1 hx.2.1 hx.2.2.1 hc (by rw [hd]; exact hcd)
    rw [hp, hpc, hd]
    field_simp
  rw [key hva pa hu h hb hs, key hvb pb hw h' ha (by rwa [abs_sub_comm])]
  have hk : 0 < kT K.T := mul_pos hT kelvin2meV_pos
  have hla := length_pos hva
  have hlb := length_pos hvb
  have hea : energy a.v = vsq2e * (length a.v * length a.v) := by unfold energy; rw [length_mul_self]
  have heb : energy b.v = vsq2e * (length b.v * length b.v) := by unfold energy; rw [length_mul_self]
  have hw0 : energy a.v - energy b.v ≠ 0 := by
    intro h0; rw [h0, abs_zero] at hs; nlinarith
  simp only [phononXs]
  rw [transfer_comm b.v a.v, abs_sub_comm (energy b.v) (energy a.v), ← length_eq, ← length_eq]
  generalize hR : neutronRecoil (transfer a.v b.v) / K.mass * K.dos |energy a.v - energy b.v| = R
  generalize Real.exp (-K.DW (transfer a.v b.v)) = W
  have e1 : 1 - Real.exp (-((energy a.v - energy b.v) / kT K.T)) =
      1 - Real.exp (energy b.v / kT K.T) * Real.exp (-(energy a.v / kT K.T)) := by
    rw [← Real.exp_add]; congr 2; ring
  have e2 : 1 - Real.exp (-((energy b.v - energy a.v) / kT K.T)) =
      1 - Real.exp (-(energy b.v / kT K.T)) * Real.exp (energy a.v / kT K.T) := by
    rw [← Real.exp_add]; congr 2; ring
  have hne : Real.exp (energy b.v / kT K.T) ≠ Real.exp (energy a.v / kT K.T) := by
    intro h
    have := Real.exp_injective h
    rw [div_left_inj' hk.ne'] at this
    exact hw0 (by rw [this, sub_self])
  rw [e1, e2, Real.exp_neg, Real.exp_neg]
  have pA := Real.exp_pos (energy a.v / kT K.T)
  have pB := Real.exp_pos (energy b.v / kT K.T)
  generalize Real.exp (energy a.v / kT K.T) = A at *
  generalize Real.exp (energy b.v / kT K.T) = B at *
  have d1 : (energy a.v - energy b.v) * (1 - B * A⁻¹) = (energy a.v - energy b.v) * (A - B) / A := by
    field_simp
  have d2 : (energy b.v - energy a.v) * (1 - B⁻¹ * A) = (energy a.v - energy b.v) * (A - B) / B := by
    field_simp; ring
  have hAB : (energy a.v - energy b.v) * (A - B) ≠ 0 := mul_ne_zero hw0 (sub_ne_zero.2 (Ne.symm hne))
  rw [d1, d2]
  generalize (energy a.v - energy b.v) * (A - B) = D at *
  rw [hea, heb]
  field_simp

/-- the hypotheses of `C112_balance_partial` can be met -/
example : ∃ a' b', inelasticS K0 1 0 (1 / 2 / (energy evz.v + K0.emax)) evz = some b' ∧
    inelasticS K0 1 0 (vsq2e / (energy (velocity (1 / 2) ⟨0, 0, 1⟩) + K0.emax))
      { evz with v := velocity (1 / 2) ⟨0, 0, 1⟩ } = some a' ∧
    b'.v = velocity (1 / 2) ⟨0, 0, 1⟩ ∧ a'.v = evz.v ∧ 1e-2 * K0.emax ≤ |energy evz.v - energy b'.v| := by
  have hz : V3.dot (⟨0, 0, 1⟩ : V3 ℝ) ⟨0, 0, 1⟩ = 1 := by norm_num [V3.dot]
  have hs : vsq2e < 0.1 := by unfold vsq2e; norm_num
  have hp := vsq2e_pos
  have hv2 : velocity (1 / 2) ⟨0, 0, 1⟩ ≠ 0 := by
    intro h
    have := energy_velocity (E := 1 / 2) (by norm_num) hz
    rw [h] at this
    norm_num [energy, V3.dot] at this
  have hb : 1e-2 * K0.emax ≤ |energy evz.v - 1 / 2| := by
    rw [evz_energy, abs_of_neg (by linarith)]; norm_num [K0]; linarith
  have hb2 : 1e-2 * K0.emax ≤ |energy (velocity (1 / 2) ⟨0, 0, 1⟩) - vsq2e| := by
    rw [energy_velocity (by norm_num) hz, abs_of_pos (by linarith)]; norm_num [K0]; linarith
  have r1 := inelFinish_eq (K := K0) (r := energy evz.v + K0.emax) (ev := evz) (by norm_num [K0]) (by norm_num [K0])
    evz_ne hz (by norm_num) (by norm_num [K0]) hb
  have r2 := inelFinish_eq (K := K0) (r := energy (velocity (1 / 2) ⟨0, 0, 1⟩) + K0.emax)
    (ev := { evz with v := velocity (1 / 2) ⟨0, 0, 1⟩ }) (by norm_num [K0]) (by norm_num [K0])
    hv2 hz hp.le (by norm_num [K0]) hb2
  rw [← forward (by norm_num [K0]) (by rw [evz_energy]; norm_num [K0]; linarith) evz_ne] at r1
  rw [← forward (ev := { evz with v := velocity (1 / 2) ⟨0, 0, 1⟩ }) (by norm_num [K0])
      (by rw [energy_velocity (by norm_num) hz]; norm_num [K0]) hv2] at r2
  refine ⟨_, _, r1, r2, rfl, ?_, ?_⟩
  · simp only [velocity, div_self hp.ne', Real.sqrt_one, evz]
    ext <;> simp
  · rw [energy_velocity (by norm_num) hz]; exact hb

/-- **C112** For small energy transfers there is no detailed balance: gain and loss have the same factor. -/
theorem C112_small_false :
    ¬ ∀ (K : Inel) (u1 u2 u3 w1 w2 w3 : ℝ) (a b a' b' : Ev), 0 < K.T → K.mass ≠ 0 → 0 < K.emax → a.v ≠ 0 → b.v ≠ 0 →
      (0 ≤ u1 ∧ u1 ≤ 1 ∧ 0 ≤ u3 ∧ u3 ≤ 1) → (0 ≤ w1 ∧ w1 ≤ 1 ∧ 0 ≤ w3 ∧ w3 ≤ 1) →
      inelasticS K u1 u2 u3 a = some b' → inelasticS K w1 w2 w3 b = some a' →
      b'.v = b.v → a'.v = a.v → a.p = 1 → b.p = 1 →
      b'.p / width K.emax (energy a.v) * (energy a.v * Real.exp (-(energy a.v / kT K.T))) =
        a'.p / width K.emax (energy b.v) * (energy b.v * Real.exp (-(energy b.v / kT K.T))) := by
  intro H
  have hp := vsq2e_pos
  have hs : vsq2e < 0.001 := by unfold vsq2e; norm_num
  set K : Inel := { K0 with sod := 1 } with hK
  set b : Ev := { evz with v := ⟨0, 0, 2⟩ } with hb
  have hT : kT K.T = 1 := K0_T
  have hbe : energy b.v = 4 * vsq2e := by norm_num [energy, hb, V3.dot]; ring
  have hbn : b.v ≠ 0 := fun h => by simpa [hb] using congrArg V3.z h
  have hbl : length b.v = 2 := by
    rw [length_eq, show b.v.dot b.v = 2 ^ 2 by norm_num [hb, V3.dot], Real.sqrt_sq (by norm_num)]
  have hem : K.emax = 1 := rfl
  have q1 : v2E 1 = vsq2e := by unfold v2E; ring
  have q2 : v2E 2 = 4 * vsq2e := by unfold v2E; ring
  have v4 : E2v (4 * vsq2e) = some 2 := by
    rw [E2v_eq (by linarith), mul_div_assoc, div_self hp.ne', mul_one, show (4 : ℝ) = 2 ^ 2 by norm_num,
      Real.sqrt_sq (by norm_num)]
  have v1 : E2v vsq2e = some 1 := by rw [E2v_eq hp.le, div_self hp.ne', Real.sqrt_one]
  obtain ⟨b1, hb1, _⟩ := bose_recip (w := vsq2e - 4 * vsq2e) (T := K.T) (by linarith) (by norm_num [hK, K0])
  obtain ⟨b2, hb2, _⟩ := bose_recip (w := 4 * vsq2e - vsq2e) (T := K.T) (by linarith) (by norm_num [hK, K0])
  have hz1 : (2 : ℝ) • (⟨0, 0, 1⟩ : V3 ℝ) = b.v := by rw [hb]; ext <;> simp
  have hz2 : (1 : ℝ) • (⟨0, 0, 1⟩ : V3 ℝ) = evz.v := by ext <;> simp [evz]
  have h1 : inelasticS K 1 0 (4 * vsq2e / (energy evz.v + K.emax)) evz = some { evz with
      v := b.v, p := 1 * (vsq2e + 1) / 1 * (2 / 1) * Real.exp (-0) * (1 * 1 * k2E (transfer evz.v b.v)) } := by
    rw [forward (by norm_num [hem]) (by rw [evz_energy, hem]; linarith) evz_ne]
    unfold inelFinish
    simp only [evz_energy, v4, Option.bind_eq_bind, Option.bind_some, hb1, evz_length, q1,
      divD_ok one_ne_zero, hem, show K.mass = 1 from rfl]
    rw [if_pos (by rw [abs_of_neg (by linarith)]; linarith)]
    rw [hz1, transfer_eq, show K.T * kelvin2meV = 1 from hT]
    rfl
  have h2 : inelasticS K 1 0 (vsq2e / (energy b.v + K.emax)) b = some { b with
      v := evz.v, p := 1 * (4 * vsq2e + 1) / 1 * (1 / 2) * Real.exp (-0) * (1 * 1 * k2E (transfer b.v evz.v)) } := by
    rw [forward (by norm_num [hem]) (by rw [hbe, hem]; linarith) hbn]
    unfold inelFinish
    simp only [hbe, v1, Option.bind_eq_bind, Option.bind_some, hb2, hbl, q2,
      divD_ok one_ne_zero, divD_ok two_ne_zero, hem, show K.mass = 1 from rfl]
    rw [if_pos (by rw [abs_of_pos (by linarith)]; linarith)]
    rw [hz2, transfer_eq, show K.T * kelvin2meV = 1 from hT]
    rfl
  have hu : ∀ x E : ℝ, 0 ≤ x → x < 0.1 → 0 < E → 0 ≤ x / (E + K.emax) ∧ x / (E + K.emax) ≤ 1 := by
    intro x E hx hx1 hE
    rw [hem]
    exact ⟨by positivity, by rw [div_le_one (by linarith)]; linarith⟩
  have hr := H K 1 0 _ 1 0 _ evz b _ _ (by norm_num [hK, K0]) (by norm_num [hK, K0]) (by norm_num [hem]) evz_ne hbn
    ⟨zero_le_one, le_rfl, hu (4 * vsq2e) _ (by linarith) (by linarith) (energy_pos evz_ne)⟩
    ⟨zero_le_one, le_rfl, hu vsq2e _ hp.le (by linarith) (energy_pos hbn)⟩ h1 h2 rfl rfl rfl rfl
  have w1 : width K.emax (energy evz.v) = vsq2e + 1 := by
    unfold width; rw [evz_energy, hem, max_eq_left (by linarith)]; ring
  have w2 : width K.emax (energy b.v) = 4 * vsq2e + 1 := by
    unfold width; rw [hbe, hem, max_eq_left (by linarith)]; ring
  rw [w1, w2, hT, evz_energy, hbe, transfer_comm b.v, k2E_eq] at hr
  have ht : transfer evz.v b.v = v2k := by
    unfold transfer
    rw [show (wave evz.v - wave b.v).dot (wave evz.v - wave b.v) = v2k ^ 2 by
      simp only [wave, evz, hb, V3.dot, V3.sub_x, V3.sub_y, V3.sub_z, V3.smul_x, V3.smul_y, V3.smul_z]; ring,
      Real.sqrt_sq v2k_pos.le]
  have hR : neutronRecoil (transfer evz.v b.v) = vsq2e := by
    rw [ht]; unfold neutronRecoil; rw [mul_comm k2v, v2k_mul]; ring
  rw [hR] at hr
  have l1 : 1 * (vsq2e + 1) / 1 * (2 / 1) * Real.exp (-0) * (1 * 1 * vsq2e) / (vsq2e + 1) = 2 * vsq2e := by
    rw [neg_zero, Real.exp_zero]; field_simp
  have l2 : 1 * (4 * vsq2e + 1) / 1 * (1 / 2) * Real.exp (-0) * (1 * 1 * vsq2e) / (4 * vsq2e + 1) = vsq2e / 2 := by
    rw [neg_zero, Real.exp_zero]; field_simp
  simp only [l1, l2] at hr
  have : Real.exp (-(vsq2e / 1)) = Real.exp (-(4 * vsq2e / 1)) := by
    apply mul_left_cancel₀ (show 2 * vsq2e * vsq2e ≠ 0 by positivity)
    linarith
  have := Real.exp_injective this
  linarith

/-! ### C113 recoil -/

/-- **C113** The weight is that of the one-phonon cross section up to one percent, for energy transfers that are
not small.  Missing: the factor should be 1, see `C113_mass_false`. -/
theorem C113_weight_partial : ∃ c : ℝ, 0.991 < c ∧ c < 0.992 ∧ ∀ {K : Inel} {u1 u2 u3 : ℝ} {ev ev' : Ev},
    0 < K.T → K.mass ≠ 0 → 0 < K.emax → ev.v ≠ 0 → 0 ≤ u1 → u1 ≤ 1 → 0 ≤ u3 →
    inelasticS K u1 u2 u3 ev = some ev' → 1e-2 * K.emax ≤ |energy ev.v - energy ev'.v| →
    ev'.p = c * (ev.p * width K.emax (energy ev.v) *
      phononXs K (recoil K.mass * transfer ev.v ev'.v ^ 2) ev.v ev'.v) := by
  refine ⟨vsq2e * k2v ^ 2 / recoil 1, by unfold vsq2e k2v recoil; norm_num, by unfold vsq2e k2v recoil; norm_num, ?_⟩
  intro K u1 u2 u3 ev ev' hT hm he hv h0 h1 g0 h hw
  have hc : ∀ Q, neutronRecoil Q / K.mass = vsq2e * k2v ^ 2 / recoil 1 * (recoil K.mass * Q ^ 2) := by
    intro Q
    have : recoil K.mass = recoil 1 / K.mass := by unfold recoil; field_simp
    have h3 : recoil 1 ≠ 0 := by unfold recoil; norm_num
    rw [this]; unfold neutronRecoil
    field_simp
  obtain ⟨hp, _⟩ := inelasticS_weight hT hm he hv h0 h1 g0 h hw
  rw [hp, hc]
  simp only [phononXs]
  ring

/-- the hypotheses of `C113_weight_partial` can be met -/
example : ∃ ev', inelasticS K0 1 0 (1 / 2 / (energy evz.v + K0.emax)) evz = some ev' ∧ 0 < ev'.p ∧
    1e-2 * K0.emax ≤ |energy evz.v - energy ev'.v| := K0_gain.imp fun _ h => ⟨h.1, h.2.1, h.2.2.1⟩

/-- **C113** The recoil energy is computed with the mass of the neutron as the unit of mass, although masses are given
in atomic mass units. -/
theorem C113_mass_false :
    ¬ ∀ (K : Inel) (u1 u2 u3 : ℝ) (ev ev' : Ev),
    0 < K.T → K.mass ≠ 0 → 0 < K.emax → ev.v ≠ 0 → 0 ≤ u1 → u1 ≤ 1 → 0 ≤ u3 →
    inelasticS K u1 u2 u3 ev = some ev' → 1e-2 * K.emax ≤ |energy ev.v - energy ev'.v| →
    ev'.p = ev.p * width K.emax (energy ev.v) *
      phononXs K (recoil K.mass * transfer ev.v ev'.v ^ 2) ev.v ev'.v := by
  intro H
  obtain ⟨ev', h1, h2, h3, _⟩ := K0_gain
  obtain ⟨c, hc1, hc2, hc⟩ := C113_weight_partial
  have hu : 0 ≤ 1 / 2 / (energy evz.v + K0.emax) := by
    have := energy_pos evz_ne
    have : 0 < K0.emax := by norm_num [K0]
    positivity
  have a := H K0 1 0 _ evz ev' (by norm_num [K0]) (by norm_num [K0]) (by norm_num [K0]) evz_ne zero_le_one le_rfl hu h1 h3
  have b := hc (by norm_num [K0]) (by norm_num [K0]) (by norm_num [K0]) evz_ne zero_le_one le_rfl hu h1 h3
  rw [← a] at b
  nlinarith

/-! ### C114 energy focusing -/

/-- **C114** The focusing kernel either rejects the neutron or gives it an energy in the window. -/
theorem C114_window {K : Inel} {kEf kdEf u1 u2 u3 : ℝ} {ev ev' : Ev} (hd : 0 ≤ kdEf) (h0 : 0 ≤ u1) (h1 : u1 ≤ 1)
    (g0 : 0 ≤ u3) (g1 : u3 ≤ 1) (h : focusedS K kEf kdEf u1 u2 u3 ev = some ev') :
    SamePlace ev ev' ∧ ((ev'.v = ev.v ∧ ev'.p = -1) ∨ |energy ev'.v - kEf| ≤ kdEf / 2) := by
  unfold focusedS at h
  rw [normalize_unit (chooseDirection_unit h0 h1 u2)] at h
  simp only [Option.bind_eq_bind, Option.bind_some] at h
  split at h
  · simp only [Option.some.injEq] at h
    rw [← h]
    exact ⟨⟨rfl, rfl, rfl, rfl⟩, .inl ⟨rfl, rfl⟩⟩
  · split at h
    · simp only [Option.some.injEq] at h
      rw [← h]
      exact ⟨⟨rfl, rfl, rfl, rfl⟩, .inl ⟨rfl, rfl⟩⟩
    · next hn =>
      have hE : 0 ≤ kEf + (u3 - 0.5) * kdEf := not_lt.1 hn
      obtain ⟨hv, hsame⟩ := inelFinish_some hE h
      refine ⟨hsame, .inr ?_⟩
      rw [hv, energy_velocity hE (chooseDirection_unit h0 h1 u2), abs_le]
      constructor <;> norm_num <;> nlinarith

/-- **C114** For a window of final energies below the initial energy the focusing kernel scatters as the full kernel
does, with the weight scaled by the ratio of the energy ranges.  Missing: windows that reach above the initial
energy, see `C114_gain_false`. -/
theorem C114_same_partial {K : Inel} {kEf kdEf u1 u2 u3 : ℝ} {ev ev' : Ev} (hT : 0 < K.T) (hm : K.mass ≠ 0)
    (he : 0 < K.emax) (hv : ev.v ≠ 0) (hd : 0 < kdEf) (h0 : 0 ≤ u1) (h1 : u1 ≤ 1)
    (g0 : 0 ≤ u3) (h : inelasticS K u1 u2 u3 ev = some ev')
    (hs : 1e-2 * K.emax ≤ |energy ev.v - energy ev'.v|) (hin : |energy ev'.v - kEf| ≤ kdEf / 2)
    (hlo : kEf + kdEf / 2 ≤ energy ev.v) (hhi : energy ev.v - K.emax ≤ kEf + kdEf / 2) :
    ∃ w3 ev'', 0 ≤ w3 ∧ w3 ≤ 1 ∧ focusedS K kEf kdEf u1 u2 w3 ev = some ev'' ∧ ev''.v = ev'.v ∧
      ev''.p * width K.emax (energy ev.v) = ev'.p * kdEf := by
  obtain ⟨hp, hvel⟩ := inelasticS_weight hT hm he hv h0 h1 g0 h hs
  have hn := chooseDirection_unit h0 h1 u2
  have hE : 0 ≤ energy ev'.v := mul_nonneg vsq2e_pos.le (dot_self_nonneg _)
  rw [abs_le] at hin
  have hw : kEf + ((energy ev'.v - kEf) / kdEf + 1 / 2 - 0.5) * kdEf = energy ev'.v := by
    norm_num; field_simp; ring
  refine ⟨(energy ev'.v - kEf) / kdEf + 1 / 2, { ev with
      v := ev'.v
      p := ev.p * kdEf * phononXs K (neutronRecoil (transfer ev.v ev'.v) / K.mass) ev.v ev'.v }, ?_, ?_, ?_, rfl, ?_⟩
  · have : -(1 / 2) ≤ (energy ev'.v - kEf) / kdEf := by rw [le_div_iff₀ hd]; linarith
    linarith
  · have : (energy ev'.v - kEf) / kdEf ≤ 1 / 2 := by rw [div_le_iff₀ hd]; linarith
    linarith
  · unfold focusedS
    rw [normalize_unit hn]
    simp only [Option.bind_eq_bind, Option.bind_some, v2E_length]
    rw [if_neg (by push Not; constructor <;> linarith), hw, if_neg (not_lt.2 hE),
      inelFinish_eq hT hm hv hn hE he hs, ← hvel]
  · rw [hp]; ring

/-- **C114** Expected value with a window below the initial energy: the integral over the window.  Missing: as in
`C111_expected_partial` and `C114_same_partial`. -/
theorem C114_expected_partial {K : Inel} {kEf kdEf : ℝ} {ev : Ev} (hT : 0 < K.T) (hm : K.mass ≠ 0) (hv : ev.v ≠ 0)
    (he : 0 < K.emax) {H : V3 ℝ → ℝ} (hH : Inelastic K ev.v H) (hd : 0 < kdEf) (hpos : 0 ≤ kEf - kdEf / 2)
    (hlo : kEf + kdEf / 2 ≤ energy ev.v) (hhi : energy ev.v - K.emax ≤ kEf + kdEf / 2) :
    mean3 (fun u1 u2 u3 => outWeight H (focusedS K kEf kdEf u1 u2 u3 ev)) =
      ev.p * sphere fun n => ∫ E in (kEf - kdEf / 2)..(kEf + kdEf / 2),
        phononXs K (neutronRecoil (transfer ev.v (velocity E n)) / K.mass) ev.v (velocity E n) *
          H (velocity E n) := by
  unfold mean3
  apply mean_sphere
  intro u1 u2 h0 h1
  have hn := chooseDirection_unit h0.le h1.le u2
  rw [← mean_energy hT hm hv he hH hn hpos (by linarith) (show kdEf = _ by ring)]
  apply mean_congr
  intro u3 g0 g1
  show outWeight H (focusedS K kEf kdEf u1 u2 u3 ev) = _
  congr 1
  unfold focusedS
  rw [normalize_unit hn]
  simp only [Option.bind_eq_bind, Option.bind_some, v2E_length]
  have hE : kEf + (u3 - 0.5) * kdEf = kEf - kdEf / 2 + u3 * (kEf + kdEf / 2 - (kEf - kdEf / 2)) := by
    norm_num; ring
  rw [if_neg (by push Not; constructor <;> linarith), hE, if_neg]
  nlinarith

/-- the hypotheses of `C114_expected_partial` can be met -/
example : ∃ ev : Ev, ev.v ≠ 0 ∧ (0 : ℝ) ≤ 1 / 2 - (1 / 5) / 2 ∧ (1 / 2 : ℝ) + (1 / 5) / 2 ≤ energy ev.v ∧
    energy ev.v - K0.emax ≤ 1 / 2 + (1 / 5) / 2 := by
  refine ⟨{ evz with v := velocity 1 ⟨0, 0, 1⟩ }, ?_, by norm_num, ?_, ?_⟩
  · intro h
    have := energy_velocity (E := 1) zero_le_one (n := ⟨0, 0, 1⟩) (by norm_num [V3.dot])
    simp only at h
    rw [h] at this
    norm_num [energy, V3.dot] at this
  · rw [energy_velocity zero_le_one (by norm_num [V3.dot])]; norm_num
  · rw [energy_velocity zero_le_one (by norm_num [V3.dot])]; norm_num [K0]

/-- **C114** A window that reaches above the initial energy rejects all neutrons, though the full kernel scatters
into it. -/
theorem C114_gain_false :
    ¬ ∀ (K : Inel) (kEf kdEf u1 u2 u3 : ℝ) (ev ev' : Ev), 0 < K.T → K.mass ≠ 0 → 0 < K.emax → ev.v ≠ 0 → 0 < kdEf →
      0 ≤ u1 → u1 ≤ 1 → 0 ≤ u3 → inelasticS K u1 u2 u3 ev = some ev' → 0 < ev'.p →
      1e-2 * K.emax ≤ |energy ev.v - energy ev'.v| → |energy ev'.v - kEf| ≤ kdEf / 2 →
      ∃ w1 w2 w3 ev'', 0 ≤ w1 ∧ w1 ≤ 1 ∧ 0 ≤ w3 ∧ w3 ≤ 1 ∧ focusedS K kEf kdEf w1 w2 w3 ev = some ev'' ∧ 0 < ev''.p := by
  intro H
  obtain ⟨ev', h1, h2, h3, h4⟩ := K0_gain
  have hu : 0 ≤ 1 / 2 / (energy evz.v + K0.emax) := by
    have := energy_pos evz_ne
    have : 0 < K0.emax := by norm_num [K0]
    positivity
  obtain ⟨w1, w2, w3, ev'', a1, a2, a3, a4, a5, a6⟩ := H K0 (1 / 2) (1 / 5) 1 0 _ evz ev' (by norm_num [K0])
    (by norm_num [K0]) (by norm_num [K0]) evz_ne (by norm_num) zero_le_one le_rfl hu h1 h2 h3 (by rw [h4]; norm_num)
  unfold focusedS at a5
  rw [normalize_unit (chooseDirection_unit a1 a2 w2)] at a5
  simp only [Option.bind_eq_bind, Option.bind_some, v2E_length, evz_energy] at a5
  have hs : vsq2e < 0.001 := by unfold vsq2e; norm_num
  rw [if_pos (.inr (by norm_num; linarith))] at a5
  simp only [Option.some.injEq] at a5
  rw [← a5] at a6
  norm_num at a6

/-! ### C115 several kinds of atoms -/

/-- **C115** If all atoms have the same mass, scattering cross section over mass is the sum over the atoms.
Missing: atoms of different masses, see `C115_average_false`. -/
theorem C115_equal_partial {atoms : List Atom} {M : ℝ} (h0 : atoms ≠ []) (h : ∀ a ∈ atoms, a.mass = M) :
    ∃ m s x, massAndXs atoms 0 0 0 = some (m, s, x) ∧ m = M ∧ s = (atoms.map (·.inc)).sum ∧
      x = (atoms.map (·.abs)).sum ∧ s / m = (atoms.map fun a => a.inc / a.mass).sum := by
  have hl : (atoms.length : ℝ) ≠ 0 := by
    have := List.length_pos_iff.2 h0
    positivity
  have hs : ∀ l : List Atom, (∀ a ∈ l, a.mass = M) → (l.map (·.mass)).sum = l.length * M ∧
      (l.map fun a => a.inc / a.mass).sum = (l.map (·.inc)).sum / M := by
    intro l
    induction l with
    | nil => intro _; simp
    | cons a l ih =>
      intro hl
      obtain ⟨i1, i2⟩ := ih fun b hb => hl b (List.mem_cons_of_mem _ hb)
      have := hl a List.mem_cons_self
      simp only [List.map_cons, List.sum_cons, i1, i2, this, List.length_cons]
      constructor
      · push_cast; ring
      · ring
  obtain ⟨h1, h2⟩ := hs atoms h
  refine ⟨M, (atoms.map (·.inc)).sum, (atoms.map (·.abs)).sum, ?_, rfl, rfl, rfl, h2.symm⟩
  unfold massAndXs
  rw [if_neg (lt_irrefl _), if_neg (lt_irrefl _), if_neg (lt_irrefl _), h1, divD_ok hl, mul_div_cancel_left₀ _ hl]
  rfl

/-- the hypotheses of `C115_equal_partial` can be met -/
example : ∃ m s x, massAndXs [⟨50.94, 5.08, 5.08⟩, ⟨50.94, 5.08, 5.08⟩] 0 0 0 = some (m, s, x) ∧
    s / m = 5.08 / 50.94 + (5.08 / 50.94 + 0) := by
  obtain ⟨m, s, x, h, _, _, _, h2⟩ := C115_equal_partial (atoms := [⟨50.94, 5.08, 5.08⟩, ⟨50.94, 5.08, 5.08⟩])
    (M := 50.94) (by simp) (by simp)
  exact ⟨m, s, x, h, by simpa using h2⟩

/-- **C115** For atoms of different masses the code divides the sum of the cross sections by the average mass instead of
summing cross section over mass: hydrogen in a heavy compound scatters too little. -/
theorem C115_average_false :
    ¬ ∀ (atoms : List Atom) (m s x : ℝ), atoms ≠ [] → (∀ a ∈ atoms, 0 < a.mass ∧ 0 ≤ a.inc) →
      massAndXs atoms 0 0 0 = some (m, s, x) → s / m = (atoms.map fun a => a.inc / a.mass).sum := by
  intro H
  have := H [⟨1, 80, 0⟩, ⟨99, 0, 0⟩] 50 80 0 (by simp) (by norm_num) (by
    unfold massAndXs divD; norm_num)
  norm_num at this

end Verif.Phonon
