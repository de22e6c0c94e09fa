import Verif.Spec.Broad
import Verif.Lemmas.Sampling
/-!
Helper lemmas for broadened dispersion curves and for scattering by spheres.
-/

namespace Verif.Broad
open Solid Flight Homog Kinem Sampling MeasureTheory Set

/-! ### Broadened curves -/

open Classical in
theorem try_eq (k : Line) {v : V3 ℝ} (hv : v ≠ 0) {u g Q E : ℝ} (hQd : Q = random u k.Qmin k.Qmax)
    (hEd : E = k.E Q + g * k.W Q) (hQ : 0 ≤ Q) :
    k.try (energy v) (kOf v) u g = if Possible v Q E then
      some (some (Q, k2v * kFinal v E, kFinal v E,
        (kOf v * kOf v + kFinal v E * kFinal v E - Q * Q) / (2 * kOf v * kFinal v E))) else none := by
  have hki := kOf_pos hv
  unfold Line.try
  simp only [← hQd, ← hEd]
  by_cases hE : E < energy v
  · rw [if_neg (not_le.2 (sub_pos.2 hE))]
    have hkf := kFinal_pos hE
    have hvf := E2v_ok (sub_pos.2 hE).le
    have hkv := (kFinal_of_E2v hvf).1
    have hvk : k2v * kFinal v E = √(energy v - E) * sqrte2v := by
      rw [← hkv, ← mul_assoc, mul_comm k2v, v2k_mul, one_mul]
    rw [hvk]
    simp only [hvf, hkv]
    rw [divD_ok (by positivity)]
    simp only
    by_cases hcl : Closes v Q E
    · rw [if_neg (not_lt.2 (cos_le hki hkf hcl.2.1 hcl.2.2)), if_pos ⟨hE, hcl⟩]
    · rw [if_neg (c := Possible v Q E) fun h => hcl h.2, if_pos]
      by_contra hc
      exact hcl ⟨hE.le, closes_of_cos hki hkf hQ (not_lt.1 hc)⟩
  · rw [if_pos (by linarith), if_neg fun h => hE h.1]

/-- the kernel after `count` rounds -/
noncomputable def rest (k : Line) (count : Nat) (us : List (ℝ × ℝ)) (u : ℝ) (ev : Ev) : Option Ev :=
  match k.loop (energy ev.v) (kOf ev.v) count us with
  | none => some ev
  | some none => none
  | some (some (Q, vf, kf, cost)) => do
    let sint ← sqrtD (1 - cost * cost)
    let phi := random u 0 (Real.pi * 2)
    let (e1, e2, e3) ← axes' 0.1 ev.v
    let dir := (sint * Real.cos phi) • e2 + (sint * Real.sin phi) • e3 + cost • e1
    let r ← divD vf (length ev.v)
    let j ← divD (Q * (k.Qmax - k.Qmin)) (kf * kOf ev.v)
    some { ev with v := vf • dir, p := ev.p * (k.S Q * r) / (4 * Real.pi) * (j * 2 * Real.pi) }

theorem S'_eq (k : Line) (us : List (ℝ × ℝ)) (u : ℝ) (ev : Ev) (h : k.Emin ≤ energy ev.v) :
    k.S' us u ev = rest k 0 us u ev := by
  unfold Line.S' rest
  simp only [v2E_length, kOf_eq, if_neg (not_lt.2 h)]
  rfl

/-- what the kernel does with an accepted round -/
theorem rest_hit (k : Line) {ev : Ev} (hv : ev.v ≠ 0) {u g Q E x : ℝ} {us : List (ℝ × ℝ)} {count : Nat}
    (hc : count < 99) (hQd : Q = random u k.Qmin k.Qmax) (hEd : E = k.E Q + g * k.W Q) (hQ : 0 ≤ Q)
    (hp : Possible ev.v Q E) :
    ∃ ev', rest k count ((u, g) :: us) x ev = some ev' ∧ SamePlace ev ev' ∧ Transfer ev ev' Q E ∧
      ev'.p = ev.p * (k.S Q * Q * (k.Qmax - k.Qmin) / (2 * kOf ev.v ^ 2)) := by
  have hki := kOf_pos hv
  have hl := length_pos hv
  have hkf := kFinal_pos hp.1
  have hcos := cos_le hki hkf hp.2.2.1 hp.2.2.2
  obtain ⟨⟨e1, e2, e3⟩, hax⟩ := axes'_ok (eps := 0.1) (by norm_num) (by norm_num) hv
  obtain ⟨a1, _, a3, a4, a5, a6⟩ := axes'_some hax
  have hloop : k.loop (energy ev.v) (kOf ev.v) count ((u, g) :: us) = some (some (Q, k2v * kFinal ev.v E, kFinal ev.v E,
        (kOf ev.v * kOf ev.v + kFinal ev.v E * kFinal ev.v E - Q * Q) / (2 * kOf ev.v * kFinal ev.v E))) := by
    unfold Line.loop
    rw [if_pos (by omega), try_eq k hv hQd hEd hQ, if_pos hp]
    simp only
    rw [if_neg (by omega)]
  obtain ⟨c, hcd⟩ : ∃ c, c = (kOf ev.v * kOf ev.v + kFinal ev.v E * kFinal ev.v E - Q * Q) / (2 * kOf ev.v * kFinal ev.v E) :=
    ⟨_, rfl⟩
  obtain ⟨kf, hkd⟩ : ∃ kf, kf = kFinal ev.v E := ⟨_, rfl⟩
  obtain ⟨φ, hφ⟩ : ∃ φ, φ = random x 0 (Real.pi * 2) := ⟨_, rfl⟩
  rw [← hkd] at hcd hloop hcos hkf
  rw [← hcd] at hloop hcos
  unfold rest
  rw [hloop]
  simp only [Option.bind_eq_bind]
  rw [sqrtD_ok (sub_nonneg.2 hcos), Option.bind_some, hax, Option.bind_some, divD_ok hl.ne', Option.bind_some,
    divD_ok (by positivity), Option.bind_some, ← hφ]
  have hout : (√(1 - c * c) * Real.cos φ) • e2 + (√(1 - c * c) * Real.sin φ) • e3 + c • e1 =
      outDir e1 e2 (V3.cross e1 e2) c √(1 - c * c) φ := by
    rw [a6]; unfold outDir
    ext <;> simp only [V3.add_x, V3.add_y, V3.add_z, V3.smul_x, V3.smul_y, V3.smul_z] <;> ring
  obtain ⟨d1, d2⟩ := outDir_dot a3 a4 c √(1 - c * c) φ
  rw [a5] at d1 d2
  have hs := Real.mul_self_sqrt (sub_nonneg.2 hcos)
  have d1' : (outDir e1 e2 (V3.cross e1 e2) c √(1 - c * c) φ).dot (outDir e1 e2 (V3.cross e1 e2) c √(1 - c * c) φ) =
      1 + 0 := by rw [d1, hs]; ring
  have d2' : e1.dot (outDir e1 e2 (V3.cross e1 e2) c √(1 - c * c) φ) = c + 0 := by rw [d2]; ring
  have hen := kFinal_energy hp.1.le
  rw [← hkd] at hen
  refine ⟨_, rfl, ⟨rfl, rfl, rfl, rfl⟩, ⟨?_, ?_⟩, ?_⟩
  · simp only [hout]
    rw [energy_smul, d1']
    linear_combination -hen
  · simp only [hout]
    have := transfer_of (v := ev.v) (e1 := e1) (w := k2v * kf) (kf := kf) (c := c) (Q := Q) a1 a3
      (by rw [← mul_assoc, v2k_mul, one_mul]) (by rw [kOf_eq, hcd]; field_simp) d1' d2'
    rw [this]; ring
  · simp only
    rw [← kOf_eq]
    have h1 : k2v = 1 / v2k := by have := v2k_mul; have := v2k_pos; field_simp; linarith
    have := v2k_pos
    have := Real.pi_pos
    rw [h1]
    field_simp
    ring

/-- and with a round that is not possible -/
theorem rest_miss (k : Line) {ev : Ev} (hv : ev.v ≠ 0) {u g Q E x : ℝ} {us : List (ℝ × ℝ)} {count : Nat}
    (hc : count < 100) (hQd : Q = random u k.Qmin k.Qmax) (hEd : E = k.E Q + g * k.W Q) (hQ : 0 ≤ Q)
    (hp : ¬ Possible ev.v Q E) : rest k count ((u, g) :: us) x ev = rest k (count + 1) us x ev := by
  unfold rest
  have : k.loop (energy ev.v) (kOf ev.v) count ((u, g) :: us) = k.loop (energy ev.v) (kOf ev.v) (count + 1) us := by
    conv_lhs => unfold Line.loop
    rw [if_pos hc, try_eq k hv hQd hEd hQ, if_neg hp]
  rw [this]

theorem rest_last (k : Line) {ev : Ev} {u g x : ℝ} {us : List (ℝ × ℝ)} : rest k 99 ((u, g) :: us) x ev = some ev := by
  unfold rest
  have : k.loop (energy ev.v) (kOf ev.v) 99 ((u, g) :: us) = none := by
    unfold Line.loop
    rw [if_pos (by omega)]
    have hend : ∀ l : List (ℝ × ℝ), k.loop (energy ev.v) (kOf ev.v) 100 l = none := by
      intro l
      cases l with
      | nil => rfl
      | cons a l => obtain ⟨a, b⟩ := a; unfold Line.loop; rw [if_neg (by omega)]
    split
    · exact hend us
    · rfl
  rw [this]

/-- rounds that are not possible are skipped -/
theorem rest_skip (k : Line) {ev : Ev} (hv : ev.v ≠ 0) {x : ℝ} {post : List (ℝ × ℝ)} : ∀ (pre : List (ℝ × ℝ)) (count : Nat),
    count + pre.length ≤ 100 → (∀ z ∈ pre, 0 ≤ random z.1 k.Qmin k.Qmax ∧
      ¬ Possible ev.v (random z.1 k.Qmin k.Qmax) (k.E (random z.1 k.Qmin k.Qmax) + z.2 * k.W (random z.1 k.Qmin k.Qmax))) →
    rest k count (pre ++ post) x ev = rest k (count + pre.length) post x ev
  | [], _, _, _ => rfl
  | (u, g) :: pre, count, hc, h => by
    simp only [List.length_cons] at hc
    obtain ⟨h1, h2⟩ := h (u, g) List.mem_cons_self
    rw [List.cons_append, rest_miss k hv (by omega) rfl rfl h1 h2,
      rest_skip k hv pre (count + 1) (by omega) fun z hz => h z (List.mem_cons_of_mem _ hz), List.length_cons]
    congr 1
    omega

theorem rest_over (k : Line) {ev : Ev} {x : ℝ} {count : Nat} (hc : 100 ≤ count) (us : List (ℝ × ℝ)) :
    rest k count us x ev = some ev := by
  unfold rest
  have : k.loop (energy ev.v) (kOf ev.v) count us = none := by
    cases us with
    | nil => rfl
    | cons a l => obtain ⟨a, b⟩ := a; unfold Line.loop; rw [if_neg (by omega)]
  rw [this]

/-- every outcome is the incident neutron or that of one of the rounds -/
theorem rest_cases (k : Line) {ev : Ev} (hv : ev.v ≠ 0) (hr : 0 ≤ k.Qmin ∧ k.Qmin < k.Qmax) {x : ℝ} :
    ∀ (us : List (ℝ × ℝ)) (count : Nat), (∀ z ∈ us, 0 ≤ z.1 ∧ z.1 ≤ 1) →
    rest k count us x ev = some ev ∨ ∃ z ∈ us, ∃ Q E ev', Q = k.Qmin + z.1 * (k.Qmax - k.Qmin) ∧ E = k.E Q + z.2 * k.W Q ∧
      rest k count us x ev = some ev' ∧ SamePlace ev ev' ∧ Transfer ev ev' Q E ∧
      ev'.p = ev.p * (k.S Q * Q * (k.Qmax - k.Qmin) / (2 * kOf ev.v ^ 2))
  | [], _, _ => Or.inl rfl
  | (u, g) :: us, count, h => by
    by_cases hc : count < 99
    · have hu := h (u, g) List.mem_cons_self
      have hQ : 0 ≤ random u k.Qmin k.Qmax := hr.1.trans (random_mem hu.1 hu.2 hr.2.le).1
      by_cases hp : Possible ev.v (random u k.Qmin k.Qmax)
          (k.E (random u k.Qmin k.Qmax) + g * k.W (random u k.Qmin k.Qmax))
      · obtain ⟨ev', e1, e2, e3, e4⟩ := rest_hit k hv (us := us) (x := x) hc rfl rfl hQ hp
        exact Or.inr ⟨(u, g), List.mem_cons_self, _, _, ev', random_eq _ _ _, rfl, e1, e2, e3, e4⟩
      · rw [rest_miss k hv (by omega) rfl rfl hQ hp]
        rcases rest_cases k hv hr us (count + 1) fun z hz => h z (List.mem_cons_of_mem _ hz) with h1 | ⟨z, hz, h1⟩
        · exact Or.inl h1
        · exact Or.inr ⟨z, List.mem_cons_of_mem _ hz, h1⟩
    · left
      by_cases hc' : count = 99
      · subst hc'; exact rest_last k
      · exact rest_over k (by omega) _

/-! ### Expectation -/

theorem mean_eq (f : ℝ → ℝ) : mean f = ∫ u, f u ∂(volume.restrict (Ioc (0 : ℝ) 1)) := by
  unfold mean
  rw [intervalIntegral.integral_of_le zero_le_one]

theorem pair_integrable {ν : Measure ℝ} [IsProbabilityMeasure ν] {h : ℝ × ℝ → ℝ} (hm : Measurable h) {C : ℝ}
    (hC : ∀ z : ℝ × ℝ, 0 < z.1 → z.1 ≤ 1 → |h z| ≤ C) : Integrable h ((volume.restrict (Ioc (0 : ℝ) 1)).prod ν) := by
  have hfin : IsFiniteMeasure (volume.restrict (Ioc (0 : ℝ) 1)) :=
    ⟨by rw [Measure.restrict_apply_univ]; exact measure_Ioc_lt_top⟩
  refine Integrable.of_bound hm.aestronglyMeasurable C ?_
  have h1 : ∀ᵐ u ∂(volume.restrict (Ioc (0 : ℝ) 1)), u ∈ Ioc (0 : ℝ) 1 := ae_restrict_mem measurableSet_Ioc
  have h2 := Measure.quasiMeasurePreserving_fst (μ := volume.restrict (Ioc (0 : ℝ) 1)) (ν := ν) |>.ae h1
  filter_upwards [h2] with z hz
  exact hC z hz.1 hz.2

theorem pairMean_eq {ν : Measure ℝ} [IsProbabilityMeasure ν] {h : ℝ × ℝ → ℝ} (hm : Measurable h) {C : ℝ}
    (hC : ∀ z : ℝ × ℝ, 0 < z.1 → z.1 ≤ 1 → |h z| ≤ C) :
    pairMean ν (fun u g => h (u, g)) = ∫ z, h z ∂((volume.restrict (Ioc (0 : ℝ) 1)).prod ν) := by
  unfold pairMean
  rw [mean_eq, integral_prod _ (pair_integrable hm hC)]

theorem energy_measurable (v : V3 ℝ) : Measurable fun z : ℝ × ℝ => kFinal v z.2 := by
  unfold kFinal
  fun_prop

theorem possible_measurable (v : V3 ℝ) : MeasurableSet {z : ℝ × ℝ | Possible v z.1 z.2} := by
  have hk := energy_measurable v
  unfold Possible Closes
  apply MeasurableSet.inter
  · exact measurableSet_lt measurable_snd measurable_const
  · apply MeasurableSet.inter
    · exact measurableSet_le measurable_snd measurable_const
    · apply MeasurableSet.inter
      · exact measurableSet_le (continuous_abs.measurable.comp (measurable_const.sub hk)) measurable_fst
      · exact measurableSet_le measurable_fst (measurable_const.add hk)

open Classical in
/-- a round of the loop in the mean -/
theorem round_mean {k : Line} {G : ℝ → ℝ → ℝ} (hk : Regular k G) (ν : Measure ℝ) [IsProbabilityMeasure ν] (ev : Ev) (F : ℝ) :
    pairMean ν (fun u g =>
      if Possible ev.v (k.Qmin + u * (k.Qmax - k.Qmin)) (k.E (k.Qmin + u * (k.Qmax - k.Qmin)) + g * k.W (k.Qmin + u * (k.Qmax - k.Qmin)))
      then ev.p * (k.S (k.Qmin + u * (k.Qmax - k.Qmin)) * (k.Qmin + u * (k.Qmax - k.Qmin)) * (k.Qmax - k.Qmin) / (2 * kOf ev.v ^ 2)) *
        G (k.E (k.Qmin + u * (k.Qmax - k.Qmin)) + g * k.W (k.Qmin + u * (k.Qmax - k.Qmin))) (k.Qmin + u * (k.Qmax - k.Qmin))
      else F) = lineTruth k ν G ev + lineMiss k ν ev * F := by
  obtain ⟨⟨h0, h1⟩, mE, mS, mW, ⟨CS, bS⟩, mG, ⟨CG, bG⟩, zG⟩ := hk
  have mQ : Measurable fun z : ℝ × ℝ => k.Qmin + z.1 * (k.Qmax - k.Qmin) := by fun_prop
  have mEQ : Measurable fun z : ℝ × ℝ => k.E (k.Qmin + z.1 * (k.Qmax - k.Qmin)) + z.2 * k.W (k.Qmin + z.1 * (k.Qmax - k.Qmin)) :=
    (mE.comp mQ).add (measurable_snd.mul (mW.comp mQ))
  have mA : MeasurableSet {z : ℝ × ℝ | Possible ev.v (k.Qmin + z.1 * (k.Qmax - k.Qmin))
      (k.E (k.Qmin + z.1 * (k.Qmax - k.Qmin)) + z.2 * k.W (k.Qmin + z.1 * (k.Qmax - k.Qmin)))} :=
    (mQ.prodMk mEQ) (possible_measurable ev.v)
  obtain ⟨w, hw⟩ : ∃ w : ℝ × ℝ → ℝ, w = fun z => ev.p * (k.S (k.Qmin + z.1 * (k.Qmax - k.Qmin)) *
      (k.Qmin + z.1 * (k.Qmax - k.Qmin)) * (k.Qmax - k.Qmin) / (2 * kOf ev.v ^ 2)) *
        G (k.E (k.Qmin + z.1 * (k.Qmax - k.Qmin)) + z.2 * k.W (k.Qmin + z.1 * (k.Qmax - k.Qmin))) (k.Qmin + z.1 * (k.Qmax - k.Qmin)) :=
    ⟨_, rfl⟩
  obtain ⟨A, hA⟩ : ∃ A : Set (ℝ × ℝ), A = {z : ℝ × ℝ | Possible ev.v (k.Qmin + z.1 * (k.Qmax - k.Qmin))
      (k.E (k.Qmin + z.1 * (k.Qmax - k.Qmin)) + z.2 * k.W (k.Qmin + z.1 * (k.Qmax - k.Qmin)))} := ⟨_, rfl⟩
  have mw : Measurable w := by
    rw [hw]
    exact (((((mS.comp mQ).mul mQ).mul_const _).div_const _).const_mul _).mul (mG.comp (mEQ.prodMk mQ))
  rw [← hA] at mA
  obtain ⟨B, hB⟩ : ∃ B, B = |ev.p| * (CS * k.Qmax * (k.Qmax - k.Qmin) / (2 * kOf ev.v ^ 2)) * CG := ⟨_, rfl⟩
  have bw : ∀ z : ℝ × ℝ, 0 < z.1 → z.1 ≤ 1 → |w z| ≤ B := by
    intro z hz0 hz1
    have q0 : 0 ≤ k.Qmin + z.1 * (k.Qmax - k.Qmin) := by nlinarith
    have q1 : k.Qmin + z.1 * (k.Qmax - k.Qmin) ≤ k.Qmax := by nlinarith
    have hd : 0 ≤ k.Qmax - k.Qmin := by linarith
    have hCS : 0 ≤ CS := (abs_nonneg _).trans (bS 0)
    have hCG : 0 ≤ CG := (abs_nonneg _).trans (bG 0 0)
    rw [hw, hB]
    simp only
    rw [abs_mul, abs_mul, abs_div, abs_mul, abs_mul, abs_of_nonneg q0, abs_of_nonneg hd,
      abs_of_nonneg (show (0 : ℝ) ≤ 2 * kOf ev.v ^ 2 by positivity)]
    have hQm : 0 ≤ k.Qmax := by linarith
    gcongr
    · exact bS _
    · exact bG _ _
  have mI : ∀ {f g : ℝ × ℝ → ℝ}, Measurable f → Measurable g → Measurable fun z => if z ∈ A then f z else g z :=
    fun hf hg => Measurable.ite (p := fun z => z ∈ A) mA hf hg
  have e1 : ∀ F : ℝ, pairMean ν (fun u g => (fun z => if z ∈ A then w z else F) (u, g)) =
      ∫ z, (if z ∈ A then w z else F) ∂((volume.restrict (Ioc (0 : ℝ) 1)).prod ν) := by
    intro F
    refine pairMean_eq (mI mw measurable_const) (C := max B |F|) ?_
    intro z h0 h1
    split
    · exact (bw z h0 h1).trans (le_max_left _ _)
    · exact le_max_right _ _
  have e2 : pairMean ν (fun u g => (fun z => if z ∈ A then (0 : ℝ) else 1) (u, g)) =
      ∫ z, (if z ∈ A then (0 : ℝ) else 1) ∂((volume.restrict (Ioc (0 : ℝ) 1)).prod ν) := by
    refine pairMean_eq (mI measurable_const measurable_const) (C := 1) ?_
    intro z h0 h1
    split <;> norm_num
  have i1 : Integrable (fun z => if z ∈ A then w z else 0) ((volume.restrict (Ioc (0 : ℝ) 1)).prod ν) := by
    refine pair_integrable (mI mw measurable_const) (C := max B 0) ?_
    intro z h0 h1
    split
    · exact (bw z h0 h1).trans (le_max_left _ _)
    · rw [abs_zero]; exact le_max_right _ _
  have i2 : Integrable (fun z => if z ∈ A then (0 : ℝ) else 1) ((volume.restrict (Ioc (0 : ℝ) 1)).prod ν) := by
    refine pair_integrable (mI measurable_const measurable_const) (C := 1) ?_
    intro z h0 h1
    split <;> norm_num
  have main : pairMean ν (fun u g => (fun z => if z ∈ A then w z else F) (u, g)) =
      pairMean ν (fun u g => (fun z => if z ∈ A then w z else 0) (u, g)) +
      pairMean ν (fun u g => (fun z => if z ∈ A then (0 : ℝ) else 1) (u, g)) * F := by
    rw [e1, e1, e2, ← integral_mul_const, ← integral_add i1 (i2.mul_const F)]
    congr 1
    funext z
    split <;> ring
  have hT : pairMean ν (fun u g => (fun z => if z ∈ A then w z else 0) (u, g)) = lineTruth k ν G ev := by
    unfold pairMean lineTruth
    rw [← mean_affine, ← mean_mul]
    congr 1
    funext u
    rw [← mul_assoc, ← integral_const_mul]
    congr 1
    funext g
    rw [hA, hw]
    simp only [mem_ofPred_eq]
    split
    · ring
    · ring
  rw [hT] at main
  rw [hA, hw] at main
  exact main

theorem rest_mean {k : Line} {G : ℝ → ℝ → ℝ} (hk : Regular k G) (ν : Measure ℝ) [IsProbabilityMeasure ν] {ev : Ev}
    (hv : ev.v ≠ 0) (x : ℝ) : ∀ n count, count + n = 99 →
    pairsMean ν (n + 1) (fun us => weigh G ev (rest k count us x ev)) =
      lineTruth k ν G ev * ∑ i ∈ Finset.range n, lineMiss k ν ev ^ i := by
  have hself : weigh G ev (some ev) = 0 := by
    unfold weigh
    have : (wave ev.v - wave ev.v).dot (wave ev.v - wave ev.v) = 0 := by
      simp only [V3.dot, V3.sub_x, V3.sub_y, V3.sub_z]; ring
    simp only [this, sub_self, Real.sqrt_zero, hk.zG, mul_zero]
  intro n
  induction n with
  | zero =>
    intro count hc
    simp only [zero_add] at hc ⊢
    have : count = 99 := by omega
    subst this
    simp only [pairsMean, rest_last, hself, Finset.range_zero, Finset.sum_empty, mul_zero]
    unfold pairMean
    simp [mean_const]
  | succ n ih =>
    intro count hc
    have ih' := ih (count + 1) (by omega)
    have step := round_mean hk ν ev (pairsMean ν (n + 1) (fun us => weigh G ev (rest k (count + 1) us x ev)))
    have : pairsMean ν (n + 1 + 1) (fun us => weigh G ev (rest k count us x ev)) =
        lineTruth k ν G ev + lineMiss k ν ev * pairsMean ν (n + 1) (fun us => weigh G ev (rest k (count + 1) us x ev)) := by
      rw [← step]
      show pairMean ν _ = pairMean ν _
      unfold pairMean
      apply mean_congr
      intro u h0 h1
      congr 1
      funext g
      have hQ : 0 ≤ random u k.Qmin k.Qmax := by
        rw [random_eq]
        nlinarith [hk.range.1, hk.range.2]
      obtain ⟨Q, hQd⟩ : ∃ Q, Q = random u k.Qmin k.Qmax := ⟨_, rfl⟩
      rw [← hQd] at hQ
      simp only
      rw [← random_eq, ← hQd]
      split
      · next hp =>
        have hw : ∀ us, weigh G ev (rest k count ((u, g) :: us) x ev) = ev.p * (k.S Q * Q * (k.Qmax - k.Qmin) /
            (2 * kOf ev.v ^ 2)) * G (k.E Q + g * k.W Q) Q := by
          intro us
          obtain ⟨ev', e1, -, ⟨t1, t2⟩, e3⟩ := rest_hit k hv (us := us) (x := x) (show count < 99 by omega) hQd rfl hQ hp
          rw [e1]
          unfold weigh
          simp only
          rw [t1, t2, e3, Real.sqrt_sq hQ]
        simp only [hw]
        clear step ih ih'
        generalize n + 1 = m
        induction m with
        | zero => rfl
        | succ m ihm =>
          show pairMean ν _ = _
          unfold pairMean
          simp only [ihm]
          simp [mean_const]
      · next hp =>
        simp only [rest_miss k hv (show count < 100 by omega) hQd rfl hQ hp]
    rw [this, ih', Finset.sum_range_succ']
    simp only [pow_succ', ← Finset.mul_sum]
    ring

/-! ### The laws -/

instance : IsProbabilityMeasure normalLaw := by unfold normalLaw; infer_instance
instance : IsProbabilityMeasure lorentzLaw := by unfold lorentzLaw; infer_instance

theorem normalLaw_integral (f : ℝ → ℝ) : ∫ x, f x ∂normalLaw = normalMean f := by
  unfold normalLaw normalMean
  rw [ProbabilityTheory.integral_gaussianReal_eq_integral_smul one_ne_zero]
  congr 1
  funext x
  rw [ProbabilityTheory.gaussianPDFReal, smul_eq_mul, sub_zero]
  push_cast
  rw [mul_one, mul_one]
  ring

theorem lorentzLaw_integral (f : ℝ → ℝ) : ∫ x, f x ∂lorentzLaw = lorentzMean f := by
  unfold lorentzLaw lorentzMean
  rw [ProbabilityTheory.cauchyMeasure_of_scale_ne_zero 0 one_ne_zero,
    integral_withDensity_eq_integral_toReal_smul (ProbabilityTheory.measurable_cauchyPDF _ _)
      (Filter.Eventually.of_forall fun x => by rw [ProbabilityTheory.cauchyPDF_def]; exact ENNReal.ofReal_lt_top)]
  congr 1
  funext x
  rw [ProbabilityTheory.cauchyPDF_def, ENNReal.toReal_ofReal (ProbabilityTheory.cauchyPDF_pos 0 one_ne_zero x).le,
    ProbabilityTheory.cauchyPDFReal_def, smul_eq_mul]
  push_cast
  rw [sub_zero]
  have := Real.pi_pos
  field_simp
  ring

theorem normalLaw_open : Measure.IsOpenPosMeasure normalLaw :=
  (ProbabilityTheory.gaussianReal_absolutelyContinuous' 0 one_ne_zero).isOpenPosMeasure

theorem lorentzLaw_open : Measure.IsOpenPosMeasure lorentzLaw := by
  unfold lorentzLaw
  rw [ProbabilityTheory.cauchyMeasure_of_scale_ne_zero 0 one_ne_zero]
  refine Measure.AbsolutelyContinuous.isOpenPosMeasure (μ := volume) ?_
  refine withDensity_absolutelyContinuous' (ProbabilityTheory.measurable_cauchyPDF _ _).aemeasurable ?_
  filter_upwards with x
  rw [ProbabilityTheory.cauchyPDF_def, Ne, ENNReal.ofReal_eq_zero, not_le]
  exact ProbabilityTheory.cauchyPDF_pos 0 one_ne_zero x

/-- the mean over pairs is positive if the integrand is not negative and positive on an open set for each number -/
theorem pairMean_pos {ν : Measure ℝ} [IsProbabilityMeasure ν] (ho : Measure.IsOpenPosMeasure ν) {h : ℝ × ℝ → ℝ}
    (hm : Measurable h) {C : ℝ} (hC : ∀ z : ℝ × ℝ, 0 < z.1 → z.1 ≤ 1 → |h z| ≤ C)
    (h0 : ∀ z : ℝ × ℝ, 0 < z.1 → z.1 < 1 → 0 ≤ h z)
    (hp : ∀ u : ℝ, 0 < u → u < 1 → ∃ U : Set ℝ, IsOpen U ∧ U.Nonempty ∧ ∀ g ∈ U, 0 < h (u, g)) :
    0 < pairMean ν (fun u g => h (u, g)) := by
  have hI := pair_integrable (ν := ν) hm hC
  unfold pairMean mean
  apply intervalIntegral.intervalIntegral_pos_of_pos_on _ _ zero_lt_one
  · rw [intervalIntegrable_iff_integrableOn_Ioc_of_le zero_le_one]
    exact hI.integral_prod_left
  · intro u hu
    obtain ⟨U, hU, hne, hpos⟩ := hp u hu.1 hu.2
    have hi : Integrable (fun g => h (u, g)) ν := by
      refine Integrable.of_bound (hm.comp (measurable_const.prodMk measurable_id)).aestronglyMeasurable C ?_
      exact Filter.Eventually.of_forall fun g => hC (u, g) hu.1 hu.2.le
    rw [integral_pos_iff_support_of_nonneg (fun g => h0 (u, g) hu.1 hu.2) hi]
    refine lt_of_lt_of_le (hU.measure_pos ν hne) (measure_mono fun g hg => ?_)
    exact (hpos g hg).ne'

theorem miss_pos {k : Line} {G : ℝ → ℝ → ℝ} (hk : Regular k G) {ν : Measure ℝ} [IsProbabilityMeasure ν]
    (ho : Measure.IsOpenPosMeasure ν) (hW : ∀ Q, 0 < k.W Q) (ev : Ev) : 0 < lineMiss k ν ev := by
  classical
  obtain ⟨⟨h0, h1⟩, mE, mS, mW, -, -, -, -⟩ := hk
  have mQ : Measurable fun z : ℝ × ℝ => k.Qmin + z.1 * (k.Qmax - k.Qmin) := by fun_prop
  have mEQ : Measurable fun z : ℝ × ℝ => k.E (k.Qmin + z.1 * (k.Qmax - k.Qmin)) + z.2 * k.W (k.Qmin + z.1 * (k.Qmax - k.Qmin)) :=
    (mE.comp mQ).add (measurable_snd.mul (mW.comp mQ))
  have mA : MeasurableSet {z : ℝ × ℝ | Possible ev.v (k.Qmin + z.1 * (k.Qmax - k.Qmin))
      (k.E (k.Qmin + z.1 * (k.Qmax - k.Qmin)) + z.2 * k.W (k.Qmin + z.1 * (k.Qmax - k.Qmin)))} :=
    (mQ.prodMk mEQ) (possible_measurable ev.v)
  have := pairMean_pos (ν := ν) ho (h := fun z => if Possible ev.v (k.Qmin + z.1 * (k.Qmax - k.Qmin))
      (k.E (k.Qmin + z.1 * (k.Qmax - k.Qmin)) + z.2 * k.W (k.Qmin + z.1 * (k.Qmax - k.Qmin))) then (0 : ℝ) else 1)
    (Measurable.ite mA measurable_const measurable_const) (C := 1) (fun z _ _ => by split <;> norm_num)
    (fun z _ _ => by split <;> norm_num) ?_
  · exact this
  · intro u _ _
    refine ⟨Ioi ((energy ev.v - k.E (k.Qmin + u * (k.Qmax - k.Qmin))) / k.W (k.Qmin + u * (k.Qmax - k.Qmin))), isOpen_Ioi,
      nonempty_Ioi, fun g hg => ?_⟩
    simp only
    rw [if_neg]
    · exact one_pos
    · intro hp
      rw [mem_Ioi, div_lt_iff₀ (hW _)] at hg
      linarith [hp.1]

theorem kFinal_continuous (v : V3 ℝ) : Continuous (kFinal v) := by
  unfold kFinal
  fun_prop

theorem truth_pos {k : Line} {G : ℝ → ℝ → ℝ} (hk : Regular k G) {ν : Measure ℝ} [IsProbabilityMeasure ν]
    (ho : Measure.IsOpenPosMeasure ν) (hW : ∀ Q, 0 < k.W Q) (hS : ∀ Q, 0 < k.S Q) (hG : ∀ E Q, 0 ≤ G E Q)
    (hG1 : ∀ E Q, 0 < Q → 0 < G E Q) {ev : Ev} (hv : ev.v ≠ 0) (hp : 0 < ev.p) (hQ : k.Qmax ≤ 2 * kOf ev.v) :
    0 < lineTruth k ν G ev := by
  classical
  have hki := kOf_pos hv
  obtain ⟨⟨h0, h1⟩, mE, mS, mW, ⟨CS, bS⟩, mG, ⟨CG, bG⟩, -⟩ := hk
  have mQ : Measurable fun z : ℝ × ℝ => k.Qmin + z.1 * (k.Qmax - k.Qmin) := by fun_prop
  have mEQ : Measurable fun z : ℝ × ℝ => k.E (k.Qmin + z.1 * (k.Qmax - k.Qmin)) + z.2 * k.W (k.Qmin + z.1 * (k.Qmax - k.Qmin)) :=
    (mE.comp mQ).add (measurable_snd.mul (mW.comp mQ))
  have mA : MeasurableSet {z : ℝ × ℝ | Possible ev.v (k.Qmin + z.1 * (k.Qmax - k.Qmin))
      (k.E (k.Qmin + z.1 * (k.Qmax - k.Qmin)) + z.2 * k.W (k.Qmin + z.1 * (k.Qmax - k.Qmin)))} :=
    (mQ.prodMk mEQ) (possible_measurable ev.v)
  have key := pairMean_pos (ν := ν) ho (h := fun z => if Possible ev.v (k.Qmin + z.1 * (k.Qmax - k.Qmin))
      (k.E (k.Qmin + z.1 * (k.Qmax - k.Qmin)) + z.2 * k.W (k.Qmin + z.1 * (k.Qmax - k.Qmin))) then
      k.S (k.Qmin + z.1 * (k.Qmax - k.Qmin)) * (k.Qmin + z.1 * (k.Qmax - k.Qmin)) *
        G (k.E (k.Qmin + z.1 * (k.Qmax - k.Qmin)) + z.2 * k.W (k.Qmin + z.1 * (k.Qmax - k.Qmin))) (k.Qmin + z.1 * (k.Qmax - k.Qmin)) else 0)
    (Measurable.ite mA (((mS.comp mQ).mul mQ).mul (mG.comp (mEQ.prodMk mQ))) measurable_const) (C := CS * k.Qmax * CG) ?_ ?_ ?_
  · unfold lineTruth
    apply mul_pos (by positivity)
    rw [← mean_affine, mean_mul]
    exact mul_pos (by linarith) key
  · intro z hz0 hz1
    have q0 : 0 ≤ k.Qmin + z.1 * (k.Qmax - k.Qmin) := by nlinarith
    have q1 : k.Qmin + z.1 * (k.Qmax - k.Qmin) ≤ k.Qmax := by nlinarith
    have hCS : 0 ≤ CS := (abs_nonneg _).trans (bS 0)
    have hCG : 0 ≤ CG := (abs_nonneg _).trans (bG 0 0)
    have hQm : 0 ≤ k.Qmax := by linarith
    split
    · rw [abs_mul, abs_mul, abs_of_nonneg q0]
      gcongr
      · exact bS _
      · exact bG _ _
    · rw [abs_zero]; positivity
  · intro z hz0 hz1
    have q0 : 0 ≤ k.Qmin + z.1 * (k.Qmax - k.Qmin) := by nlinarith
    split
    · exact mul_nonneg (mul_nonneg (hS _).le q0) (hG _ _)
    · exact le_rfl
  · intro u hu0 hu1
    obtain ⟨Q, hQd⟩ : ∃ Q, Q = k.Qmin + u * (k.Qmax - k.Qmin) := ⟨_, rfl⟩
    have q0 : 0 < Q := by rw [hQd]; nlinarith
    have q1 : Q < 2 * kOf ev.v := by rw [hQd]; nlinarith
    have hcont : Continuous fun g => kFinal ev.v (k.E Q + g * k.W Q) :=
      (kFinal_continuous ev.v).comp (by fun_prop)
    refine ⟨{g | k.E Q + g * k.W Q < energy ev.v} ∩ ({g | |kOf ev.v - kFinal ev.v (k.E Q + g * k.W Q)| < Q} ∩
      {g | Q < kOf ev.v + kFinal ev.v (k.E Q + g * k.W Q)}), ?_, ⟨-k.E Q / k.W Q, ?_⟩, ?_⟩
    · refine (isOpen_lt (by fun_prop) continuous_const).inter ((isOpen_lt ?_ continuous_const).inter
        (isOpen_lt continuous_const ?_))
      · exact (continuous_const.sub hcont).abs
      · exact continuous_const.add hcont
    · have e : k.E Q + -k.E Q / k.W Q * k.W Q = 0 := by
        have := (hW Q).ne'
        field_simp
        ring
      have hen : 0 < energy ev.v := by
        unfold energy
        have := length_pos hv
        rw [← length_mul_self]
        have := vsq2e_pos
        positivity
      refine ⟨?_, ?_, ?_⟩
      · show k.E Q + -k.E Q / k.W Q * k.W Q < energy ev.v
        rw [e]; exact hen
      · show |kOf ev.v - kFinal ev.v (k.E Q + -k.E Q / k.W Q * k.W Q)| < Q
        rw [e, kFinal_zero, sub_self, abs_zero]; exact q0
      · show Q < kOf ev.v + kFinal ev.v (k.E Q + -k.E Q / k.W Q * k.W Q)
        rw [e, kFinal_zero]; linarith
    · rintro g ⟨g1, g2, g3⟩
      simp only [← hQd]
      rw [if_pos ⟨g1, le_of_lt g1, le_of_lt g2, le_of_lt g3⟩]
      exact mul_pos (mul_pos (hS _) q0) (hG1 _ _ q0)

end Verif.Broad
