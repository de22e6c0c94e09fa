import Verif.Lemmas.Broad
/-!
Property theorems C141 to C143: broadened dispersion curves.
-/

namespace Verif.Broad
open Solid Flight Homog Kinem Sampling MeasureTheory Set

/-- the normal distribution is the one of the random numbers of C138, the Lorentz distribution that of C139 -/
theorem C141_laws {f : ℝ → ℝ} (hf : Measurable f) {C : ℝ} (hC : ∀ x, |f x| ≤ C) :
    (∀ n, meanN (2 * n) (fun us => observe f (normalRand us)) = (1 - (1 - Real.pi / 4) ^ n) * ∫ x, f x ∂normalLaw) ∧
    mean (fun u => f (lorentzRand u)) = ∫ x, f x ∂lorentzLaw := by
  refine ⟨fun n => ?_, by rw [lorentzLaw_integral, lorentz_mean]⟩
  rw [normalLaw_integral]
  induction n with
  | zero => simp [meanN, normalRand, observe]
  | succ n ih => rw [normal_step hf hC, ih]; ring

/-- example: the sine -/
example : Measurable Real.sin ∧ ∀ x, |Real.sin x| ≤ 1 := ⟨Real.measurable_sin, Real.abs_sin_le_one⟩

/-- C141: whatever the random numbers are, the kernel returns the incident neutron or one whose momentum transfer is in the
range and whose energy transfer is that of the curve plus the deviation drawn with it; the rest of the state is kept -/
theorem C141_transfer (k : Line) (hr : 0 ≤ k.Qmin ∧ k.Qmin < k.Qmax) {ev : Ev} (hv : ev.v ≠ 0) {us : List (ℝ × ℝ)}
    (hu : ∀ z ∈ us, 0 ≤ z.1 ∧ z.1 ≤ 1) (x : ℝ) :
    k.S' us x ev = some ev ∨ ∃ z ∈ us, ∃ Q E ev', Q = k.Qmin + z.1 * (k.Qmax - k.Qmin) ∧ E = k.E Q + z.2 * k.W Q ∧
      k.S' us x ev = some ev' ∧ SamePlace ev ev' ∧ Transfer ev ev' Q E ∧
      ev'.p = ev.p * (k.S Q * Q * (k.Qmax - k.Qmin) / (2 * kOf ev.v ^ 2)) := by
  by_cases h : k.Emin ≤ energy ev.v
  · rw [S'_eq k us x ev h]
    exact rest_cases k hv hr us 0 hu
  · left
    unfold Line.S'
    simp only [v2E_length, if_pos (not_le.1 h)]

/-- the curve of the examples: no energy transfer, but a width -/
noncomputable def flat : Line := ⟨fun _ => 0, fun _ => 1, fun _ => 1, v2k / 2, 2 * v2k⟩

/-- example -/
example : 0 ≤ flat.Qmin ∧ flat.Qmin < flat.Qmax ∧ evz.v ≠ 0 := by
  have := v2k_pos
  exact ⟨by unfold flat; positivity, by unfold flat; simp only; linarith, evz_ne⟩

theorem Emin_const (e s w a b : ℝ) : Line.Emin ⟨fun _ => e, fun _ => s, fun _ => w, a, b⟩ = e - w * 3 := by
  unfold Line.Emin
  have : ∀ n : Nat, ((List.range n).map fun _ => e - w * 3).foldl min (e - w * 3) = e - w * 3 := by
    intro n
    induction n with
    | zero => rfl
    | succ n ih => rw [List.range_succ, List.map_append, List.foldl_append, ih]; simp
  exact this 99

/-- C142: the expectation of every observable of the transfer is the intensity of the broadened curve, divided by the
probability that a round succeeds (up to the 99th power of the probability to fail) -/
theorem C142_expectation {k : Line} {G : ℝ → ℝ → ℝ} (hk : Regular k G) (ν : Measure ℝ) [IsProbabilityMeasure ν] {ev : Ev}
    (hv : ev.v ≠ 0) (he : k.Emin ≤ energy ev.v) (x : ℝ) :
    pairsMean ν 100 (fun us => weigh G ev (k.S' us x ev)) =
      lineTruth k ν G ev * ∑ i ∈ Finset.range 99, lineMiss k ν ev ^ i := by
  simp only [S'_eq k _ x ev he]
  exact rest_mean hk ν hv x 99 0 rfl

open Classical in
/-- the observable of the examples: 1 if momentum is transferred -/
noncomputable def moved (_ Q : ℝ) : ℝ := if Q = 0 then 0 else 1

theorem moved_spec : Measurable (fun z : ℝ × ℝ => moved z.1 z.2) ∧ (∃ C, ∀ E Q, |moved E Q| ≤ C) ∧ moved 0 0 = 0 ∧
    (∀ E Q, 0 ≤ moved E Q) ∧ ∀ E Q, 0 < Q → 0 < moved E Q := by
  unfold moved
  refine ⟨Measurable.ite (measurable_snd (measurableSet_singleton 0)) measurable_const measurable_const, ⟨1, ?_⟩, by simp,
    ?_, ?_⟩
  · intro E Q; split <;> norm_num
  · intro E Q; split <;> norm_num
  · intro E Q h; rw [if_neg h.ne']; exact one_pos

/-- example: the hypotheses of `C142_expectation` -/
theorem flat_regular : Regular flat moved := by
  have hk := v2k_pos
  obtain ⟨m1, m2, m3, -, -⟩ := moved_spec
  refine ⟨⟨?_, ?_⟩, measurable_const, measurable_const, measurable_const, ⟨1, ?_⟩, m1, m2, m3⟩
  · unfold flat; positivity
  · unfold flat; simp only; linarith
  · intro Q; unfold flat; norm_num

theorem flat_Emin : flat.Emin ≤ energy evz.v := by
  unfold flat
  rw [Emin_const, evz_energy]
  linarith [vsq2e_pos]

/-- example: it can be applied to both distributions -/
example : pairsMean normalLaw 100 (fun us => weigh moved evz (flat.S' us 0 evz)) =
    lineTruth flat normalLaw moved evz * ∑ i ∈ Finset.range 99, lineMiss flat normalLaw evz ^ i :=
  C142_expectation flat_regular normalLaw evz_ne flat_Emin 0

/-- C142, partial: the ratio of the expectations of two observables is right.  Missing: the expectations themselves, see
`C142_weight_false`. -/
theorem C142_shape_partial {k : Line} {G H : ℝ → ℝ → ℝ} (hG : Regular k G) (hH : Regular k H) (ν : Measure ℝ)
    [IsProbabilityMeasure ν] {ev : Ev} (hv : ev.v ≠ 0) (he : k.Emin ≤ energy ev.v) (x : ℝ) :
    pairsMean ν 100 (fun us => weigh G ev (k.S' us x ev)) * lineTruth k ν H ev =
      pairsMean ν 100 (fun us => weigh H ev (k.S' us x ev)) * lineTruth k ν G ev := by
  rw [C142_expectation hG ν hv he, C142_expectation hH ν hv he]
  ring

/-- C142 is false for every line with a width and every positive observable: the expected weight is too large, because a
round that fails is repeated and this is not accounted for -/
theorem C142_weight_false {k : Line} {G : ℝ → ℝ → ℝ} (hk : Regular k G) (hW : ∀ Q, 0 < k.W Q) (hS : ∀ Q, 0 < k.S Q)
    (hG : ∀ E Q, 0 ≤ G E Q) (hG1 : ∀ E Q, 0 < Q → 0 < G E Q) {ev : Ev} (hv : ev.v ≠ 0) (hp : 0 < ev.p)
    (he : k.Emin ≤ energy ev.v) (hQ : k.Qmax ≤ 2 * kOf ev.v) (x : ℝ) :
    lineTruth k normalLaw G ev < pairsMean normalLaw 100 (fun us => weigh G ev (k.S' us x ev)) ∧
    lineTruth k lorentzLaw G ev < pairsMean lorentzLaw 100 (fun us => weigh G ev (k.S' us x ev)) := by
  have key : ∀ (ν : Measure ℝ) [IsProbabilityMeasure ν], Measure.IsOpenPosMeasure ν →
      lineTruth k ν G ev < pairsMean ν 100 (fun us => weigh G ev (k.S' us x ev)) := by
    intro ν _ ho
    have t := truth_pos hk (ν := ν) ho hW hS hG hG1 hv hp hQ
    have m := miss_pos hk (ν := ν) ho hW ev
    rw [C142_expectation hk ν hv he, Finset.sum_range_succ', Finset.sum_range_succ', pow_zero]
    have : 0 ≤ ∑ i ∈ Finset.range 97, lineMiss k ν ev ^ (i + 1 + 1) := Finset.sum_nonneg fun i _ => by positivity
    have h1 : 1 < ∑ i ∈ Finset.range 97, lineMiss k ν ev ^ (i + 1 + 1) + lineMiss k ν ev ^ (0 + 1) + 1 := by
      rw [zero_add, pow_one]; linarith
    exact lt_mul_of_one_lt_right t h1
  exact ⟨key normalLaw normalLaw_open, key lorentzLaw lorentzLaw_open⟩

/-- the witness -/
theorem C142_flat_false : lineTruth flat normalLaw moved evz <
    pairsMean normalLaw 100 (fun us => weigh moved evz (flat.S' us 0 evz)) := by
  obtain ⟨-, -, -, m4, m5⟩ := moved_spec
  exact (C142_weight_false flat_regular (fun _ => one_pos) (fun _ => one_pos) m4 m5 evz_ne one_pos flat_Emin
    (by rw [evz_k]; exact le_rfl) 0).1

/-- C143, partial: if one of the first 99 rounds is possible and the energy of the neutron is above the limit, then the
neutron is scattered with the transfer of the first round that is possible.  Missing: see `C143_slow_false` and
`C143_last_false`. -/
theorem C143_hit_partial (k : Line) (hr : 0 ≤ k.Qmin ∧ k.Qmin < k.Qmax) {ev : Ev} (hv : ev.v ≠ 0)
    (he : k.Emin ≤ energy ev.v) {pre post : List (ℝ × ℝ)} (hl : pre.length < 99) {u g Q E : ℝ} (hu : 0 ≤ u ∧ u ≤ 1)
    (hQ : Q = k.Qmin + u * (k.Qmax - k.Qmin)) (hE : E = k.E Q + g * k.W Q)
    (hpre : ∀ z ∈ pre, 0 ≤ z.1 ∧ z.1 ≤ 1 ∧ ¬ Possible ev.v (k.Qmin + z.1 * (k.Qmax - k.Qmin))
      (k.E (k.Qmin + z.1 * (k.Qmax - k.Qmin)) + z.2 * k.W (k.Qmin + z.1 * (k.Qmax - k.Qmin))))
    (hp : Possible ev.v Q E) (x : ℝ) :
    ∃ ev', k.S' (pre ++ (u, g) :: post) x ev = some ev' ∧ SamePlace ev ev' ∧ Transfer ev ev' Q E ∧
      ev'.p = ev.p * (k.S Q * Q * (k.Qmax - k.Qmin) / (2 * kOf ev.v ^ 2)) := by
  rw [S'_eq k _ x ev he, rest_skip k hv pre 0 (by omega)]
  · apply rest_hit k hv (by omega) (by rw [hQ, random_eq]) hE ?_ hp
    rw [hQ]; nlinarith [hr.1, hr.2, mul_nonneg hu.1 (sub_pos.2 hr.2).le]
  · intro z hz
    obtain ⟨h0, h1, h2⟩ := hpre z hz
    rw [random_eq]
    exact ⟨by nlinarith [hr.1, hr.2, mul_nonneg h0 (sub_pos.2 hr.2).le], h2⟩

/-- example: the first round of the flat curve is possible if it draws no deviation -/
example : Possible evz.v (flat.Qmin + 1 / 2 * (flat.Qmax - flat.Qmin)) 0 := by
  have hk := v2k_pos
  unfold Possible Closes flat
  rw [kFinal_zero, evz_k, evz_energy, sub_self, abs_zero]
  have := vsq2e_pos
  exact ⟨this, this.le, by simp only; linarith, by simp only; linarith⟩

/-- C143 is false: a neutron with less energy than the curve minus three widths passes with its full weight, although the
broadened curve has intensity there -/
theorem C143_slow_false : ∃ (k : Line) (ev : Ev), ev.v ≠ 0 ∧ 0 < ev.p ∧ Regular k moved ∧
    0 < lineTruth k lorentzLaw moved ev ∧ 0 < lineTruth k normalLaw moved ev ∧ ∀ us x, k.S' us x ev = some ev := by
  have hk := v2k_pos
  obtain ⟨m1, m2, m3, m4, m5⟩ := moved_spec
  have hreg : Regular ⟨fun _ => 5, fun _ => 1, fun _ => 1, v2k / 2, 2 * v2k⟩ moved := by
    refine ⟨⟨?_, ?_⟩, measurable_const, measurable_const, measurable_const, ⟨1, ?_⟩, m1, m2, m3⟩
    · positivity
    · simp only; linarith
    · intro Q; norm_num
  refine ⟨⟨fun _ => 5, fun _ => 1, fun _ => 1, v2k / 2, 2 * v2k⟩, evz, evz_ne, one_pos, hreg, ?_, ?_, ?_⟩
  · exact truth_pos hreg lorentzLaw_open (fun _ => one_pos) (fun _ => one_pos) m4 m5 evz_ne one_pos (by rw [evz_k])
  · exact truth_pos hreg normalLaw_open (fun _ => one_pos) (fun _ => one_pos) m4 m5 evz_ne one_pos (by rw [evz_k])
  · intro us x
    unfold Line.S'
    have := vsq2e_lt
    simp only [Emin_const, v2E_length, evz_energy]
    rw [if_pos (by linarith)]

/-- C143 is false: a success in the last of the 100 rounds counts as a failure, and the neutron passes with its full weight -/
theorem C143_last_false : ∃ (k : Line) (ev : Ev) (us : List (ℝ × ℝ)) (u g : ℝ), ev.v ≠ 0 ∧ 0 < ev.p ∧
    (0 ≤ k.Qmin ∧ k.Qmin < k.Qmax) ∧ k.Emin ≤ energy ev.v ∧ us.length = 99 ∧ 0 ≤ u ∧ u ≤ 1 ∧
    Possible ev.v (k.Qmin + u * (k.Qmax - k.Qmin)) (k.E (k.Qmin + u * (k.Qmax - k.Qmin)) + g * k.W (k.Qmin + u * (k.Qmax - k.Qmin))) ∧
    ∀ x, k.S' (us ++ [(u, g)]) x ev = some ev := by
  have hk := v2k_pos
  have hr := flat_regular.range
  refine ⟨flat, evz, List.replicate 99 (1 / 2, 2), 1 / 2, 0, evz_ne, one_pos, hr, flat_Emin, by simp, by norm_num, by norm_num,
    ?_, ?_⟩
  · unfold Possible Closes flat
    simp only [zero_mul, add_zero]
    rw [kFinal_zero, evz_k, evz_energy, sub_self, abs_zero]
    have := vsq2e_pos
    exact ⟨this, this.le, by linarith, by linarith⟩
  · intro x
    rw [S'_eq flat _ x evz flat_Emin, rest_skip flat evz_ne _ 0 (by simp)]
    · rw [List.length_replicate]; exact rest_last flat
    · intro z hz
      rw [List.eq_of_mem_replicate hz]
      refine ⟨hr.1.trans (random_mem (by norm_num) (by norm_num) hr.2.le).1, fun h => ?_⟩
      have h1 := h.1
      rw [evz_energy] at h1
      have := vsq2e_lt
      unfold flat at h1
      simp only at h1
      linarith

end Verif.Broad
