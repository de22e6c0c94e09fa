import Verif.Lemmas.Ikeda
/-!
Property theorems about the moderators with an analytic pulse: C309, C310, C311, C312, C313, C314.
-/

namespace Verif.Ikeda
open Classical Homog

/-! ### C309 the shape of the pulse -/

/-- **C309**: the density of the emission time in both components is that of Ikeda and Carpenter, it is not negative, its integral is the distribution function of
`SNS_source_analytic`, and the whole is one. -/
theorem C309_pulse (c : IC) (ha : 0 < c.a) (hb : 0 < c.b) (hab : c.a ≠ c.b) (h0 : 0 ≤ c.R) (h1 : c.R ≤ 1) :
    (∀ t, c.fsp t = pulse c.a c.b c.R c.t0 t) ∧ (∀ t, 0 ≤ c.fsp t) ∧
    (∀ t, c.cumA t = part (pulse c.a c.b c.R c.t0) (10 * c.t0) t) ∧
    (∀ t, 10 * c.t0 ≤ t → c.cum4 (t - 10 * c.t0) = part (pulse c.a c.b c.R c.t0) (10 * c.t0) t) ∧
    Filter.Tendsto (fun t => part (pulse c.a c.b c.R c.t0) (10 * c.t0) t) Filter.atTop (nhds 1) := by
  have hg : Good c := ⟨ha, hb, hab⟩
  have hcum : ∀ t, part (pulse c.a c.b c.R c.t0) (10 * c.t0) t = c.cum4 (c.late t) := by
    intro t
    rw [part_pulse hg, cumA_eq hg, cumA_eq hg, late_of_ge (t := 10 * c.t0) le_rfl, cum4_zero hg, sub_zero]
  refine ⟨fun t => (pulse_eq hg t).symm ▸ fsp_eq c t, fun t => ?_, fun t => ?_, fun t ht => ?_, ?_⟩
  · rw [fsp_eq]
    exact core_nonneg hg h0 h1 (late_nonneg c t)
  · rw [hcum, cumA_eq hg]
  · rw [hcum, late_of_le ht]
  · have hx : ∀ k : ℝ, 0 < k → ∀ n : ℕ, Filter.Tendsto (fun t : ℝ => t ^ n * Real.exp (-k * t)) Filter.atTop (nhds 0) := by
      intro k hk n
      have h2 := (Real.tendsto_pow_mul_exp_neg_atTop_nhds_zero n).comp (Filter.tendsto_id.const_mul_atTop hk)
      have h3 := h2.const_mul ((k ^ n)⁻¹)
      simp only [mul_zero] at h3
      refine h3.congr fun t => ?_
      simp only [Function.comp, id]
      rw [mul_pow, ← neg_mul]
      have : k ^ n ≠ 0 := (pow_pos hk n).ne'
      field_simp
    have hlim : Filter.Tendsto c.cum4 Filter.atTop (nhds 1) := by
      have e0 := hx c.a ha 0
      have e1 := hx c.a ha 1
      have e2 := hx c.a ha 2
      have eb := hx c.b hb 0
      have key : c.cum4 = fun t => 1 - (1 - c.R) * (0.5 * c.a ^ 2 * (t ^ 2 * Real.exp (-c.a * t)) + c.a * (t ^ 1 * Real.exp (-c.a * t)) +
          t ^ 0 * Real.exp (-c.a * t)) - c.R * c.delta * (t ^ 0 * Real.exp (-c.b * t) - c.b / c.a * ((1 + c.lam + c.lam * c.lam) *
            (t ^ 0 * Real.exp (-c.a * t)) + (c.lam * c.a + c.lam * c.lam * c.a) * (t ^ 1 * Real.exp (-c.a * t)) +
            c.lam * c.lam * (0.5 * c.a ^ 2) * (t ^ 2 * Real.exp (-c.a * t)))) := by
        funext t
        unfold IC.cum4 IC.gt
        ring
      rw [key]
      have := ((tendsto_const_nhds (x := (1 : ℝ))).sub ((((e2.const_mul (0.5 * c.a ^ 2)).add (e1.const_mul c.a)).add e0).const_mul (1 - c.R))).sub
        ((eb.sub ((((e0.const_mul (1 + c.lam + c.lam * c.lam)).add (e1.const_mul (c.lam * c.a + c.lam * c.lam * c.a))).add
          (e2.const_mul (c.lam * c.lam * (0.5 * c.a ^ 2)))).const_mul (c.b / c.a))).const_mul (c.R * c.delta))
      simpa using this
    have hl : Filter.Tendsto c.late Filter.atTop Filter.atTop := by
      refine (Filter.tendsto_atTop_add_const_right Filter.atTop (-(10 * c.t0)) Filter.tendsto_id).congr' ?_
      filter_upwards [Filter.eventually_ge_atTop (10 * c.t0)] with t ht
      rw [late_of_le ht]
      simp [sub_eq_add_neg]
    exact (hlim.comp hl).congr fun t => (hcum t).symm

/-- parameters of a cold moderator, in microseconds -/
example : (0 : ℝ) < (⟨0.1, 0.02, 0.7, 1⟩ : IC).a ∧ (0 : ℝ) < (⟨0.1, 0.02, 0.7, 1⟩ : IC).b ∧ (⟨0.1, 0.02, 0.7, 1⟩ : IC).a ≠ (⟨0.1, 0.02, 0.7, 1⟩ : IC).b ∧
    (⟨0.1, 0.02, 0.7, 1⟩ : IC).R ≤ 1 := by norm_num

/-! ### C310 the time in the short pulse mode -/

/-- **C310**, what holds in `SNS_source_analytic`: if the search ends, the time is in the range, the part of the pulse before it is the random number up to 1e-4, and
the weight is the part of the pulse in the range.  Missing: the search ends. -/
theorem C310_partial (c : IC) (ha : 0 < c.a) (hb : 0 < c.b) (hab : c.a ≠ c.b) (tmin tmax r t p : ℝ) (hr0 : 0 ≤ r) (hr1 : r ≤ 1) (hm : tmin ≤ tmax)
    (h : c.spFindA tmin tmax r = .ok (t, p)) :
    Quantile (pulse c.a c.b c.R c.t0) tmin tmax r 1e-4 t ∧ p = part (pulse c.a c.b c.R c.t0) tmin tmax := by
  have hg : Good c := ⟨ha, hb, hab⟩
  unfold IC.spFindA at h
  rw [if_neg hg.not_bad] at h
  by_cases he : c.cumA tmax = c.cumA tmin
  · rw [if_pos he] at h
    simp at h
  · rw [if_neg he] at h
    dsimp only at h
    cases hs : search (fun t => (c.cumA t - c.cumA tmin) * (1 / (c.cumA tmax - c.cumA tmin))) 1e-4 r checkSp 52 0 tmin 0 tmax 1 with
    | error e => rw [hs] at h; simp at h
    | ok s =>
      rw [hs] at h
      simp only [Except.ok.injEq, Prod.mk.injEq] at h
      obtain ⟨rfl, rfl⟩ := h
      have hc : ∀ n d, checkSp n d = .leave → |d| ≤ (1e-4 : ℝ) := by
        intro n d hd
        unfold checkSp at hd
        split_ifs at hd
      obtain ⟨b1, b2, b3⟩ := search_ok hc le_rfl one_pos _ _ _ _ _ _ _ hm hr0 hr1 (Or.inl rfl) (Or.inl rfl) hs
      refine ⟨⟨b1, b2, ?_⟩, (part_pulse hg _ _).symm⟩
      rw [part_pulse hg, part_pulse hg, ← mul_one_div]
      exact b3

/-- the number that belongs to the middle of the range is found -/
example : ∃ r t p, plain.spFindA 0 1 r = .ok (t, p) ∧ t = 1 / 2 ∧ 0 ≤ r ∧ r ≤ 1 := by
  have hz := cum4_zero plain_good
  have hl0 : plain.late 0 = 0 := late_of_ge (by norm_num [plain])
  have hl1 : plain.late 1 = 1 := by rw [late_of_le (by norm_num [plain])]; norm_num [plain]
  have hlh : plain.late (1 / 2) = 1 / 2 := by rw [late_of_le (by norm_num [plain])]; norm_num [plain]
  have h1 := plain_one
  have hb := plainF_bounds (g := 1 / 2) (by norm_num) le_rfl
  have hne : plain.cumA 1 ≠ plain.cumA 0 := by
    rw [cumA_eq plain_good, cumA_eq plain_good, hl0, hl1, hz]
    linarith
  set F : ℝ → ℝ := fun t => (plain.cumA t - plain.cumA 0) * (1 / (plain.cumA 1 - plain.cumA 0)) with hF
  have hs := search_first F (eps := 1e-4) (by norm_num) (check := checkSp) (fun d => by unfold checkSp; norm_num) 51 0 0 1 1
  have hval : F (0.5 * (1 + 0)) = plainF (1 - 1 / 2) := by
    rw [hF]
    dsimp only
    rw [show (0.5 : ℝ) * (1 + 0) = 1 / 2 by norm_num, cumA_eq plain_good, cumA_eq plain_good, cumA_eq plain_good, hl0, hl1, hlh, plainF]
    norm_num
  refine ⟨F (0.5 * (1 + 0)), 1 / 2, plain.cumA 1 - plain.cumA 0, ?_, rfl, ?_, ?_⟩
  · unfold IC.spFindA
    rw [if_neg plain_good.not_bad, if_neg hne]
    dsimp only
    rw [← hF, hs]
    dsimp only
    rw [show (0.5 : ℝ) * (1 + 0) = 1 / 2 by norm_num]
  · rw [hval]
    have : 0 ≤ plain.cum4 (1 / 2) := by
      have := cum4_mono plain_good le_rfl (by norm_num [plain]) (a := 0) (b := 1 / 2) (by simp) (by norm_num) (by norm_num)
      rwa [hz] at this
    unfold plainF
    rw [hz, show (1 : ℝ) - 1 / 2 = 1 / 2 by norm_num, sub_zero, sub_zero]
    have : 0 < plain.cum4 1 := by linarith
    positivity
  · rw [hval]
    norm_num at hb ⊢
    linarith [hb.2]

/-- **C310**, what holds in `SNS_source4`: the same for the time if the random number is at most the part of the pulse before the end of the range, which the code
takes for the value of the normalised function at the end. -/
theorem C310_four_partial (c : IC) (ha : 0 < c.a) (hb : 0 < c.b) (hab : c.a ≠ c.b) (tmin tmax r t : ℝ) (hr0 : 0 ≤ r) (hm : 10 * c.t0 ≤ tmin) (hm2 : tmin ≤ tmax)
    (hr1 : r ≤ part (pulse c.a c.b c.R c.t0) (10 * c.t0) tmax) (hpos : 0 < part (pulse c.a c.b c.R c.t0) (10 * c.t0) tmax)
    (h : c.spFind4 tmin tmax r = .ok t) : Quantile (pulse c.a c.b c.R c.t0) tmin tmax r 1e-4 t := by
  have hg : Good c := ⟨ha, hb, hab⟩
  have hcum : part (pulse c.a c.b c.R c.t0) (10 * c.t0) tmax = c.cum4 (c.late tmax) := by
    rw [part_pulse hg, cumA_eq hg, cumA_eq hg, late_of_ge (t := 10 * c.t0) le_rfl, cum4_zero hg, sub_zero]
  rw [hcum] at hr1 hpos
  unfold IC.spFind4 at h
  dsimp only at h
  by_cases h1 : c.late tmin = c.late tmax
  · rw [if_pos h1] at h; simp at h
  rw [if_neg h1, if_neg hg.not_bad] at h
  by_cases h2 : c.cum4 (c.late tmax) = c.cum4 (c.late tmin)
  · rw [if_pos h2] at h; simp at h
  rw [if_neg h2] at h
  cases hs : search (fun t => (c.cum4 t - c.cum4 (c.late tmin)) * (1 / (c.cum4 (c.late tmax) - c.cum4 (c.late tmin)))) 1e-4 r check4 52 0
      (c.late tmin) 0 (c.late tmax) (c.cum4 (c.late tmax)) with
  | error e => rw [hs] at h; simp at h
  | ok s =>
    rw [hs] at h
    simp only [Except.ok.injEq] at h
    have hc : ∀ n d, check4 n d = .leave → |d| ≤ (1e-4 : ℝ) := by
      intro n d hd
      unfold check4 at hd
      split_ifs at hd
    obtain ⟨b1, b2, b3⟩ := search_ok hc le_rfl hpos _ _ _ _ _ _ _ (late_mono c hm2) hr0 hr1 (Or.inl rfl) (Or.inl rfl) hs
    rw [late_of_le hm] at b1
    rw [late_of_le (hm.trans hm2)] at b2
    have ht : t - 10 * c.t0 = s := by rw [← h]; ring
    refine ⟨by linarith, by linarith, ?_⟩
    rw [part_pulse hg, part_pulse hg, cumA_eq hg, cumA_eq hg, cumA_eq hg, ← mul_one_div, late_of_le (t := t) (by linarith), ht]
    exact b3

/-- the whole pulse up to six times the decay time: the part is nearly one -/
example : (1 : ℝ) / 2 ≤ part (pulse plain.a plain.b plain.R plain.t0) (10 * plain.t0) 6 := by
  rw [part_pulse plain_good, cumA_eq plain_good, cumA_eq plain_good, late_of_ge (t := 10 * plain.t0) le_rfl, cum4_zero plain_good,
    late_of_le (by norm_num [plain]), plain_cum]
  have e : Real.exp (-6) = Real.exp (-1) ^ 6 := by rw [← Real.exp_nat_mul]; norm_num
  have h := exp_neg_one
  have h2 : Real.exp (-1) ^ 6 ≤ 0.36789 ^ 6 := pow_le_pow_left₀ (Real.exp_pos _).le h.2.le 6
  norm_num [plain] at h2 ⊢
  rw [e]
  linarith

/-- **C310** is false in `SNS_source4`: the search takes the part of the pulse before the end of the range for the normalised value there, so that with a short range it
runs away from numbers near one and aborts the program. -/
theorem C310_abort_false : ¬ ∀ (c : IC) (tmin tmax r : ℝ), 0 < c.a → 0 < c.b → c.a ≠ c.b → 0 ≤ c.R → c.R ≤ 1 → 10 * c.t0 ≤ tmin → tmin < tmax →
    0 ≤ r → r < 1 → ∃ t, c.spFind4 tmin tmax r = .ok t := by
  intro H
  obtain ⟨t, ht⟩ := H plain 0 1 0.9999 plain_good.a plain_good.b plain_good.ab (by norm_num [plain]) (by norm_num [plain]) (by norm_num [plain]) (by norm_num)
    (by norm_num) (by norm_num)
  have hl0 : plain.late 0 = 0 := late_of_ge (by norm_num [plain])
  have hl1 : plain.late 1 = 1 := by rw [late_of_le (by norm_num [plain])]; norm_num [plain]
  have h1 := plain_one
  unfold IC.spFind4 at ht
  dsimp only at ht
  rw [hl0, hl1, if_neg (by norm_num), if_neg plain_good.not_bad, if_neg (by rw [cum4_zero plain_good]; linarith)] at ht
  have := abort_all
  unfold plainF at this
  rw [this] at ht
  simp at ht

/-! ### C311 the long pulse -/

/-- **C311**: the density in the long pulse mode is that of the short pulse averaged over the arrival of the protons. -/
theorem C311_long (c : IC) (ha : 0 < c.a) (hb : 0 < c.b) (hab : c.a ≠ c.b) (h0 : 0 ≤ c.R) (h1 : c.R ≤ 1) (T : ℝ) (hT : 0 < T) (t : ℝ) :
    c.flp t T = long c.a c.b c.R c.t0 T t ∧ 0 ≤ c.flp t T := by
  have hg : Good c := ⟨ha, hb, hab⟩
  have e : c.flp t T = long c.a c.b c.R c.t0 T t := by rw [flp_eq c t hT.le, long_eq hg]
  exact ⟨e, e ▸ long_nonneg hg h0 h1 t hT⟩

example : (0 : ℝ) < 1000 ∧ Good ⟨0.1, 0.02, 0.7, 1⟩ := ⟨by norm_num, by norm_num, by norm_num, by norm_num⟩

/-- **C311**: the distribution function of `SNS_source_analytic` is the integral of this density. -/
theorem C311_cumulative (c : IC) (ha : 0 < c.a) (hb : 0 < c.b) (hab : c.a ≠ c.b) (ht0 : 0 ≤ c.t0) (T : ℝ) (hT : 0 < T) (t : ℝ) :
    c.cumLp t T = part (long c.a c.b c.R c.t0 T) (10 * c.t0) t := by
  have hg : Good c := ⟨ha, hb, hab⟩
  rw [part_long hg ht0 hT, cumLp_start hg ht0 hT, sub_zero]

/-- a delay of ten microseconds and protons for a millisecond -/
example : Good ⟨0.1, 0.02, 0.7, 1⟩ ∧ (0 : ℝ) ≤ (⟨0.1, 0.02, 0.7, 1⟩ : IC).t0 ∧ (0 : ℝ) < 1000 := ⟨⟨by norm_num, by norm_num, by norm_num⟩, by norm_num, by norm_num⟩

/-! ### C312 the time in the long pulse mode -/

/-- **C312**, what holds in `SNS_source_analytic`: if the search ends, the time is in the range, the part of the long pulse before it is the random number up to 1e-3, and
the weight is the part of the long pulse in the range.  Missing: the search ends. -/
theorem C312_partial (c : IC) (ha : 0 < c.a) (hb : 0 < c.b) (hab : c.a ≠ c.b) (h0 : 0 ≤ c.R) (h1 : c.R ≤ 1) (ht0 : 0 ≤ c.t0) (tmin tmax T r t p : ℝ)
    (hT : 0 < T) (hr0 : 0 ≤ r) (hr1 : r ≤ 1) (hm : 10 * c.t0 ≤ tmin) (hm2 : tmin ≤ tmax) (h : c.lpFindA tmin tmax T r = .ok (t, p)) :
    Quantile (long c.a c.b c.R c.t0 T) tmin tmax r 1e-3 t ∧ p = part (long c.a c.b c.R c.t0 T) tmin tmax := by
  have hg : Good c := ⟨ha, hb, hab⟩
  have hpos : 0 ≤ c.cumLp tmin T := by
    rw [C311_cumulative c ha hb hab ht0 T hT]
    exact intervalIntegral.integral_nonneg hm fun t _ => long_nonneg hg h0 h1 t hT
  unfold IC.lpFindA at h
  rw [if_neg (by rintro (hh | hh); exacts [hg.not_bad hh, hT.ne' hh])] at h
  dsimp only at h
  rw [if_neg (fun hh : c.cumLp tmin T < 0 ∧ -1e-5 < c.cumLp tmin T => absurd hh.1 (not_lt.2 hpos))] at h
  by_cases hp : 0 < c.cumLp tmax T ∧ 0 ≤ c.cumLp tmin T
  · rw [if_pos hp] at h
    by_cases he : c.cumLp tmax T = c.cumLp tmin T
    · rw [if_pos he] at h; simp at h
    rw [if_neg he] at h
    cases hs : search (fun t => (c.cumLp t T - c.cumLp tmin T) * (1 / (c.cumLp tmax T - c.cumLp tmin T))) 1e-4 r checkLp 52 0 tmin 0 tmax 1 with
    | error e => rw [hs] at h; simp at h
    | ok s =>
      rw [hs] at h
      simp only [Except.ok.injEq, Prod.mk.injEq] at h
      obtain ⟨rfl, rfl⟩ := h
      have hc : ∀ n d, checkLp n d = .leave → |d| ≤ (1e-3 : ℝ) := by
        intro n d hd
        unfold checkLp at hd
        split_ifs at hd with h1 h2
        exact h2.le
      obtain ⟨b1, b2, b3⟩ := search_ok hc (by norm_num) one_pos _ _ _ _ _ _ _ hm2 hr0 hr1 (Or.inl rfl) (Or.inl rfl) hs
      refine ⟨⟨b1, b2, ?_⟩, (part_long hg ht0 hT _ _).symm⟩
      rw [part_long hg ht0 hT, part_long hg ht0 hT, ← mul_one_div]
      exact b3
  · rw [if_neg hp] at h; simp at h

/-- the number that belongs to the middle of the range is found, here with protons for ten microseconds -/
example : ∃ r t p, plain.lpFindA 0 1 10 r = .ok (t, p) ∧ t = 1 / 2 ∧ 0 ≤ r := by
  have hl : ∀ t : ℝ, 0 ≤ t → plain.late t = t := by
    intro t ht
    rw [late_of_le (by norm_num [plain]; exact ht)]
    norm_num [plain]
  have hcl : ∀ t : ℝ, 0 ≤ t → t ≤ 1 → plain.cumLp t 10 = (plain.dbl t - plain.dbl 0) / 10 := by
    intro t h1 h2
    rw [cumLp_eq plain_good le_rfl (by norm_num), hl t h1, late_of_ge (t := t - 10) (by norm_num [plain]; linarith)]
  have hd : ∀ t, plain.dbl t = t + (0.5 * t ^ 2 + 2 * t + 3) * Real.exp (-t) := by
    intro t
    unfold IC.dbl IC.gamma plain
    simp
  have hx := exp_neg_one
  have h0 : plain.cumLp 0 10 = 0 := by rw [hcl 0 le_rfl zero_le_one]; simp
  have h1 : 0 < plain.cumLp 1 10 := by
    rw [hcl 1 zero_le_one le_rfl, hd, hd]
    norm_num
    linarith
  have hh : 0 ≤ plain.cumLp (1 / 2) 10 := by
    have := C311_cumulative plain plain_good.a plain_good.b plain_good.ab le_rfl 10 (by norm_num) (1 / 2)
    rw [this]
    exact intervalIntegral.integral_nonneg (by norm_num [plain]) fun t _ => long_nonneg plain_good le_rfl (by norm_num [plain]) t (by norm_num)
  set F : ℝ → ℝ := fun t => (plain.cumLp t 10 - plain.cumLp 0 10) * (1 / (plain.cumLp 1 10 - plain.cumLp 0 10)) with hF
  have hs := search_first F (eps := 1e-4) (by norm_num) (check := checkLp) (fun d => by unfold checkLp; norm_num) 51 0 0 1 1
  refine ⟨F (0.5 * (1 + 0)), 1 / 2, plain.cumLp 1 10 - plain.cumLp 0 10, ?_, rfl, ?_⟩
  · unfold IC.lpFindA
    rw [if_neg (by rintro (hh | hh); exacts [plain_good.not_bad hh, by norm_num at hh])]
    dsimp only
    rw [if_neg (fun hh : plain.cumLp 0 10 < 0 ∧ -1e-5 < plain.cumLp 0 10 => absurd hh.1 (by rw [h0]; exact lt_irrefl _)), if_pos ⟨h1, h0.ge⟩,
      if_neg (by rw [h0]; exact h1.ne'), ← hF, hs]
    dsimp only
    rw [show (0.5 : ℝ) * (1 + 0) = 1 / 2 by norm_num]
  · rw [hF]
    dsimp only
    rw [show (0.5 : ℝ) * (1 + 0) = 1 / 2 by norm_num, h0, sub_zero, sub_zero]
    positivity

/-- the pulse without storage with a delay -/
private noncomputable def late1 : IC := ⟨1, 2, 0, 1⟩

private lemma late1_head {t : ℝ} (h : 10 ≤ t) : late1.ciHead t 10 = ((t - 10) - 3 + (0.5 * (t - 10) ^ 2 + 2 * (t - 10) + 3) * Real.exp (-(t - 10))) / 10 := by
  have hl : late1.late t = t - 10 := by rw [late_of_le (by norm_num [late1]; exact h)]; norm_num [late1]
  unfold IC.ciHead IC.intint4
  rw [hl]
  unfold IC.gamma late1
  simp
  ring

/-- **C312** is false in `SNS_source4`: the search works with the time after the protons and the delay is added once more, so that the time is after the end of the
range. -/
theorem C312_delay_false : ¬ ∀ (c : IC) (tmin tmax T r t : ℝ), 0 < c.a → 0 < c.b → c.a ≠ c.b → 0 ≤ c.R → c.R ≤ 1 → 0 ≤ c.t0 → 0 < T →
    10 * c.t0 ≤ tmin → tmin < tmax → 0 ≤ r → r < 1 → c.lpFind4 tmin tmax T r = .ok t → t ≤ tmax := by
  intro H
  have hg : Good late1 := ⟨by norm_num [late1], by norm_num [late1], by norm_num [late1]⟩
  have hl : ∀ t : ℝ, 10 ≤ t → late1.late t = t - 10 := by
    intro t ht
    rw [late_of_le (by norm_num [late1]; exact ht)]
    norm_num [late1]
  have hmax : ∀ t : ℝ, 10 ≤ t → t ≤ 12 → late1.ciMax t 10 = late1.ciHead t 10 := by
    intro t h1 h2
    unfold IC.ciMax
    dsimp only
    rw [hl t h1, if_neg (by linarith)]
  have hmin : late1.ciMin 10 10 = late1.ciHead 10 10 := by
    unfold IC.ciMin
    dsimp only
    rw [hl 10 le_rfl, if_neg (by norm_num)]
  have hx := exp_neg_one
  set x := Real.exp (-1) with hxd
  have e2 : Real.exp (-2) = x ^ 2 := by rw [hxd, ← Real.exp_nat_mul]; norm_num
  have v0 : late1.ciMin 10 10 = 0 := by rw [hmin, late1_head le_rfl]; norm_num
  have v1 : late1.ciMax 11 10 = (5.5 * x - 2) / 10 := by
    rw [hmax 11 (by norm_num) (by norm_num), late1_head (by norm_num), show (11 : ℝ) - 10 = 1 by norm_num, ← hxd]
    ring
  have v2 : late1.ciMax 12 10 = (9 * x ^ 2 - 1) / 10 := by
    rw [hmax 12 (by norm_num) (by norm_num), late1_head (by norm_num), show (12 : ℝ) - 10 = 2 by norm_num, e2]
    ring
  have p1 : 0.023 < 5.5 * x - 2 ∧ 5.5 * x - 2 < 0.024 := by constructor <;> linarith [hx.1, hx.2]
  have p2 : 0.21 < 9 * x ^ 2 - 1 := by
    have : (0.36787 : ℝ) ^ 2 ≤ x ^ 2 := by gcongr; exact hx.1.le
    norm_num at this ⊢
    linarith
  set F : ℝ → ℝ := fun t => (late1.ciMax t 10 - late1.ciMin 10 10) * (1 / (late1.ciMax 12 10 - late1.ciMin 10 10)) with hF
  have hs := search_first F (eps := 1e-4) (by norm_num) (check := check4) (fun d => by unfold check4; norm_num) 51 10 0 12 (late1.ciMax 12 10)
  have hr : F (0.5 * (12 + 10)) = (5.5 * x - 2) / (9 * x ^ 2 - 1) := by
    rw [hF]
    dsimp only
    rw [show (0.5 : ℝ) * (12 + 10) = 11 by norm_num, v0, v1, v2, sub_zero, sub_zero]
    have : 9 * x ^ 2 - 1 ≠ 0 := by linarith [p2]
    field_simp
  have hfind : late1.lpFind4 10 12 10 (F (0.5 * (12 + 10))) = .ok (0.5 * (12 + 10) + late1.t0 * 10) := by
    unfold IC.lpFind4
    rw [if_neg (by rintro (hh | hh); exacts [hg.not_bad hh, by norm_num at hh]), if_neg (by rw [v0, v2]; intro hh; linarith [p2])]
    dsimp only
    rw [← hF, hs]
  have := H late1 10 12 10 _ _ hg.a hg.b hg.ab (by norm_num [late1]) (by norm_num [late1]) (by norm_num [late1]) (by norm_num) (by norm_num [late1]) (by norm_num)
    (by rw [hr]; exact div_nonneg (by linarith [p1.1]) (by linarith [p2]))
    (by rw [hr, div_lt_one (by linarith [p2])]; linarith [p1.2, p2]) hfind
  norm_num [late1] at this

/-- a pulse with storage only -/
private noncomputable def storedOnly : IC := ⟨2, 1, 1, 0⟩

/-- **C312** is false in `SNS_source4` even without a delay: a term of the double integral has the wrong sign, and the number that the search finds is far from the part of
the pulse before the time. -/
theorem C312_sign_false : ¬ ∀ (c : IC) (tmin tmax T r t : ℝ), 0 < c.a → 0 < c.b → c.a ≠ c.b → 0 ≤ c.R → c.R ≤ 1 → c.t0 = 0 → 0 < T →
    0 ≤ tmin → tmin < tmax → 0 ≤ r → r < 1 → c.lpFind4 tmin tmax T r = .ok t → Quantile (long c.a c.b c.R c.t0 T) tmin tmax r (1 / 2) t := by
  intro H
  have hg : Good storedOnly := ⟨by norm_num [storedOnly], by norm_num [storedOnly], by norm_num [storedOnly]⟩
  have hl : ∀ t : ℝ, 0 ≤ t → storedOnly.late t = t := by
    intro t ht
    rw [late_of_le (by norm_num [storedOnly]; exact ht)]
    norm_num [storedOnly]
  have hhead : ∀ t : ℝ, 0 ≤ t → storedOnly.ciHead t 10 = (t - 2.5 + 8 * Real.exp (-t) + (5.5 + 4 * t + t ^ 2) * Real.exp (-(2 * t))) / 10 := by
    intro t ht
    unfold IC.ciHead IC.intint4
    rw [hl t ht]
    unfold IC.gamma IC.delta IC.lam storedOnly
    norm_num
    ring
  have hdbl : ∀ t : ℝ, storedOnly.dbl t = t + 8 * Real.exp (-t) - (5.5 + 4 * t + t ^ 2) * Real.exp (-(2 * t)) := by
    intro t
    unfold IC.dbl IC.gamma IC.delta IC.lam storedOnly
    norm_num
    ring
  have hmax : ∀ t : ℝ, 0 ≤ t → t ≤ 2 → storedOnly.ciMax t 10 = storedOnly.ciHead t 10 := by
    intro t h1 h2
    unfold IC.ciMax
    dsimp only
    rw [hl t h1, if_neg (by linarith)]
  have hmin : storedOnly.ciMin 0 10 = storedOnly.ciHead 0 10 := by
    unfold IC.ciMin
    dsimp only
    rw [hl 0 le_rfl, if_neg (by norm_num)]
  have hx := exp_neg_one
  set x := Real.exp (-1) with hxd
  have e2 : Real.exp (-2) = x ^ 2 := by rw [hxd, ← Real.exp_nat_mul]; norm_num
  have e21 : Real.exp (-(2 * 1)) = x ^ 2 := by rw [mul_one, e2]
  have e4 : Real.exp (-(2 * 2)) = x ^ 4 := by rw [hxd, ← Real.exp_nat_mul]; norm_num
  have v0 : storedOnly.ciMin 0 10 = 11 / 10 := by rw [hmin, hhead 0 le_rfl]; norm_num
  have v1 : storedOnly.ciMax 1 10 = (-1.5 + 8 * x + 10.5 * x ^ 2) / 10 := by
    rw [hmax 1 (by norm_num) (by norm_num), hhead 1 (by norm_num), ← hxd, e21]
    ring
  have v2 : storedOnly.ciMax 2 10 = (-0.5 + 8 * x ^ 2 + 17.5 * x ^ 4) / 10 := by
    rw [hmax 2 (by norm_num) le_rfl, hhead 2 (by norm_num), e2, e4]
    ring
  have x2 : 0.1353 < x ^ 2 ∧ x ^ 2 < 0.13535 := by
    constructor
    · have : (0.36787 : ℝ) ^ 2 ≤ x ^ 2 := by gcongr; exact hx.1.le
      norm_num at this ⊢; linarith
    · have : x ^ 2 ≤ (0.36789 : ℝ) ^ 2 := by gcongr; exact hx.2.le
      norm_num at this ⊢; linarith
  have x4 : 0.0183 < x ^ 4 ∧ x ^ 4 < 0.01833 := by
    have e : x ^ 4 = (x ^ 2) ^ 2 := by ring
    constructor
    · rw [e]
      have : (0.1353 : ℝ) ^ 2 ≤ (x ^ 2) ^ 2 := by gcongr; exact x2.1.le
      norm_num at this ⊢; linarith
    · rw [e]
      have : (x ^ 2) ^ 2 ≤ (0.13535 : ℝ) ^ 2 := by gcongr; exact x2.2.le
      norm_num at this ⊢; linarith
  set F : ℝ → ℝ := fun t => (storedOnly.ciMax t 10 - storedOnly.ciMin 0 10) * (1 / (storedOnly.ciMax 2 10 - storedOnly.ciMin 0 10)) with hF
  have hs := search_first F (eps := 1e-4) (by norm_num) (check := check4) (fun d => by unfold check4; norm_num) 51 0 0 2 (storedOnly.ciMax 2 10)
  have hnum : 8 < 11 - (-1.5 + 8 * x + 10.5 * x ^ 2) := by linarith [hx.2, x2.2]
  have hden : 10 < 11 - (-0.5 + 8 * x ^ 2 + 17.5 * x ^ 4) ∧ 11 - (-0.5 + 8 * x ^ 2 + 17.5 * x ^ 4) < 10.2 := by
    constructor <;> linarith [x2.1, x2.2, x4.1, x4.2]
  have hr : F (0.5 * (2 + 0)) = (11 - (-1.5 + 8 * x + 10.5 * x ^ 2)) / (11 - (-0.5 + 8 * x ^ 2 + 17.5 * x ^ 4)) := by
    rw [hF]
    dsimp only
    rw [show (0.5 : ℝ) * (2 + 0) = 1 by norm_num, v0, v1, v2, mul_one_div,
      show (-1.5 + 8 * x + 10.5 * x ^ 2) / 10 - 11 / 10 = -((11 - (-1.5 + 8 * x + 10.5 * x ^ 2)) / 10) by ring,
      show (-0.5 + 8 * x ^ 2 + 17.5 * x ^ 4) / 10 - 11 / 10 = -((11 - (-0.5 + 8 * x ^ 2 + 17.5 * x ^ 4)) / 10) by ring, neg_div_neg_eq,
      div_div_div_cancel_right₀ (by norm_num)]
  have hr1 : 0.78 < F (0.5 * (2 + 0)) := by
    rw [hr, lt_div_iff₀ (by linarith [hden.1])]
    linarith [hden.2]
  have hfind : storedOnly.lpFind4 0 2 10 (F (0.5 * (2 + 0))) = .ok (0.5 * (2 + 0) + storedOnly.t0 * 10) := by
    unfold IC.lpFind4
    rw [if_neg (by rintro (hh | hh); exacts [hg.not_bad hh, by norm_num at hh]), if_neg (by rw [v0, v2]; intro hh; linarith [hden.1])]
    dsimp only
    rw [← hF, hs]
  have h := H storedOnly 0 2 10 _ _ hg.a hg.b hg.ab (by norm_num [storedOnly]) (by norm_num [storedOnly]) rfl (by norm_num) le_rfl (by norm_num)
    (by linarith) (by rw [hr, div_lt_one (by linarith [hden.1])]; linarith [hden.1, hden.2, hx.1, x2.1, x2.2, x4.2]) hfind
  have ht : (0.5 * (2 + 0) + storedOnly.t0 * 10 : ℝ) = 1 := by norm_num [storedOnly]
  rw [ht] at h
  have h3 := h.2.2
  have hp : ∀ t : ℝ, 0 ≤ t → t ≤ 2 → part (long storedOnly.a storedOnly.b storedOnly.R storedOnly.t0 10) 0 t = (storedOnly.dbl t - storedOnly.dbl 0) / 10 := by
    intro t h1 h2
    rw [part_long hg le_rfl (by norm_num), cumLp_eq hg le_rfl (by norm_num), cumLp_eq hg le_rfl (by norm_num), hl t h1,
      late_of_ge (t := t - 10) (by norm_num [storedOnly]; linarith), late_of_ge (t := 0) (by norm_num [storedOnly]),
      late_of_ge (t := 0 - 10) (by norm_num [storedOnly])]
    ring
  rw [hp 1 (by norm_num) (by norm_num), hp 2 (by norm_num) le_rfl, div_div_div_cancel_right₀ (by norm_num)] at h3
  have d0 : storedOnly.dbl 0 = 2.5 := by rw [hdbl]; norm_num
  have d1 : storedOnly.dbl 1 = 1 + 8 * x - 10.5 * x ^ 2 := by rw [hdbl, e21, ← hxd]; ring
  have d2 : storedOnly.dbl 2 = 2 + 8 * x ^ 2 - 17.5 * x ^ 4 := by rw [hdbl, e2, e4]; ring
  have hsmall : (storedOnly.dbl 1 - storedOnly.dbl 0) / (storedOnly.dbl 2 - storedOnly.dbl 0) < 0.2 := by
    rw [d0, d1, d2, div_lt_iff₀ (by linarith [x2.1, x4.2])]
    linarith [hx.2, x2.1, x2.2, x4.2]
  have := (abs_le.1 h3).1
  linarith

/-! ### C313 the energy -/

/-- **C313**, what holds: the three ways of `SNS_source_analytic` to draw the energy from a uniform number give the same mean for every monitor, the integral of the
spectrum.  Missing: the way with the table (`sample_E=0`). -/
theorem C313_partial (g : Cfg) (q : Spectrum) (drawn : ℝ → Except Err (ℝ × ℝ)) (eff : ℝ → ℝ) (h0 : 0 < g.Emin) (h : g.Emin < g.Emax)
    (hq : 0 < q.Ecut ∧ 0 < q.T1 ∧ 0 < q.T2 ∧ 0 < q.T3) (hc : ContinuousOn eff (Set.Icc (g.Emin * 1e-3) (g.Emax * 1e-3)))
    (hE : g.sample_E = 1 ∨ g.sample_E = 2 ∨ g.sample_E = 3) :
    mean (fun u => gain eff (g.energyA q.value drawn u)) = ∫ E in g.Emin * 1e-3..g.Emax * 1e-3, q.value E * eff E := by
  have hG : ContinuousOn (fun E => q.value E * eff E) (Set.Icc (g.Emin * 1e-3) (g.Emax * 1e-3)) := by
    refine ((value_continuous ⟨hq.1, hq.2.1, hq.2.2.1, hq.2.2.2⟩).mono ?_).mul hc
    intro E hE
    exact lt_of_lt_of_le (by positivity : (0 : ℝ) < g.Emin * 1e-3) hE.1
  rcases hE with hE | hE | hE
  · rw [← mean_energy g]
    congr 1
    funext u
    unfold Cfg.energyA
    rw [if_neg h.ne', hE]
    simp [gain]
    ring
  · rw [← mean_lambda h0 h hG]
    congr 1
    funext u
    unfold Cfg.energyA
    rw [if_neg h.ne', hE]
    simp [gain]
    ring
  · rw [← mean_lethargy h0 h hG]
    congr 1
    funext u
    unfold Cfg.energyA
    rw [if_neg h.ne', hE]
    simp [gain]
    ring

/-- **C313**, what holds in `SNS_source4`: the three ways give the mean of the spectrum over the range of energies, not its integral. -/
theorem C313_four_partial (g : Cfg) (q : Spectrum) (eff : ℝ → ℝ) (h0 : 0 < g.Emin) (h : g.Emin < g.Emax)
    (hq : 0 < q.Ecut ∧ 0 < q.T1 ∧ 0 < q.T2 ∧ 0 < q.T3) (hc : ContinuousOn eff (Set.Icc (g.Emin * 1e-3) (g.Emax * 1e-3)))
    (hE : g.sample_E = 0 ∨ g.sample_E = 1 ∨ g.sample_E = 2) :
    mean (fun u => gain eff (g.energy4 q.value u)) = (∫ E in g.Emin * 1e-3..g.Emax * 1e-3, q.value E * eff E) / (g.Emax * 1e-3 - g.Emin * 1e-3) := by
  have hw : (g.Emax - g.Emin) * 1e-3 ≠ 0 := by
    have : 0 < (g.Emax - g.Emin) * 1e-3 := mul_pos (by linarith) (by norm_num)
    exact this.ne'
  have hG : ContinuousOn (fun E => q.value E * eff E) (Set.Icc (g.Emin * 1e-3) (g.Emax * 1e-3)) := by
    refine ((value_continuous ⟨hq.1, hq.2.1, hq.2.2.1, hq.2.2.2⟩).mono ?_).mul hc
    intro E hE
    exact lt_of_lt_of_le (by positivity : (0 : ℝ) < g.Emin * 1e-3) hE.1
  rw [← sub_mul, eq_div_iff hw, mean, ← intervalIntegral.integral_mul_const]
  rcases hE with hE | hE | hE
  · rw [← mean_energy g, mean]
    congr 1
    funext u
    unfold Cfg.energy4
    rw [if_neg h.ne', hE]
    simp [gain]
    ring
  · rw [← mean_lambda h0 h hG, mean]
    congr 1
    funext u
    unfold Cfg.energy4
    rw [if_neg h.ne', hE]
    simp [gain]
    ring
  · rw [← mean_lethargy h0 h hG, mean]
    congr 1
    funext u
    unfold Cfg.energy4
    rw [if_neg h.ne', hE]
    simp [gain]
    ring

/-- thermal neutrons of a water moderator -/
example : (0 : ℝ) < (⟨5, 100, 0, 1000, 0, 2, 0⟩ : Cfg).Emin ∧ (⟨5, 100, 0, 1000, 0, 2, 0⟩ : Cfg).Emin < (⟨5, 100, 0, 1000, 0, 2, 0⟩ : Cfg).Emax ∧
    (0 : ℝ) < (⟨0, 1, 300, 1, 400, 0, 20, 0.1, 1, 0.02, 2, 0, 1, 1⟩ : Spectrum).Ecut := by norm_num

/-- the spectrum with the value one -/
private noncomputable def flat : Spectrum := ⟨0, 0, 300, 0, 300, 0, 300, 1, 1, 0, 1, 0, 0, 1e-12⟩

private lemma flat_value (E : ℝ) : flat.value E = 1 := by
  unfold Spectrum.value flat
  simp
  norm_num

/-- **C313** is false in `SNS_source4`: the weights do not give the number of neutrons in the range of energies. -/
theorem C313_units_false : ¬ ∀ (g : Cfg) (q : Spectrum), 0 < g.Emin → g.Emin < g.Emax → g.sample_E = 0 →
    mean (fun u => gain (fun _ => 1) (g.energy4 q.value u)) = ∫ E in g.Emin * 1e-3..g.Emax * 1e-3, q.value E := by
  intro H
  have h := H ⟨1, 2, 0, 0, 0, 0, 0⟩ flat one_pos one_lt_two rfl
  have e : (fun u => gain (fun _ => 1) ((⟨1, 2, 0, 0, 0, 0, 0⟩ : Cfg).energy4 flat.value u)) = fun _ => 1 := by
    funext u
    unfold Cfg.energy4
    rw [if_neg (by norm_num)]
    simp [gain, flat_value, Cfg.byEnergy]
  have e2 : flat.value = fun _ => 1 := funext flat_value
  rw [e, e2] at h
  simp [mean] at h
  norm_num at h

/-- **C313** is false for `sample_E=0` in `SNS_source_analytic`: the integral of the spectrum, the weight of every neutron, begins at an energy that has no value. -/
theorem C313_table_false : ¬ ∀ (g : Cfg) (q : Spectrum) (junk : ℝ), 0 < g.Emin → g.Emin < g.Emax →
    |g.total q.value junk - ∫ E in g.Emin * 1e-3..g.Emax * 1e-3, q.value E| ≤ (∫ E in g.Emin * 1e-3..g.Emax * 1e-3, q.value E) / 2 := by
  intro H
  have h := H ⟨50, 100, 0, 0, 0, 0, 0⟩ flat 0 (by norm_num) (by norm_num)
  have e2 : flat.value = fun _ => 1 := funext flat_value
  rw [e2, total_one (by norm_num)] at h
  simp at h
  norm_num at h

/-! ### C314 the number of neutrons in the window of time -/

/-- **C314**, what holds: with uniform times (`sample_t=1`) the long pulse mode of `SNS_source_analytic` gives every monitor the integral over the window, and the times
are in the window. -/
theorem C314_partial (g : Cfg) (c : IC) (eff : ℝ → ℝ) (ha : 0 < c.a) (hb : 0 < c.b) (hab : c.a ≠ c.b) (hT : 0 < g.proton_T) (ht : g.sample_t = 1)
    (hlt : c.t0 * 10 < g.tinmax) (hlt2 : g.tinmin < g.tinmax) (hlt3 : g.tinmin < g.proton_T + 20 / c.b + c.t0 * 10) :
    mean (fun u => gain eff (g.timeA c u)) =
      ∫ t in max (c.t0 * 10) g.tinmin..min (g.proton_T + 20 / c.b + c.t0 * 10) g.tinmax, long c.a c.b c.R c.t0 g.proton_T t * eff t ∧
    ∀ u, 0 ≤ u → u ≤ 1 → ∃ t p, g.timeA c u = .ok (t, p) ∧ c.t0 * 10 ≤ t ∧ g.tinmin ≤ t ∧ t ≤ g.tinmax := by
  have hg : Good c := ⟨ha, hb, hab⟩
  have h1 : (g.rangeA c).1 = max (c.t0 * 10) g.tinmin := by
    unfold Cfg.rangeA
    dsimp only
    split_ifs with h
    · rw [max_eq_right h.le]
    · rw [max_eq_left (not_lt.1 h)]
  have h2 : (g.rangeA c).2 = min (g.proton_T + 20 / c.b + c.t0 * 10) g.tinmax := by
    unfold Cfg.rangeA
    dsimp only
    rw [if_neg (not_le.2 hT)]
    split_ifs with h
    · rw [min_eq_right h.le]
    · rw [min_eq_left (not_lt.1 h)]
  have hval : ∀ u, g.timeA c u = .ok ((g.rangeA c).1 + ((g.rangeA c).2 - (g.rangeA c).1) * u,
      c.flp ((g.rangeA c).1 + ((g.rangeA c).2 - (g.rangeA c).1) * u) g.proton_T * ((g.rangeA c).2 - (g.rangeA c).1)) := by
    intro u
    unfold Cfg.timeA
    dsimp only
    rw [if_neg hg.not_bad, ht, if_neg (by norm_num), if_pos rfl, if_neg (not_le.2 hT)]
  constructor
  · rw [← h1, ← h2, ← Verif.Kinem.mean_affine]
    congr 1
    funext u
    rw [hval]
    simp only [gain]
    rw [flp_eq _ _ hT.le, long_eq hg, mul_comm u]
    ring
  · intro u hu0 hu1
    refine ⟨_, _, hval u, ?_⟩
    have hle : (g.rangeA c).1 ≤ (g.rangeA c).2 := by
      rw [h1, h2]
      have : 0 < 20 / c.b := by positivity
      exact max_le (le_min (by linarith) hlt.le) (le_min hlt3.le hlt2.le)
    have b1 : 0 ≤ ((g.rangeA c).2 - (g.rangeA c).1) * u := mul_nonneg (by linarith) hu0
    have b2 : ((g.rangeA c).2 - (g.rangeA c).1) * u ≤ (g.rangeA c).2 - (g.rangeA c).1 := mul_le_of_le_one_right (by linarith) hu1
    have b3 : c.t0 * 10 ≤ (g.rangeA c).1 := h1 ▸ le_max_left _ _
    have b4 : g.tinmin ≤ (g.rangeA c).1 := h1 ▸ le_max_right _ _
    have b5 : (g.rangeA c).2 ≤ g.tinmax := h2 ▸ min_le_right _ _
    exact ⟨by linarith, by linarith, by linarith⟩

/-- a long pulse source, times up to 5 ms -/
example : (0 : ℝ) < (⟨1, 2, 0, 5000, 1000, 1, 1⟩ : Cfg).proton_T ∧ (⟨0.1, 0.02, 0.7, 1⟩ : IC).t0 * 10 < (⟨1, 2, 0, 5000, 1000, 1, 1⟩ : Cfg).tinmax := by norm_num

/-- **C314**, what holds in `SNS_source4` with uniform times: both modes give the integral from `tinmin` to `ttmax`. -/
theorem C314_four_partial (g : Cfg) (c : IC) (eff : ℝ → ℝ) (ha : 0 < c.a) (hb : 0 < c.b) (hab : c.a ≠ c.b) (ht : g.sample_t = 1) :
    (g.proton_T ≤ 0 → mean (fun u => gain eff (g.time4 c u)) = ∫ t in g.tinmin..min (5 / c.b) g.tinmax, pulse c.a c.b c.R c.t0 t * eff t) ∧
    (0 < g.proton_T → mean (fun u => gain eff (g.time4 c u)) =
      ∫ t in g.tinmin..min (g.proton_T + 5 / c.b) g.tinmax, long c.a c.b c.R c.t0 g.proton_T t * eff t) := by
  have hg : Good c := ⟨ha, hb, hab⟩
  have hmin : ∀ x : ℝ, (if g.tinmax < x then g.tinmax else x) = min x g.tinmax := by
    intro x
    split_ifs with h
    · rw [min_eq_right h.le]
    · rw [min_eq_left (not_lt.1 h)]
  constructor
  · intro hT
    rw [← Verif.Kinem.mean_affine]
    congr 1
    funext u
    unfold Cfg.time4
    rw [if_neg hg.not_bad, ht, if_neg (by norm_num), if_pos rfl, if_pos hT]
    simp only [gain, hmin]
    rw [fsp_eq, pulse_eq hg, mul_comm u]
    ring
  · intro hT
    rw [← Verif.Kinem.mean_affine]
    congr 1
    funext u
    unfold Cfg.time4
    rw [if_neg hg.not_bad, ht, if_neg (by norm_num), if_pos rfl, if_neg (not_le.2 hT)]
    simp only [gain, hmin]
    rw [flp_eq _ _ hT.le, long_eq hg, mul_comm u]
    ring

/-- a short pulse source with uniform times -/
example : (⟨1, 2, 0, 200, 0, 0, 1⟩ : Cfg).sample_t = 1 ∧ (⟨1, 2, 0, 200, 0, 0, 1⟩ : Cfg).proton_T ≤ 0 ∧ Good ⟨0.1, 0.02, 0.7, 1⟩ :=
  ⟨rfl, le_rfl, by norm_num, by norm_num, by norm_num⟩

/-- **C314** is false in `SNS_source4` with times from the distribution (`sample_t=0`): the weight is one even if the window holds only a small part of the pulse. -/
theorem C314_weight_false : ¬ ∀ (g : Cfg) (c : IC) (u t p : ℝ), 0 < c.a → 0 < c.b → c.a ≠ c.b → 0 ≤ c.R → c.R ≤ 1 → g.sample_t = 0 → g.proton_T = 0 →
    10 * c.t0 ≤ g.tinmin → g.tinmin < g.tinmax → 0 ≤ u → u < 1 → g.time4 c u = .ok (t, p) →
    p ≤ 10 * part (pulse c.a c.b c.R c.t0) g.tinmin g.tinmax := by
  intro H
  have hl0 : plain.late 0 = 0 := late_of_ge (by norm_num [plain])
  have hl1 : plain.late 1 = 1 := by rw [late_of_le (by norm_num [plain])]; norm_num [plain]
  have h1 := plain_one
  have hz := cum4_zero plain_good
  have hs := search_first plainF (eps := 1e-4) (by norm_num) (check := check4) (fun d => by unfold check4; norm_num) 51 0 0 1 (plain.cum4 1)
  have hb := plainF_bounds (g := 1 / 2) (by norm_num) le_rfl
  have hval : (0.5 : ℝ) * (1 + 0) = 1 - 1 / 2 := by norm_num
  rw [hval] at hs
  have hpos : 0 ≤ plainF (1 - 1 / 2) := by
    have : 0 ≤ plain.cum4 (1 - 1 / 2) := by
      have := cum4_mono plain_good le_rfl (by norm_num [plain]) (a := 0) (b := 1 - 1 / 2) (by simp) (by norm_num) (by norm_num)
      rwa [hz] at this
    unfold plainF
    rw [hz, sub_zero, sub_zero]
    have : 0 < plain.cum4 1 := by linarith
    positivity
  have hfind : (⟨1, 2, 0, 1, 0, 0, 0⟩ : Cfg).time4 plain (plainF (1 - 1 / 2)) = .ok (1 - 1 / 2 + plain.t0 * 10, 1) := by
    unfold Cfg.time4
    rw [if_neg plain_good.not_bad, if_pos rfl, if_pos (by norm_num)]
    dsimp only
    rw [if_pos (by norm_num [plain])]
    unfold IC.spFind4
    dsimp only
    rw [hl0, hl1, if_neg (by norm_num), if_neg plain_good.not_bad, if_neg (by rw [hz]; linarith)]
    unfold plainF at hs ⊢
    rw [hs]
    rfl
  have := H _ plain _ _ _ plain_good.a plain_good.b plain_good.ab (by norm_num [plain]) (by norm_num [plain]) rfl rfl (by norm_num [plain]) (by norm_num)
    hpos (by norm_num at hb ⊢; linarith [hb.2]) hfind
  rw [part_pulse plain_good, cumA_eq plain_good, cumA_eq plain_good] at this
  dsimp only at this
  rw [hl0, hl1, hz] at this
  linarith [h1.2]

/-- **C314** is false in `SNS_source_analytic` with uniform times in the short pulse mode: the times go beyond the window, since the lower end of the range
is the delay but its length is counted from `tinmin`. -/
theorem C314_window_false : ¬ ∀ (g : Cfg) (c : IC) (u t p : ℝ), 0 < c.a → 0 < c.b → c.a ≠ c.b → 0 ≤ c.t0 → g.sample_t = 1 → g.proton_T = 0 →
    g.tinmin < g.tinmax → c.t0 * 10 < g.tinmax → 0 ≤ u → u < 1 → g.timeA c u = .ok (t, p) → t ≤ g.tinmax := by
  intro H
  have hg : Good late1 := ⟨by norm_num [late1], by norm_num [late1], by norm_num [late1]⟩
  have hr : (⟨1, 2, 0, 15, 0, 0, 1⟩ : Cfg).rangeA late1 = (10, 15) := by
    unfold Cfg.rangeA
    norm_num [late1]
  have hv : (⟨1, 2, 0, 15, 0, 0, 1⟩ : Cfg).timeA late1 (1 / 2) = .ok (10 + (15 - 0) * (1 / 2), late1.fsp (10 + (15 - 0) * (1 / 2)) * (15 - 10)) := by
    unfold Cfg.timeA
    dsimp only
    rw [if_neg hg.not_bad, if_neg (by norm_num), if_pos rfl, if_pos le_rfl, hr]
  have := H _ late1 _ _ _ hg.a hg.b hg.ab (by norm_num [late1]) rfl rfl (by norm_num) (by norm_num [late1]) (by norm_num) (by norm_num) hv
  norm_num at this

/-- **C314** is false there for the number of neutrons as well. -/
theorem C314_number_false : ¬ ∀ (g : Cfg) (c : IC), 0 < c.a → 0 < c.b → c.a ≠ c.b → 0 ≤ c.t0 → g.sample_t = 1 → g.proton_T = 0 → g.tinmin < g.tinmax →
    g.tinmax ≤ 20 / c.b + c.t0 * 10 → part (pulse c.a c.b c.R c.t0) g.tinmin g.tinmax ≤ 2 * mean (fun u => gain (fun _ => 1) (g.timeA c u)) := by
  intro H
  have hg : Good late1 := ⟨by norm_num [late1], by norm_num [late1], by norm_num [late1]⟩
  have hr : (⟨1, 2, 0, 15, 0, 0, 1⟩ : Cfg).rangeA late1 = (10, 15) := by
    unfold Cfg.rangeA
    norm_num [late1]
  have h := H ⟨1, 2, 0, 15, 0, 0, 1⟩ late1 hg.a hg.b hg.ab (by norm_num [late1]) rfl rfl (by norm_num) (by norm_num [late1])
  have e : (fun u => gain (fun _ => 1) ((⟨1, 2, 0, 15, 0, 0, 1⟩ : Cfg).timeA late1 u)) =
      fun u => (25 - 10) * (pulse late1.a late1.b late1.R late1.t0 (10 + u * (25 - 10)) / 3) := by
    funext u
    unfold Cfg.timeA
    dsimp only
    rw [if_neg hg.not_bad, if_neg (by norm_num), if_pos rfl, if_pos le_rfl, hr]
    simp only [gain]
    rw [fsp_eq, pulse_eq hg, show (10 : ℝ) + (15 - 0) * u = 10 + u * (25 - 10) by ring]
    ring
  rw [e, Verif.Kinem.mean_affine 10 25 (fun t => pulse late1.a late1.b late1.R late1.t0 t / 3), intervalIntegral.integral_div] at h
  have hp := part_pulse hg 10 25
  unfold part at hp
  rw [hp, part_pulse hg] at h
  simp only [cumA_eq hg] at h
  have hl : ∀ t : ℝ, 10 ≤ t → late1.late t = t - 10 := by
    intro t ht
    rw [late_of_le (by norm_num [late1]; exact ht)]
    norm_num [late1]
  have hcum : ∀ t : ℝ, late1.cum4 t = 1 - (0.5 * t ^ 2 + t + 1) * Real.exp (-t) := by
    intro t
    unfold IC.cum4 IC.gt late1
    simp
  rw [hl 25 (by norm_num), hl 10 le_rfl, hl 15 (by norm_num), late_of_ge (t := 0) (by norm_num [late1]), sub_self, cum4_zero hg, hcum, hcum] at h
  have e5 : Real.exp (-(15 - 10 : ℝ)) = Real.exp (-1) ^ 5 := by rw [← Real.exp_nat_mul]; norm_num
  have h5 : Real.exp (-1) ^ 5 ≤ 0.36789 ^ 5 := pow_le_pow_left₀ (Real.exp_pos _).le exp_neg_one.2.le 5
  have h15 : 0 ≤ (0.5 * (25 - 10 : ℝ) ^ 2 + (25 - 10) + 1) * Real.exp (-(25 - 10)) := by positivity
  rw [e5] at h
  have hk : (0.5 * (15 - 10 : ℝ) ^ 2 + (15 - 10) + 1) * Real.exp (-1) ^ 5 ≤ 18.5 * 0.36789 ^ 5 := by
    calc _ = 18.5 * Real.exp (-1) ^ 5 := by norm_num
      _ ≤ _ := by gcongr
  have hn : (18.5 : ℝ) * 0.36789 ^ 5 ≤ 0.13 := by norm_num
  linarith

end Verif.Ikeda
