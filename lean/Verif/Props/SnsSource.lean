import Verif.Lemmas.SnsSource
import Mathlib.Analysis.SpecialFunctions.Integrals.Basic
/-!
C212–C223: the sources of the SNS.
-/

namespace Verif.SnsSource
open Classical McConst

/-- C212, partial: between two points of the table `linfuncint` is the straight line between them.  Missing: a place outside of the
table is not reported, see `C212_outside_false`. -/
theorem C212_linear_partial {xs ys : List ℝ} (hx : Increasing xs) {len : ℕ} (hl : len < xs.length) (hl' : len < ys.length) {i : ℕ}
    (hi : i < len) {s : ℝ} (h0 : 0 ≤ s) (h1 : s ≤ 1) :
    linfuncint ((1 - s) * nth xs i + s * nth xs (i + 1)) len xs ys = .ok ((1 - s) * nth ys i + s * nth ys (i + 1)) := by
  have hlt := hx i (i + 1) (by omega) (by omega)
  rw [linfuncint_ok hx hl hl' hi (by nlinarith) (by nlinarith)]
  unfold line
  congr 1
  have hd : nth xs (i + 1) - nth xs i ≠ 0 := (sub_pos.2 hlt).ne'
  field_simp
  ring

theorem incr4 : Increasing [1, 2, 3, 4, 5] := by
  intro i j hij hj
  simp only [List.length_cons, List.length_nil] at hj
  have : ∀ k < 5, nth [1, 2, 3, 4, 5] k = (k : ℝ) + 1 := by
    intro k hk
    interval_cases k <;> norm_num [nth]
  rw [this i (by omega), this j (by omega)]
  have : (i : ℝ) < j := by exact_mod_cast hij
  linarith

example : Increasing [1, 2, 3, 4, 5] ∧ 2 < [(1 : ℝ), 2, 3, 4, 5].length ∧ nth [1, 2, 3, 4, 5] 2 = 3 :=
  ⟨incr4, by decide, by norm_num [nth]⟩

/-- C212 is false: above the last point of the table the last line is continued without a message, below the first one a value before the
array is read -/
theorem C212_outside_false {xs ys : List ℝ} (hx : Increasing xs) {len : ℕ} (h0 : 0 < len) (hl : len < xs.length) (hl' : len < ys.length)
    (x : ℝ) :
    (nth xs len < x → linfuncint x len xs ys = .ok (line (nth xs (len - 1)) (nth xs len) (nth ys (len - 1)) (nth ys len) x)) ∧
    (x < nth xs 0 → linfuncint x len xs ys = .error .undef) := by
  constructor
  · intro h
    have hs : scan xs x len 0 = .ok len := by
      obtain ⟨k, e, k1, k2, k3, k4⟩ := scan_spec (xs := xs) (x := x) (n := len) (idx := 0) (by omega)
      rw [e]
      congr 1
      rcases k4 with k4 | k4
      · omega
      · have := incr_le hx (i := k) (j := len) (by omega) hl
        linarith
    unfold linfuncint
    rw [hs]
    simp only [bind_ok]
    rw [get_ok hl]
    simp only [bind_ok]
    rw [if_neg h.ne, if_neg (by omega), get_ok (by omega), get_ok (by omega), get_ok (by omega)]
    simp only [bind_ok]
    exact linint_ok (hx _ _ (by omega) hl).ne
  · intro h
    unfold linfuncint
    rw [scan_ok hx (n := len) (idx := 0) (j := 0) (by omega) le_rfl (by omega) h.le (.inl rfl)]
    simp only [bind_ok]
    rw [get_ok (by omega)]
    simp only [bind_ok]
    rw [if_neg h.ne', if_pos trivial]

/-- C213, partial: `quadfuncint` gives the values of the table (but not the first one) -/
theorem C213_points_partial {xs ys : List ℝ} (hx : Increasing xs) {len : ℕ} (hl : len < xs.length) (hl' : len < ys.length) {i : ℕ}
    (h0 : 1 ≤ i) (hi : i ≤ len) : quadfuncint (nth xs i) len xs ys = .ok (nth ys i) :=
  quad_at hx hl hl' h0 hi

/-- C213, partial: for the values of a quadratic function it gives this function, from the second point of the table on, and beyond
its end.  Missing: the first interval, see `C213_first_false`, and the result between the points is not between the values, see
`C213_monotone_false`. -/
theorem C213_quadratic_partial {xs ys : List ℝ} (hx : Increasing xs) {len : ℕ} (h0 : 2 ≤ len) (hl : len < xs.length)
    (hl' : len < ys.length) {a b c : ℝ} (hq : ∀ i ≤ len, nth ys i = a * nth xs i ^ 2 + b * nth xs i + c) {x : ℝ} (h1 : nth xs 1 ≤ x) :
    quadfuncint x len xs ys = .ok (a * x ^ 2 + b * x + c) := by
  have key : ∀ i, 2 ≤ i → i ≤ len →
      quadint x (nth xs (i - 2)) (nth xs (i - 1)) (nth xs i) (nth ys (i - 2)) (nth ys (i - 1)) (nth ys i) = .ok (a * x ^ 2 + b * x + c) := by
    intro i hi hi'
    have e1 := hx (i - 2) (i - 1) (by omega) (by omega)
    have e2 := hx (i - 1) i (by omega) (by omega)
    rw [quadint_ok e1 e2, hq i hi', hq (i - 1) (by omega), hq (i - 2) (by omega)]
    generalize nth xs (i - 2) = p at *
    generalize nth xs (i - 1) = q at *
    generalize nth xs i = r at *
    have a1 : p - q ≠ 0 := by intro; linarith
    have a1' : q - p ≠ 0 := by intro; linarith
    have b1 : q - r ≠ 0 := by intro; linarith
    have b1' : r - q ≠ 0 := by intro; linarith
    have c1 : p - r ≠ 0 := by intro; linarith
    have c1' : r - p ≠ 0 := by intro; linarith
    congr 1
    rw [show r - p = -(p - r) by ring, show q - p = -(p - q) by ring, show r - q = -(q - r) by ring]
    field_simp
    ring
  obtain ⟨k, e, k1, k2, k3, k4⟩ := scan_spec (xs := xs) (x := x) (n := len - 1) (idx := 1) (by omega)
  rcases k4 with k4 | k4
  · obtain rfl : k = len := by omega
    rcases lt_trichotomy (nth xs k) x with h | h | h
    · rw [quad_above hx hl hl' h0 h, key k h0 le_rfl]
    · rw [← h, quad_at hx hl hl' (by omega) le_rfl, hq k le_rfl]
    · rw [quad_between hx hl hl' h0 le_rfl (k3 (k - 1) (by omega) (by omega)) h, key k h0 le_rfl]
  · rcases k4.eq_or_lt with h | h
    · rw [h, quad_at hx hl hl' k1 (by omega), hq k (by omega)]
    · have hk : 2 ≤ k := by
        by_contra hc
        obtain rfl : k = 1 := by omega
        linarith
      rw [quad_between hx hl hl' hk (by omega) (k3 (k - 1) (by omega) (by omega)) h, key k hk (by omega)]

example : ∀ i ≤ 4, nth [1, 4, 9, 16, 25] i = 1 * nth [1, 2, 3, 4, 5] i ^ 2 + 0 * nth [1, 2, 3, 4, 5] i + 0 := by
  intro i hi
  interval_cases i <;> norm_num [nth]

/-- C213 is false: below the second point of the table, and at the first one too, a value before the array is read -/
theorem C213_first_false {xs ys : List ℝ} (hx : Increasing xs) {len : ℕ} (h0 : 1 ≤ len) (hl : len < xs.length) {x : ℝ}
    (h : x < nth xs 1) : quadfuncint x len xs ys = .error .undef := by
  unfold quadfuncint
  rw [scan_ok hx (n := len - 1) (idx := 1) (j := 1) (by omega) le_rfl (by omega) h.le (.inl rfl)]
  simp only [bind_ok]
  rw [get_ok (by omega)]
  simp only [bind_ok]
  rw [if_neg h.ne', if_pos (by norm_num)]

example : nth [1, 2, 3, 4, 5] 0 < nth [1, 2, 3, 4, 5] 1 := incr4 0 1 (by norm_num) (by decide)

/-- C213 is false: the values of a distribution rise to 1, the interpolated one is above 1 and falls -/
theorem C213_monotone_false : quadfuncint 3.5 4 [1, 2, 3, 4, 5] [0, 0, 1, 1, 1] = .ok 1.125 ∧
    quadfuncint 4 4 [1, 2, 3, 4, 5] [0, 0, 1, 1, 1] = .ok 1 := by
  constructor
  · rw [quad_between incr4 (by decide) (by decide) (i := 3) (by decide) (by decide) (by norm_num [nth]) (by norm_num [nth]),
      quadint_ok (by norm_num [nth]) (by norm_num [nth])]
    norm_num [nth]
  · have := quad_at (ys := [0, 0, 1, 1, 1]) incr4 (len := 4) (by decide) (by decide) (i := 3) (by decide) (by decide)
    norm_num [nth] at this
    exact this

/-- C214, partial: the result of `integ1` is the trapezoidal rule with so many halvings that the last one changed nothing that matters; for
a continuous function with an integral that is not 0 the loop ends.  Missing: the result need not be near the integral, see
`C214_integral_false`. -/
theorem C214_trapezoids_partial {func : ℝ → Except Stop ℝ} {f : ℝ → ℝ} {a b err : ℝ} (hab : a ≤ b)
    (h : ∀ x, a ≤ x → x ≤ b → func x = .ok (f x)) :
    (∀ n r, integ1 func a b err n = .ok r → ∃ j, r = trapezoidal_integral f (2 ^ (j + 1)) a b ∧
      |r - trapezoidal_integral f (2 ^ j) a b| ≤ err * |r|) ∧
    (ContinuousOn f (Set.Icc a b) → ∫ x in a..b, f x ≠ 0 → 0 < err → ∃ N, ∀ n, N ≤ n → ∃ r, integ1 func a b err n = .ok r) := by
  constructor
  · intro n r hr
    rw [integ1_eq hab h] at hr
    rcases integLoop_ok (err := err) hab h n 0 with ⟨j, h1, h2, h3⟩ | ⟨h1, -⟩
    · rw [h2] at hr
      cases hr
      obtain ⟨j, rfl⟩ : ∃ i, j = i + 1 := ⟨j - 1, by omega⟩
      exact ⟨j, rfl, h3⟩
    · rw [h1] at hr; cases hr
  · intro hf hI he
    set I := ∫ x in a..b, f x with hIdef
    have hpos : 0 < |I| := abs_pos.2 hI
    set ε := min (|I| / 2) (err * |I| / 8) with hε
    have hε0 : 0 < ε := by rw [hε]; apply lt_min <;> positivity
    obtain ⟨N0, hN0⟩ := trap_tendsto hab hf hε0
    refine ⟨N0, fun n hn => ?_⟩
    rw [integ1_eq hab h]
    rcases integLoop_ok (err := err) hab h n 0 with ⟨j, h1, h2, h3⟩ | ⟨-, h2⟩
    · exact ⟨_, h2⟩
    · exfalso
      have hp : N0 ≤ 2 ^ n := hn.trans (Nat.lt_two_pow_self).le
      have t1 := hN0 (2 ^ n) hp
      have t2 := hN0 (2 ^ (n + 1)) (hp.trans (Nat.pow_le_pow_right (by norm_num) (by omega)))
      have h3 := h2 (n + 1) (by omega) (by omega)
      rw [Nat.add_sub_cancel] at h3
      generalize trapezoidal_integral f (2 ^ n) a b = T1 at *
      generalize trapezoidal_integral f (2 ^ (n + 1)) a b = T2 at *
      have e1 : ε ≤ |I| / 2 := min_le_left _ _
      have e2 : ε ≤ err * |I| / 8 := min_le_right _ _
      have d : |T2 - T1| ≤ 2 * ε := by
        rw [abs_le] at t1 t2 ⊢
        constructor <;> linarith [t1.1, t1.2, t2.1, t2.2]
      have hT2 : |I| / 2 ≤ |T2| := by
        have := abs_sub_abs_le_abs_sub I T2
        rw [abs_sub_comm] at this
        linarith
      have : err * (|I| / 2) ≤ err * |T2| := mul_le_mul_of_nonneg_left hT2 he.le
      nlinarith

example : ContinuousOn (fun x : ℝ => x ^ 2) (Set.Icc 0 1) ∧ ∫ x in (0 : ℝ)..1, x ^ 2 ≠ 0 := by
  refine ⟨by fun_prop, ?_⟩
  rw [integral_pow]
  norm_num

/-- C214, partial: for a straight line the result is the integral -/
theorem C214_line_partial {func : ℝ → Except Stop ℝ} {a b m c : ℝ} (hab : a ≤ b) (h : ∀ x, a ≤ x → x ≤ b → func x = .ok (m * x + c))
    {err : ℝ} (he : 0 ≤ err) (n : ℕ) : integ1 func a b err n = .ok (∫ x in a..b, m * x + c) := by
  rw [integ1_affine he (h a le_rfl hab) (h b hab le_rfl) (h _ (by linarith) (by linarith)), intervalIntegral.integral_add
    (by apply Continuous.intervalIntegrable; fun_prop) (by simp), intervalIntegral.integral_const_mul, integral_id,
    intervalIntegral.integral_const, smul_eq_mul]
  congr 1
  ring

/-- C214 is false: for a table with a peak between the limits and the middle the result is a third of the area under the polygon -/
theorem C214_integral_false (n : ℕ) : integ1 (fun x => linfuncint x 4 [1, 2, 3, 4, 5] [1, 5, 1, 5, 1]) 1 5 0.001 n = .ok 4 ∧
    area [1, 2, 3, 4, 5] [1, 5, 1, 5, 1] 0 4 = 12 := by
  constructor
  · have key : ∀ i < 4, ∀ x, nth [1, 2, 3, 4, 5] i ≤ x → x ≤ nth [1, 2, 3, 4, 5] (i + 1) →
        linfuncint x 4 [1, 2, 3, 4, 5] [1, 5, 1, 5, 1] = .ok (line (nth [1, 2, 3, 4, 5] i) (nth [1, 2, 3, 4, 5] (i + 1))
          (nth [1, 5, 1, 5, 1] i) (nth [1, 5, 1, 5, 1] (i + 1)) x) := fun i hi x h1 h2 =>
      linfuncint_ok incr4 (by decide) (by decide) hi h1 h2
    have k1 := key 0 (by norm_num) 1 (by norm_num [nth]) (by norm_num [nth])
    have k2 := key 3 (by norm_num) 5 (by norm_num [nth]) (by norm_num [nth])
    have k3 := key 1 (by norm_num) 3 (by norm_num [nth]) (by norm_num [nth])
    norm_num [nth, line] at k1 k2 k3
    have := integ1_affine (func := fun x => linfuncint x 4 [1, 2, 3, 4, 5] [1, 5, 1, 5, 1]) (low := 1) (high := 5) (err := 0.001)
      (m := 0) (c := 1) (by norm_num) (by rw [k1]; norm_num) (by rw [k2]; norm_num)
      (by rw [show ((1 : ℝ) + 5) / 2 = 3 by norm_num, k3]; norm_num) n
    rw [this]
    norm_num
  · unfold area
    rw [Finset.sum_Ico_eq_sum_range]
    norm_num [Finset.sum_range_succ, nth]

/-- C215: for the polygon through the points of the table, the limits being points of the table, `Pcalc` gives the area under the polygon
up to each point as a part of the whole area -/
theorem C215_distribution {xs ys : List ℝ} (hx : Increasing xs) {len : ℕ} (h0 : 2 ≤ len) (hl : len + 1 < xs.length) (hl' : len < ys.length)
    (hA : 0 < area xs ys 1 len) (turns : ℕ) :
    ∃ P, pcalc (fun x => linfuncint x len xs ys) (nth xs 1) (nth xs len) xs len turns = .ok (P, 2, len + 1) ∧ P.length = len + 1 ∧
      nth P 0 = 0 ∧ ∀ i, 1 ≤ i → i ≤ len → nth P i = area xs ys 1 i / area xs ys 1 len := by
  unfold pcalc
  rw [below_ok hx (k := 1) (by omega) le_rfl (hx _ _ (by omega) (by omega)) (by omega) (by omega)]
  simp only [bind_ok]
  rw [if_neg (by norm_num), get_ok (by omega)]
  simp only [bind_ok]
  have h12 := hx 1 2 (by omega) (by omega)
  have hs := seg_ok (ys := ys) hx (by omega) hl' (i := 1) (by omega) (a := nth xs 1) (b := nth xs 2) (err := 0.001) (by norm_num) le_rfl h12.le
    le_rfl turns
  rw [line_left, line_right h12] at hs
  have hfirst : area xs ys 1 2 = (nth xs 2 - nth xs 1) * (nth ys 1 + nth ys 2) / 2 := by
    rw [area_first (by omega), area_self, add_zero]
  rw [hs, ← hfirst]
  simp only [bind_ok]
  obtain ⟨P, e1, e2, e3, e4⟩ := accum_ok (ys := ys) hx (len := len) (m := len) (by omega) hl' le_rfl hl le_rfl
    (hx len (len + 1) (by omega) hl) turns (n := xs.length + 1) (idx := 2 + 1) (P := List.replicate 2 0 ++ [area xs ys 1 2]) (by omega)
    (by omega) (by omega) (by simp) (by simp)
  rw [show 1 + 1 + 1 = 2 + 1 by rfl, show 1 + 1 = 2 by rfl, e1]
  simp only [bind_ok]
  have hlen : P.length = len + 1 := by
    rw [e2]
    split_ifs with h
    · rfl
    · simp; omega
  have hval : ∀ i, 1 ≤ i → i ≤ len → nth P i = area xs ys 1 i := by
    intro i hi hi'
    by_cases h3 : 3 ≤ i
    · rw [e4 i h3 hi']
      have : area xs ys 1 i = area xs ys 1 2 + area xs ys 2 i := by rw [area_first (by omega), hfirst]
      rw [this]
      norm_num [nth]
    · rw [e3 i (by omega)]
      obtain rfl | rfl : i = 1 ∨ i = 2 := by omega
      · rw [area_self]; norm_num [nth]
      · norm_num [nth]
  have hval0 : nth P 0 = 0 := by rw [e3 0 (by omega)]; norm_num [nth]
  obtain ⟨P', n1, n2, n3⟩ := normalise_ok (P := P) (len := len) (start := 2) (stop := len + 1) hlen (by omega)
  rw [n1]
  refine ⟨P', rfl, by rw [n2]; omega, ?_, fun i hi hi' => ?_⟩
  · rw [n3 0 (by omega), if_neg (by omega), hval0]
  · rw [n3 i (by omega), Nat.add_sub_cancel, hval i hi hi', hval len (by omega) le_rfl]
    by_cases h2 : 2 ≤ i
    · rw [if_pos ⟨h2, hA⟩]
    · obtain rfl : i = 1 := by omega
      rw [if_neg (by omega), area_self, zero_div]

example : 0 < area [1, 2, 3, 4, 5] [1, 5, 1, 5] 1 3 := by
  unfold area
  rw [Finset.sum_Ico_eq_sum_range]
  norm_num [Finset.sum_range_succ, nth]

/-- C216, partial: `tPcalc` gives the area under the polygon up to each point as a part of the whole area, if the lower limit is a point
of the table.  Missing: other limits, see `C216_limit_false` and `C216_first_false`. -/
theorem C216_distribution_partial {xs ys : List ℝ} (hx : Increasing xs) {len k m : ℕ} (hk : k < m) (hm : m ≤ len) (hl : len < xs.length)
    (hl' : len < ys.length) (hm' : m + 1 < xs.length) {llim hlim : ℝ} (h1 : nth xs m ≤ hlim) (h2 : hlim < nth xs (m + 1))
    (h3 : nth xs k = llim) (hA : 0 < area xs ys k m) (turns : ℕ) :
    ∃ P, tpcalc (fun x => linfuncint x len xs ys) llim hlim xs len turns = .ok (P, k + 1, m + 1) ∧ P.length = max len (m + 1) ∧
      (∀ i < k, nth P i = 0) ∧ ∀ i, k ≤ i → i ≤ m → nth P i = area xs ys k i / area xs ys k m := by
  obtain ⟨P, e1, e2, e3, e4⟩ := tpcalc_ok hx hk hm hl hl' hm' h1 h2 h3.le (h3 ▸ hx _ _ (by omega) (by omega)) turns
  refine ⟨P, e1, e2, fun i hi => e3 i hi.le, fun i hi hi' => ?_⟩
  rcases hi.eq_or_lt with rfl | hi
  · rw [e3 k le_rfl, area_self, zero_div]
  · rw [e4 i hi hi', if_pos hA]

example : (0 : ℝ) < area [1, 2, 3, 4, 5] [1, 5, 1, 5] 1 3 ∧ nth [1, 2, 3, 4, 5] 1 = 2 ∧ nth [1, 2, 3, 4, 5] 3 ≤ 4.5 ∧
    4.5 < nth [1, 2, 3, 4, 5] (3 + 1) := by
  unfold area
  rw [Finset.sum_Ico_eq_sum_range]
  norm_num [Finset.sum_range_succ, nth]

/-- C216 is false: a constant intensity between the limits 1.5 and 3.  One third of the area between the limits is below the second point (and
that is what the code computes first, and overwrites); the result is one half. -/
theorem C216_limit_false (turns : ℕ) : ∃ P, tpcalc (fun x => linfuncint x 3 [1, 2, 3, 4, 5] [1, 1, 1, 1]) 1.5 3 [1, 2, 3, 4, 5] 3 turns =
    .ok (P, 1, 3) ∧ nth P 1 = 1 / 2 ∧ (∫ _ in (1.5 : ℝ)..2, (1 : ℝ)) / (∫ _ in (1.5 : ℝ)..3, (1 : ℝ)) = 1 / 3 := by
  obtain ⟨P, e1, -, -, e4⟩ := tpcalc_ok (xs := [1, 2, 3, 4, 5]) (ys := [1, 1, 1, 1]) incr4 (len := 3) (k := 0) (m := 2) (by omega) (by omega)
    (by decide) (by decide) (by decide) (llim := 1.5) (hlim := 3) (by norm_num [nth]) (by norm_num [nth]) (by norm_num [nth])
    (by norm_num [nth]) turns
  have a1 : area [1, 2, 3, 4, 5] [1, 1, 1, 1] 0 1 = 1 := by
    unfold area; rw [Finset.sum_Ico_eq_sum_range]; norm_num [nth]
  have a2 : area [1, 2, 3, 4, 5] [1, 1, 1, 1] 0 2 = 2 := by
    unfold area; rw [Finset.sum_Ico_eq_sum_range]; norm_num [Finset.sum_range_succ, nth]
  refine ⟨P, e1, ?_, ?_⟩
  · rw [e4 1 (by omega) (by omega), a1, a2]; norm_num
  · simp; norm_num

/-- C216 is false: if the first time is above the lower limit (0.1 µs in the components), a value before the array is read -/
theorem C216_first_false {xs ys : List ℝ} (hx : Increasing xs) {len : ℕ} (hl : len < xs.length) {llim hlim : ℝ} (h1 : llim < nth xs 0)
    (turns : ℕ) : tpcalc (fun x => linfuncint x len xs ys) llim hlim xs len turns = .error .undef := by
  unfold tpcalc
  have hb : below xs llim (xs.length + 1) 0 = .ok 0 := by
    unfold below
    rw [get_ok (by omega), bind_ok, if_neg (not_le.2 h1)]
  rw [hb]
  simp only [bind_ok]
  rw [get_ok (by omega)]
  simp only [bind_ok]
  have : integ1 (fun x => linfuncint x len xs ys) llim (nth xs 0) 0.001 turns = .error .undef := by
    have hlow : linfuncint llim len xs ys = .error .undef := by
      unfold linfuncint
      rw [scan_ok hx (n := len) (idx := 0) (j := 0) (by omega) le_rfl (by omega) h1.le (.inl rfl)]
      simp only [bind_ok]
      rw [get_ok (by omega)]
      simp only [bind_ok]
      rw [if_neg h1.ne', if_pos trivial]
    have : linfuncint (nth xs 0) len xs ys = get ys 0 := by
      unfold linfuncint
      rw [scan_ok hx (n := len) (idx := 0) (j := 0) (by omega) le_rfl (by omega) le_rfl (.inl rfl)]
      simp only [bind_ok]
      rw [get_ok (by omega)]
      simp only [bind_ok, if_true]
    unfold integ1 integtrap
    rw [if_pos rfl]
    simp only [hlow, this]
    unfold get
    cases ys[0]? <;> rfl
  rw [this]
  rfl

example : (0.1 : ℝ) < nth [1, 2, 3, 4, 5] 0 ∧ nth [1, 2, 3, 4, 5] 0 ≤ 1.8e3 := by norm_num [nth]

/-- C217, partial: a continuous function that is negative at `xmin` and positive from some place on: `zero_find` ends and finds a place where
the function is 0 up to the tolerance.  Missing: functions that are not negative at `xmin`, see `C217_first_false`, `C217_sign_false`,
`C217_source_false`. -/
theorem C217_root_partial {func : ℝ → Except Stop ℝ} {f : ℝ → ℝ} {y xmin xmax tol : ℝ} (h0 : 0 < xmin) (h1 : xmin < xmax) (hy : 0 < y)
    (ht : 0 < tol) (hf : ∀ x, xmin ≤ x → func x = .ok (f x)) (hc : ContinuousOn f (Set.Ici xmin)) (hn : f xmin < 0) {X : ℝ}
    (hp : ∀ x, X ≤ x → 0 < f x) :
    ∃ N, ∀ n, N ≤ n → ∃ r, zeroFind func y xmin xmax tol n = .ok r ∧ xmin ≤ r ∧ |f r| ≤ tol := by
  set xh0 := (10 : ℝ) ^ (Real.logb 10 xmin + y * (Real.logb 10 xmax - Real.logb 10 xmin)) with hxh
  have hd : 0 < xh0 - xmin := sub_pos.2 (zero_start h0 h1 hy)
  obtain ⟨k, hk⟩ : ∃ k : ℕ, X ≤ xmin + 3 ^ k * (xh0 - xmin) := by
    obtain ⟨k, hk⟩ := pow_unbounded_of_one_lt ((X - xmin) / (xh0 - xmin)) (by norm_num : (1 : ℝ) < 3)
    exact ⟨k, by rw [div_lt_iff₀ hd] at hk; linarith⟩
  -- a bound for the bisection for each of the places where the first loop may end
  have hb : ∀ j : ℕ, 0 < f (xmin + 3 ^ j * (xh0 - xmin)) → ∃ N, ∀ n, N ≤ n →
      ∃ r, bisect func tol n (xmin + 3 ^ j * (xh0 - xmin) - xmin) xmin = .ok r ∧ |f r| ≤ tol ∧ xmin ≤ r := by
    intro j hj
    set xh := xmin + 3 ^ j * (xh0 - xmin) with hxhj
    have hlt : xmin < xh := by
      have : 0 < (3 : ℝ) ^ j * (xh0 - xmin) := by positivity
      linarith
    have huc := isCompact_Icc.uniformContinuousOn_of_continuous (hc.mono (Set.Icc_subset_Ici_self : Set.Icc xmin xh ⊆ _))
    rw [Metric.uniformContinuousOn_iff] at huc
    obtain ⟨δ, hδ, H⟩ := huc tol ht
    obtain ⟨N, hN⟩ := pow_unbounded_of_one_lt ((xh - xmin) / δ) (by norm_num : (1 : ℝ) < 2)
    rw [div_lt_iff₀ hδ] at hN
    refine ⟨N, fun n hn' => ?_⟩
    obtain ⟨r, r1, r2, r3, -⟩ := bisect_ok (func := func) (f := f) (tol := tol) (xl := xmin) (xh := xh) (δ := δ)
      (fun x a _ => hf x a) (fun x y a b c d e => by
        have := H x ⟨a, b⟩ y ⟨c, d⟩ (by rwa [Real.dist_eq])
        rwa [Real.dist_eq] at this) (n := n) (dx := xh - xmin) (rtb := xmin) (by linarith) le_rfl (by linarith) hn
        (by rw [add_sub_cancel]; exact hj.le) (hN.trans_le (mul_le_mul_of_nonneg_right
          (pow_le_pow_right₀ (by norm_num) hn') hδ.le))
    exact ⟨r, r1, r2, r3⟩
  choose! B hB using hb
  refine ⟨max k ((Finset.range (k + 1)).sup B), fun n hn' => ?_⟩
  obtain ⟨j, j1, j2, j3⟩ := widen_ok (func := func) (f := f) (f0 := f xmin) (xl := xmin) hn hf (k := k) (n := n) hd
    ((le_max_left _ _).trans hn') (hp _ hk)
  rw [add_sub_cancel] at j2
  obtain ⟨r, r1, r2, r3⟩ := hB j j3 n ((Finset.le_sup (f := B) (Finset.mem_range.2 (by omega))).trans ((le_max_right _ _).trans hn'))
  refine ⟨r, ?_, r3, r2⟩
  unfold zeroFind
  rw [log10_ok h0, log10_ok (h0.trans h1), hf xmin le_rfl]
  simp only [bind_ok]
  rw [← hxh, j2]
  simp only [bind_ok]
  exact r1

/-- a distribution 1 - 1/x, with the random number 1/2 -/
example : ContinuousOn (fun x : ℝ => 1 - 1 / x - 1 / 2) (Set.Ici 1) ∧ (1 : ℝ) - 1 / 1 - 1 / 2 < 0 ∧ ∀ x : ℝ, 3 ≤ x → 0 < 1 - 1 / x - 1 / 2 := by
  refine ⟨?_, by norm_num, fun x hx => ?_⟩
  · apply ContinuousOn.sub _ continuousOn_const
    apply ContinuousOn.sub continuousOn_const
    exact continuousOn_const.div continuousOn_id (fun x hx => by have : (1 : ℝ) ≤ x := hx; show x ≠ 0; linarith)
  · have : 1 / x ≤ 1 / 3 := one_div_le_one_div_of_le (by norm_num) hx
    linarith

/-- C217 is false: an increasing function that is not negative at `xmin`, e.g. one that is 0 there: the loop never ends -/
theorem C217_first_false {func : ℝ → Except Stop ℝ} {f : ℝ → ℝ} {y xmin xmax tol : ℝ} (h0 : 0 < xmin) (h1 : xmin ≤ xmax) (hy : 0 ≤ y)
    (hf : ∀ x, xmin ≤ x → func x = .ok (f x)) (hn : ∀ x, xmin ≤ x → 0 ≤ f x * f xmin) (n : ℕ) :
    zeroFind func y xmin xmax tol n = .error .running := by
  unfold zeroFind
  rw [log10_ok h0, log10_ok (h0.trans_le h1), hf xmin le_rfl]
  simp only [bind_ok]
  rw [widen_running hf hn n (zero_start_le h0 h1 hy)]
  rfl

/-- the place `xmin` is the zero -/
example : ∀ x : ℝ, 1 ≤ x → 0 ≤ (x - 1) * ((1 : ℝ) - 1) := by intro x hx; simp

/-- C217 is false: a decreasing function, positive at `xmin` and with a zero: the bisection goes to the other side and never ends -/
theorem C217_sign_false (n : ℕ) : zeroFind (fun x => .ok (2 - x)) 1 1 4 1e-5 n = .error .running := by
  have h4 : (10 : ℝ) ^ (Real.logb 10 1 + 1 * (Real.logb 10 4 - Real.logb 10 1)) = 4 := by
    rw [show Real.logb 10 1 + 1 * (Real.logb 10 4 - Real.logb 10 1) = Real.logb 10 4 by ring]
    exact Real.rpow_logb (by norm_num) (by norm_num) (by norm_num)
  have key : ∀ (n : ℕ) (dx : ℝ), 0 ≤ dx → dx ≤ 1.5 → bisect (fun x => .ok (2 - x)) 1e-5 n dx (4 - dx) = .error .running := by
    intro n
    induction n with
    | zero =>
      intro dx h1 h2
      unfold bisect
      simp only [bind_ok]
      rw [if_pos]
      rw [abs_of_neg (by norm_num at h2 ⊢; linarith)]
      norm_num at h2 ⊢; linarith
    | succ n ih =>
      intro dx h1 h2
      unfold bisect
      simp only [bind_ok]
      rw [if_pos, if_pos (by norm_num at h2 ⊢; linarith)]
      · have := ih (dx * 0.5) (by norm_num; linarith) (by norm_num at h2 ⊢; linarith)
        rwa [show 4 - dx + dx * 0.5 = 4 - dx * 0.5 by norm_num; ring]
      · rw [abs_of_neg (by norm_num at h2 ⊢; linarith)]
        norm_num at h2 ⊢; linarith
  unfold zeroFind
  rw [log10_ok (by norm_num), log10_ok (by norm_num)]
  simp only [bind_ok]
  rw [h4]
  have hw : widen (fun x => .ok (2 - x)) (2 - 1) 1 n 4 = .ok 4 := by
    unfold widen
    simp only [bind_ok]
    rw [if_neg (by norm_num)]
  rw [hw]
  simp only [bind_ok]
  unfold bisect
  simp only [bind_ok]
  rw [if_pos (by norm_num)]
  cases n with
  | zero => rfl
  | succ n =>
    simp only
    rw [if_pos (by norm_num)]
    have := key n 1.5 (by norm_num) (by norm_num)
    norm_num at this ⊢
    exact this

/-- the source of `C217_source_false`: a constant spectrum from 1 eV to 6 eV; the distribution is that of `C215_distribution` -/
noncomputable def flat : Source :=
  { width := 0.1, height := 0.1, dist := 1, xw := 0.1, yh := 0.1, Emin := 2000, Emax := 5000, angling := 0,
    inxvec := [1, 2, 3, 4, 5, 6], inyvec := [1, 1, 1, 1, 1, 1], Pvec := [0, 0, 1 / 3, 2 / 3, 1], tcol := [], Ecol := [],
    Ptmat := fun _ _ => 0, xylength := 4, idxstart := 2, idxstop := 5, tidxstart := 0, tidxstop := 0, ntvals := 0, nEvals := 0 }

theorem incr6 : Increasing [1, 2, 3, 4, 5, 6] := by
  intro i j hij hj
  simp only [List.length_cons, List.length_nil] at hj
  have : ∀ k < 6, nth [1, 2, 3, 4, 5, 6] k = (k : ℝ) + 1 := by
    intro k hk
    interval_cases k <;> norm_num [nth]
  rw [this i (by omega), this j (by omega)]
  have : (i : ℝ) < j := by exact_mod_cast hij
  linarith

/-- C217 is false for a source: energies from 2 eV to 5 eV, inside of the table.  For the random number 1/6, i.e. an energy between 2 eV and
3 eV, the search for the energy never ends. -/
theorem C217_source_false (turns : ℕ) : flat.energy turns (1 / 6) = .error .running := by
  have hmax : quadfuncint 5 4 [1, 2, 3, 4, 5, 6] [0, 0, 1 / 3, 2 / 3, 1] = .ok 1 := by
    have := quad_at (ys := [0, 0, 1 / 3, 2 / 3, 1]) incr6 (len := 4) (by decide) (by simp) (i := 4) (by decide) (by decide)
    norm_num [nth] at this ⊢
    exact this
  have hmin : quadfuncint 2 4 [1, 2, 3, 4, 5, 6] [0, 0, 1 / 3, 2 / 3, 1] = .ok 0 := by
    have := quad_at (ys := [0, 0, 1 / 3, 2 / 3, 1]) incr6 (len := 4) (by decide) (by simp) (i := 1) (by decide) (by decide)
    norm_num [nth] at this ⊢
    exact this
  have hle : ∀ x : ℝ, 3 ≤ x → ∃ y, quadfuncint x 4 [1, 2, 3, 4, 5, 6] [0, 0, 1 / 3, 2 / 3, 1] = .ok y ∧ 1 / 3 ≤ y := by
    intro x hx
    rcases hx.eq_or_lt with rfl | hx
    · have := quad_at (ys := [0, 0, 1 / 3, 2 / 3, 1]) incr6 (len := 4) (by decide) (by simp) (i := 2) (by decide) (by decide)
      norm_num [nth] at this ⊢
      exact ⟨_, this, le_rfl⟩
    rcases lt_trichotomy x 4 with h | rfl | h
    · rw [quad_between incr6 (by decide) (by simp) (i := 3) (by decide) (by decide) (by norm_num [nth]; linarith) (by norm_num [nth]; linarith),
        quadint_ok (by norm_num [nth]) (by norm_num [nth])]
      refine ⟨_, rfl, ?_⟩
      norm_num [nth]
      nlinarith
    · have := quad_at (ys := [0, 0, 1 / 3, 2 / 3, 1]) incr6 (len := 4) (by decide) (by simp) (i := 3) (by decide) (by decide)
      norm_num [nth] at this ⊢
      exact ⟨_, this, by norm_num⟩
    rcases lt_trichotomy x 5 with h' | rfl | h'
    · rw [quad_between incr6 (by decide) (by simp) (i := 4) (by decide) (by decide) (by norm_num [nth]; linarith) (by norm_num [nth]; linarith),
        quadint_ok (by norm_num [nth]) (by norm_num [nth])]
      refine ⟨_, rfl, ?_⟩
      norm_num [nth]
      nlinarith
    · exact ⟨_, hmax, by norm_num⟩
    · rw [quad_above incr6 (by decide) (by simp) (by decide) (by norm_num [nth]; linarith), quadint_ok (by norm_num [nth]) (by norm_num [nth])]
      refine ⟨_, rfl, ?_⟩
      norm_num [nth]
      nlinarith
  choose! g hg hg' using hle
  unfold Source.energy flat
  norm_num only
  rw [hmax, hmin]
  simp only [bind_ok]
  rw [get_ok (by decide), get_ok (by decide)]
  simp only [bind_ok]
  apply C217_first_false (f := fun x => g x - 1 / 6)
  · norm_num [nth]
  · norm_num [nth]
  · norm_num
  · intro x hx
    have hx' : 3 ≤ x := by norm_num [nth] at hx; exact hx
    have h3 := hg x hx'
    norm_num at h3 ⊢
    rw [h3]
    rfl
  · intro x hx
    have hx' : 3 ≤ x := by norm_num [nth] at hx; exact hx
    have e1 := hg' x hx'
    have e2 := hg' 3 le_rfl
    norm_num [nth]
    apply mul_nonneg <;> linarith

/-- C218, partial: for a file with all times for each energy the energies and the intensities, and the times but the first one, are those of
the file, whatever the memory behind the lines contains.  Missing: see `C218_junk_false`. -/
theorem C218_table_partial {nT nE : ℕ} {ts es : ℕ → ℝ} {I : ℕ → ℕ → ℝ} (hes : ∀ j, es j ≠ es (j + 1)) (junk : Row)
    {r : Row} {rs : List Row}
    (h : r :: rs = (List.range (nE + 1)).flatMap fun j => (List.range (nT + 1)).map fun i => ⟨ts i, es j, I i j⟩) :
    (∀ j ≤ nE, (reformat r rs junk).1.Ecol j = some (es j)) ∧ (∀ i ≤ nT, ∀ j ≤ nE, (reformat r rs junk).1.Imat i j = some (I i j)) ∧
    ∀ i ≤ nT, 0 < i → (reformat r rs junk).1.tcol i = some (ts i) := by
  obtain ⟨s, hs, he⟩ := reformat_ok hes junk h
  rw [he]
  by_cases hj : junk.E = es nE
  · have : s.next (es nE) junk = s.store junk := by unfold Tab.next; rw [if_pos hj]
    rw [this]
    refine ⟨fun j hj => hs.E j hj, fun i hi j hj => ?_, fun i hi hi' => ?_⟩
    · show (if _ then _ else s.Imat i j) = _
      rw [hs.i3, if_neg (by omega), hs.Im i (by omega) j hj]
    · show Function.update s.tcol s.idx3 _ i = _
      rw [hs.i3, Function.update_of_ne (by omega), hs.t i (by omega)]
  · have : s.next (es nE) junk = Tab.store ⟨Function.update s.Ecol (s.idx2 + 1) (some junk.E), s.tcol, s.Imat, s.idx2 + 1, 0,
        some s.idx3⟩ junk := by unfold Tab.next; rw [if_neg hj]
    rw [this]
    refine ⟨fun j hj => ?_, fun i hi j hj => ?_, fun i hi hi' => ?_⟩
    · show Function.update s.Ecol (s.idx2 + 1) _ j = _
      rw [hs.i2, Function.update_of_ne (by omega), hs.E j hj]
    · show (if i = 0 ∧ j = s.idx2 + 1 then _ else s.Imat i j) = _
      rw [hs.i2, if_neg (by omega), hs.Im i (by omega) j hj]
    · show Function.update s.tcol 0 _ i = _
      rw [Function.update_of_ne (by omega), hs.t i (by omega)]

/-- two energies and two times -/
example : (⟨10, 1, 5⟩ : Row) :: [⟨20, 1, 6⟩, ⟨10, 2, 7⟩, ⟨20, 2, 8⟩] = (List.range (1 + 1)).flatMap fun j => (List.range (1 + 1)).map fun i =>
    ⟨10 * (i + 1), j + 1, 5 + i + 2 * j⟩ := by
  simp [List.range_succ]
  norm_num

/-- C218 is false: what the memory behind the lines contains becomes the first time, or the last energy is not counted; the number of times is
one too large and there is no value for the last one -/
theorem C218_junk_false {nT nE : ℕ} {ts es : ℕ → ℝ} {I : ℕ → ℕ → ℝ} (hes : ∀ j, es j ≠ es (j + 1)) (junk : Row) {r : Row} {rs : List Row}
    (h : r :: rs = (List.range (nE + 1)).flatMap fun j => (List.range (nT + 1)).map fun i => ⟨ts i, es j, I i j⟩) :
    (junk.E ≠ es nE → (reformat r rs junk).1.tcol 0 = some junk.t ∧ (reformat r rs junk).2.1 = some (nT + 2) ∧
      (reformat r rs junk).1.tcol (nT + 1) = none ∧ (reformat r rs junk).2.2 = nE + 1) ∧
    (junk.E = es nE → (reformat r rs junk).2.2 = nE) := by
  obtain ⟨s, hs, he⟩ := reformat_ok hes junk h
  constructor
  · intro hj
    have : s.next (es nE) junk = Tab.store ⟨Function.update s.Ecol (s.idx2 + 1) (some junk.E), s.tcol, s.Imat, s.idx2 + 1, 0,
        some s.idx3⟩ junk := by unfold Tab.next; rw [if_neg hj]
    rw [he, this]
    refine ⟨?_, ?_, ?_, ?_⟩
    · show Function.update s.tcol 0 (some junk.t) 0 = some junk.t
      rw [Function.update_self]
    · show some (s.idx3 + 1) = _
      rw [hs.i3]
    · show Function.update s.tcol 0 (some junk.t) (nT + 1) = _
      rw [Function.update_of_ne (by omega), hs.t' _ le_rfl]
    · show s.idx2 + 1 = _
      rw [hs.i2]
  · intro hj
    have : s.next (es nE) junk = s.store junk := by unfold Tab.next; rw [if_pos hj]
    rw [he, this]
    exact hs.i2

/-- C219, partial: without rotation every neutron goes forwards and is within the width of the rectangle when it gets there.  Missing: the
height, see `C219_height_false`; what is proved is that the height multiplied with the cosine is within. -/
theorem C219_focus_partial {c : Source} (hd : 0 < c.dist) (hw : 0 ≤ c.xw) (hh : 0 ≤ c.yh) (x y : ℝ) {u3 u4 v : ℝ} (h3 : 0 ≤ u3) (h3' : u3 ≤ 1)
    (h4 : 0 ≤ u4) (h4' : u4 ≤ 1) (hv : 0 < v) :
    let w := direction v (c.angles x y u3 u4).1 (c.angles x y u3 u4).2
    0 < w.z ∧ |x + c.dist / w.z * w.x| ≤ c.xw / 2 ∧ |y + c.dist / w.z * w.y * Real.cos (c.angles x y u3 u4).1| ≤ c.yh / 2 := by
  obtain ⟨t1, t2, t3⟩ := aim_ok hd hw x h3 h3'
  obtain ⟨p1, p2, p3⟩ := aim_ok hd hh y h4 h4'
  have ht : (c.angles x y u3 u4).1 = Real.arctan (-(c.xw / 2 + x) / c.dist) +
    (Real.arctan ((c.xw / 2 - x) / c.dist) - Real.arctan (-(c.xw / 2 + x) / c.dist)) * u3 := rfl
  have hp : (c.angles x y u3 u4).2 = Real.arctan (-(c.yh / 2 + y) / c.dist) +
    (Real.arctan ((c.yh / 2 - y) / c.dist) - Real.arctan (-(c.yh / 2 + y) / c.dist)) * u4 := rfl
  rw [← ht] at t1 t2 t3
  rw [← hp] at p1 p2 p3
  generalize (c.angles x y u3 u4).1 = θ at *
  generalize (c.angles x y u3 u4).2 = φ at *
  have hct : 0 < Real.cos θ := Real.cos_pos_of_mem_Ioo ⟨t1, t2⟩
  have hcp : 0 < Real.cos φ := Real.cos_pos_of_mem_Ioo ⟨p1, p2⟩
  simp only [direction]
  refine ⟨by positivity, ?_, ?_⟩
  · rw [show c.dist / (v * Real.cos φ * Real.cos θ) * (v * Real.cos φ * Real.sin θ) = c.dist * Real.tan θ by
      rw [Real.tan_eq_sin_div_cos]; field_simp]
    exact t3
  · rw [show c.dist / (v * Real.cos φ * Real.cos θ) * (v * Real.sin φ) * Real.cos θ = c.dist * Real.tan φ by
      rw [Real.tan_eq_sin_div_cos]; field_simp]
    exact p3

/-- C219 is false: from the middle of the source towards a corner of the rectangle, the neutron is above the rectangle (by the factor √2) -/
theorem C219_height_false {c : Source} (hd : c.dist = 1) (hw : c.xw = 2) (hh : c.yh = 2) {v : ℝ} (hv : 0 < v) :
    let w := direction v (c.angles 0 0 1 1).1 (c.angles 0 0 1 1).2
    c.place 0.5 0.5 = (0, 0) ∧ 0 < w.z ∧ c.dist / w.z * w.y = √2 ∧ c.yh / 2 < √2 := by
  have e : c.angles 0 0 1 1 = (Real.pi / 4, Real.pi / 4) := by
    unfold Source.angles
    rw [hd, hw, hh]
    norm_num
  rw [e, hd, hh]
  have h2 : (0 : ℝ) < √2 := by positivity
  have hs : √2 * √2 = (2 : ℝ) := Real.mul_self_sqrt (by norm_num)
  simp only [direction, Real.cos_pi_div_four, Real.sin_pi_div_four]
  refine ⟨by unfold Source.place; norm_num, by positivity, ?_, ?_⟩
  · field_simp
    nlinarith
  · rw [show (2 : ℝ) / 2 = 1 by norm_num]
    exact Real.lt_sqrt_of_sq_lt (by norm_num)

/-- C220: the neutron starts on the source, its speed is that of its energy, the rotation is one about the y axis by minus the angle, and
the weight is the same for all neutrons: solid angle times the integrated spectrum -/
theorem C220_neutron {c : Source} {n : ℕ} {u1 u2 u3 u4 u5 u6 : ℝ} {e : Event ℝ} (h : c.trace n u1 u2 u3 u4 u5 u6 = .ok e)
    (h1 : 0 ≤ u1 ∧ u1 ≤ 1) (h2 : 0 ≤ u2 ∧ u2 ≤ 1) (hw : 0 ≤ c.width) (hh : 0 ≤ c.height) :
    ∃ E N t : ℝ, c.energy n u5 = .ok E ∧ c.time n E u6 = .ok t ∧ e.t = t / 10 ^ 6 ∧ 0 ≤ E ∧
      integ1 (fun x => linfuncint x c.xylength c.inxvec c.inyvec) (c.Emin / 1000) (c.Emax / 1000) 0.001 n = .ok N ∧
      |e.r.x| ≤ c.width / 2 ∧ |e.r.y| ≤ c.height / 2 ∧ e.r.z = 0 ∧
      e.v.x ^ 2 + e.v.y ^ 2 + e.v.z ^ 2 = SE2V ^ 2 * (1000 * E) ∧ e.p = c.xw * c.yh / c.dist ^ 2 * N := by
  unfold Source.trace at h
  cases hE : c.energy n u5 with
  | error s => rw [hE] at h; simp only [bind_error] at h; cases h
  | ok E =>
    rw [hE] at h
    simp only [bind_ok] at h
    cases ht : c.time n E u6 with
    | error s => rw [ht] at h; simp only [bind_error] at h; cases h
    | ok t =>
      rw [ht] at h
      simp only [bind_ok] at h
      cases hN : integ1 (fun x => linfuncint x c.xylength c.inxvec c.inyvec) (c.Emin / 1000) (c.Emax / 1000) 0.001 n with
      | error s => rw [hN] at h; simp only [bind_error] at h; cases h
      | ok N =>
        rw [hN] at h
        simp only [bind_ok] at h
        by_cases hE0 : E * 1000 < 0
        · rw [if_pos hE0] at h; cases h
        · rw [if_neg hE0] at h
          cases h
          have hsq := Real.sq_sqrt (not_lt.1 hE0)
          refine ⟨E, N, t, rfl, ht, by norm_num; ring, by linarith, rfl, ?_, ?_, rfl, ?_, ?_⟩
          · show |(u1 - 0.5) * c.width| ≤ _
            rw [abs_mul, abs_of_nonneg hw]
            have : |u1 - 0.5| ≤ 1 / 2 := by rw [abs_le]; constructor <;> norm_num <;> linarith [h1.1, h1.2]
            nlinarith
          · show |(u2 - 0.5) * c.height| ≤ _
            rw [abs_mul, abs_of_nonneg hh]
            have : |u2 - 0.5| ≤ 1 / 2 := by rw [abs_le]; constructor <;> norm_num <;> linarith [h2.1, h2.2]
            nlinarith
          · simp only [angled, direction]
            generalize c.angling * Real.pi / 180 = a
            generalize (c.angles (c.place u1 u2).1 (c.place u1 u2).2 u3 u4).1 = θ
            generalize (c.angles (c.place u1 u2).1 (c.place u1 u2).2 u3 u4).2 = φ
            have s1 := Real.sin_sq_add_cos_sq a
            have s2 := Real.sin_sq_add_cos_sq θ
            have s3 := Real.sin_sq_add_cos_sq φ
            generalize √(E * 1000) = q at *
            linear_combination (SE2V * q * Real.cos φ) ^ 2 * (Real.sin θ ^ 2 + Real.cos θ ^ 2) * s1 + (SE2V * q * Real.cos φ) ^ 2 * s2 +
              (SE2V * q) ^ 2 * s3 + SE2V ^ 2 * hsq
          · show c.xw * c.yh / (c.dist * c.dist) * (N / 1) = _
            rw [div_one, sq]

/-- a source with a constant spectrum, for which a neutron of about 3.5 eV is made.  The table `Pvec` is not normalised to keep the
numbers simple. -/
example : ∃ n e, Source.trace ⟨0.1, 0.1, 1, 0.1, 0.1, 2000, 5000, 0, [1, 2, 3, 4, 5, 6], [1, 1, 1, 1, 1, 1], [0, 1, 2, 3, 4], [1, 2],
    [1, 2, 3, 4, 5, 6], fun _ _ => 0, 4, 1, 4, 0, 2, 2, 6⟩ n 0.2 0.3 0.4 0.5 0.5 0.6 = .ok e := by
  have hq : ∀ x : ℝ, 2 ≤ x → quadfuncint x 4 [1, 2, 3, 4, 5, 6] [0, 1, 2, 3, 4] = .ok (x - 1) := by
    intro x hx
    have := C213_quadratic_partial (ys := [0, 1, 2, 3, 4]) incr6 (len := 4) (by decide) (by decide) (by decide) (a := 0) (b := 1) (c := -1)
      (fun i hi => by interval_cases i <;> norm_num [nth]) (x := x) (by norm_num [nth]; linarith)
    rw [this]
    congr 1; ring
  obtain ⟨N, hN⟩ := C217_root_partial (func := fun x => do .ok ((← quadfuncint x 4 [1, 2, 3, 4, 5, 6] [0, 1, 2, 3, 4]) - 5 / 2))
    (f := fun x => x - 7 / 2) (y := 5 / 2) (xmin := 2) (xmax := 5) (tol := 1e-5) (by norm_num) (by norm_num) (by norm_num) (by norm_num)
    (fun x hx => by rw [hq x hx, bind_ok]; congr 1; ring) (by fun_prop) (by norm_num) (X := 4) (fun x hx => by linarith)
  obtain ⟨r, h1, h2, h3⟩ := hN N le_rfl
  have h3' : |r - 7 / 2| ≤ 1 / 100000 := by norm_num at h3; exact h3
  rw [abs_le] at h3'
  have hlin : integ1 (fun x => linfuncint x 4 [1, 2, 3, 4, 5, 6] [1, 1, 1, 1, 1, 1]) (2000 / 1000) (5000 / 1000) 0.001 N =
      .ok (∫ x in (2000 / 1000 : ℝ)..(5000 / 1000), 0 * x + 1) := by
    apply C214_line_partial (by norm_num) _ (by norm_num)
    intro x hx hx'
    have key : ∀ i < 4, nth [1, 2, 3, 4, 5, 6] i ≤ x → x ≤ nth [1, 2, 3, 4, 5, 6] (i + 1) →
        linfuncint x 4 [1, 2, 3, 4, 5, 6] [1, 1, 1, 1, 1, 1] = .ok (0 * x + 1) := by
      intro i hi a b
      rw [linfuncint_ok incr6 (by decide) (by decide) hi a b]
      interval_cases i <;> norm_num [line, nth]
    rcases le_total x 3 with h | h
    · exact key 1 (by decide) (by norm_num [nth]; linarith) (by norm_num [nth]; linarith)
    rcases le_total x 4 with h | h
    · exact key 2 (by decide) (by norm_num [nth]; linarith) (by norm_num [nth]; linarith)
    · exact key 3 (by decide) (by norm_num [nth]; linarith) (by norm_num [nth]; linarith)
  refine ⟨N, ?_⟩
  unfold Source.trace
  have hE : Source.energy ⟨0.1, 0.1, 1, 0.1, 0.1, 2000, 5000, 0, [1, 2, 3, 4, 5, 6], [1, 1, 1, 1, 1, 1], [0, 1, 2, 3, 4], [1, 2],
      [1, 2, 3, 4, 5, 6], fun _ _ => 0, 4, 1, 4, 0, 2, 2, 6⟩ N 0.5 = .ok r := by
    unfold Source.energy
    simp only
    rw [hq (5000 / 1000) (by norm_num), hq (2000 / 1000) (by norm_num)]
    simp only [bind_ok]
    rw [get_ok (by decide), get_ok (by decide)]
    simp only [bind_ok]
    rw [show (2000 / 1000 - 1 + 0.5 * (5000 / 1000 - 1 - (2000 / 1000 - 1)) : ℝ) = 5 / 2 by norm_num]
    exact h1
  rw [hE]
  simp only [bind_ok]
  have ht : Source.time ⟨0.1, 0.1, 1, 0.1, 0.1, 2000, 5000, 0, [1, 2, 3, 4, 5, 6], [1, 1, 1, 1, 1, 1], [0, 1, 2, 3, 4], [1, 2],
      [1, 2, 3, 4, 5, 6], fun _ _ => 0, 4, 1, 4, 0, 2, 2, 6⟩ N r 0.6 = .ok 0 := by
    unfold Source.time Source.curve
    simp only
    rw [bracket_ok incr6 (j := 3) (by decide) (by decide) (by decide) (by norm_num [nth]; linarith) (.inr (by norm_num [nth]; linarith))]
    simp only [bind_ok]
    rw [if_neg (by decide), get_ok (by decide), get_ok (by decide)]
    simp only [bind_ok]
    have hv : values (fun i => linint r (nth [1, 2, 3, 4, 5, 6] (3 - 1)) (nth [1, 2, 3, 4, 5, 6] 3) 0 0) 2 = .ok [0, 0] := by
      unfold values
      rw [linint_ok (by norm_num [nth])]
      norm_num [line]
      rfl
    rw [hv]
    simp only [bind_ok]
    rw [if_neg (by decide), get_ok (by decide), get_ok (by decide)]
    simp only [bind_ok]
    rw [if_neg (by norm_num [nth])]
  rw [ht]
  simp only [bind_ok]
  rw [hlin]
  simp only [bind_ok]
  rw [if_neg (by linarith)]
  exact ⟨_, rfl⟩

/-- C220: the rotation turns the direction in the horizontal plane by minus the angle -/
theorem C220_rotation (a v θ φ : ℝ) : angled a (direction v θ φ) = direction v (θ - a * Real.pi / 180) φ := by
  unfold angled direction
  simp only [Real.sin_sub, Real.cos_sub]
  ext <;> simp <;> ring

example : angled 90 (direction 1 0 0) = ⟨-1, 0, 0⟩ := by
  rw [C220_rotation, show (0 : ℝ) - 90 * Real.pi / 180 = -(Real.pi / 2) by ring]
  unfold direction
  simp

/-- C221, partial: for an energy above the first one of the table and not above the last one, the distribution of the times is the mixture of
those of the next energies; it is a distribution again.  Missing: energies up to the first one, see `C221_first_false`. -/
theorem C221_mixture_partial {c : Source} (hx : Increasing c.Ecol) (hn : c.nEvals ≤ c.Ecol.length) {i : ℕ} (hi : i + 1 < c.nEvals) {E : ℝ}
    (h1 : nth c.Ecol i < E) (h2 : E ≤ nth c.Ecol (i + 1)) :
    ∃ f s, c.curve E = .ok f ∧ 0 ≤ s ∧ s ≤ 1 ∧ E = (1 - s) * nth c.Ecol i + s * nth c.Ecol (i + 1) ∧
      ∀ k, f k = .ok ((1 - s) * c.Ptmat k i + s * c.Ptmat k (i + 1)) := by
  have hlt := hx i (i + 1) (by omega) (by omega)
  have hd : nth c.Ecol (i + 1) - nth c.Ecol i ≠ 0 := (sub_pos.2 hlt).ne'
  refine ⟨fun k => linint E (nth c.Ecol i) (nth c.Ecol (i + 1)) (c.Ptmat k i) (c.Ptmat k (i + 1)),
    (E - nth c.Ecol i) / (nth c.Ecol (i + 1) - nth c.Ecol i), ?_, div_nonneg (by linarith) (by linarith),
    (div_le_one (by linarith)).2 (by linarith), ?_, fun k => ?_⟩
  · unfold Source.curve
    rw [bracket_ok hx (j := i + 1) (by omega) (by omega) (by omega) h2 (.inr h1)]
    simp only [bind_ok]
    rw [if_neg (by omega), Nat.add_sub_cancel, get_ok (by omega), get_ok (by omega)]
    rfl
  · field_simp
    ring
  · simp only
    rw [linint_ok hlt.ne]
    unfold line
    congr 1
    field_simp
    ring

example : nth [1, 2, 3, 4, 5] 1 < 2.5 ∧ 2.5 ≤ nth [1, 2, 3, 4, 5] (1 + 1) := by norm_num [nth]

/-- C221 is false: for an energy that is not above the first one of the table, also if it is equal, a value before the arrays is read -/
theorem C221_first_false {c : Source} (hx : Increasing c.Ecol) (hn : c.nEvals ≤ c.Ecol.length) (h0 : 0 < c.nEvals) {E : ℝ}
    (h : E ≤ nth c.Ecol 0) : c.curve E = .error .undef := by
  unfold Source.curve
  rw [bracket_ok hx (j := 0) hn (by omega) h0 h (.inl rfl)]
  simp only [bind_ok]
  rw [if_pos trivial]

/-- C222, partial: if the intensity becomes 0 in the second half of the file (not only in the last line), the table ends there.  Missing: see
`C222_end_false`. -/
theorem C222_zero_partial {ys : List ℝ} {z : ℕ} (h1 : (ys.length - 1) / 2 ≤ z) (h2 : z < ys.length - 1)
    (hp : ∀ i, (ys.length - 1) / 2 ≤ i → i < z → 0 < nth ys i) (hz : nth ys z ≤ 0) : veclen ys = .ok z := by
  unfold veclen
  simp only
  rw [positive_ok h2 (by omega) hz (n := ys.length) (idx := (ys.length - 1) / 2) h1 (by omega) hp]
  simp only [bind_ok]
  rw [if_pos h2]

example : (∀ i, ([1, 2, 2, 0, 0] : List ℝ).length / 2 ≤ i → i < 3 → 0 < nth [1, 2, 2, 0, 0] i) ∧ nth [1, 2, 2, 0, 0] 3 ≤ 0 := by
  refine ⟨fun i h1 h2 => ?_, by norm_num [nth]⟩
  simp at h1
  interval_cases i
  norm_num [nth]

/-- C222 is false: if all intensities are positive, the last two lines are not used.  The last energy of the file is inside of its limits, but its
intensity is the continuation of the line through the points before. -/
theorem C222_end_false : veclen [1, 1, 1, 1, 9] = .ok 2 ∧ linfuncint 5 2 [1, 2, 3, 4, 5] [1, 1, 1, 1, 9] = .ok 1 := by
  constructor
  · unfold veclen
    norm_num [positive, get, bind_ok]
  · rw [(C212_outside_false (ys := [1, 1, 1, 1, 9]) incr4 (len := 2) (by decide) (by decide) (by decide) 5).1 (by norm_num [nth])]
    norm_num [line, nth]

/-- C223, partial: the area of the source of `SNS_source_2020` is that of the rectangle or of the disk.  Missing: see `C223_none_false`. -/
theorem C223_area_partial {radius w h : ℝ} (hr : radius ≠ 0 ∨ (w ≠ 0 ∧ h ≠ 0)) :
    srcArea radius w h = .ok (if radius = 0 then w * h else Real.pi * radius ^ 2) := by
  unfold srcArea
  by_cases h0 : radius = 0
  · rw [if_pos (by tauto), if_pos h0]
  · rw [if_neg (by tauto), if_pos h0, if_neg h0]
    congr 1; ring

/-- C223 is false: without a radius and with a side of 0 (a line) the weights contain a number that was never set -/
theorem C223_none_false (w : ℝ) : srcArea 0 w 0 = .error .undef ∧ srcArea 0 0 w = .error .undef := by
  unfold srcArea
  simp

end Verif.SnsSource
