import Verif.Model.SnsSource
import Verif.Spec.SnsSource
import Mathlib.MeasureTheory.Integral.IntervalIntegral.TrapezoidalRule
import Mathlib.Tactic.LinearCombination
import Mathlib.Tactic.FieldSimp
import Mathlib.Tactic.Ring
import Mathlib.Tactic.Linarith
import Mathlib.Tactic.Positivity
/-!
Helper lemmas for `Props/SnsSource.lean`.
-/

namespace Verif.SnsSource
open Classical

theorem get_ok {v : List ℝ} {i : ℕ} (h : i < v.length) : get v i = .ok (nth v i) := by
  unfold get nth
  simp [List.getElem?_eq_getElem h, List.getD_eq_getElem?_getD]

theorem get_error {v : List ℝ} {i : ℕ} (h : v.length ≤ i) : get v i = .error .undef := by
  unfold get
  rw [List.getElem?_eq_none h]

theorem div_ok {a b : ℝ} (h : b ≠ 0) : div a b = .ok (a / b) := if_neg h

theorem bind_ok {α β : Type} (a : α) (f : α → Except Stop β) : (Except.ok a >>= f) = f a := rfl

theorem bind_error {α β : Type} (s : Stop) (f : α → Except Stop β) : ((Except.error s : Except Stop α) >>= f) = .error s := rfl

/-! ### the scan -/

theorem scan_spec {xs : List ℝ} {x : ℝ} : ∀ {n idx : ℕ}, idx + n < xs.length →
    ∃ j, scan xs x n idx = .ok j ∧ idx ≤ j ∧ j ≤ idx + n ∧ (∀ k, idx ≤ k → k < j → nth xs k < x) ∧ (j = idx + n ∨ x ≤ nth xs j)
  | 0, idx, h => by
    refine ⟨idx, ?_, le_rfl, le_rfl, fun k h1 h2 => by omega, .inl rfl⟩
    unfold scan
    rw [get_ok (by omega), bind_ok]
  | n + 1, idx, h => by
    unfold scan
    rw [get_ok (by omega), bind_ok]
    by_cases hx : nth xs idx < x
    · rw [if_pos hx]
      obtain ⟨j, h1, h2, h3, h4, h5⟩ := scan_spec (xs := xs) (x := x) (n := n) (idx := idx + 1) (by omega)
      refine ⟨j, h1, by omega, by omega, fun k hk hk' => ?_, ?_⟩
      · rcases hk.eq_or_lt with rfl | hk
        · exact hx
        · exact h4 k hk hk'
      · rcases h5 with h5 | h5
        · left; omega
        · exact .inr h5
    · rw [if_neg hx]
      exact ⟨idx, rfl, le_rfl, by omega, fun k h1 h2 => by omega, .inr (not_lt.1 hx)⟩

theorem incr_le {xs : List ℝ} (hx : Increasing xs) {i j : ℕ} (h : i ≤ j) (hj : j < xs.length) : nth xs i ≤ nth xs j := by
  rcases h.eq_or_lt with rfl | h
  · exact le_rfl
  · exact (hx i j h hj).le

/-- the scan in an increasing table: the first value that is not below -/
theorem scan_ok {xs : List ℝ} (hx : Increasing xs) {x : ℝ} {n idx j : ℕ} (h : idx + n < xs.length) (hj : idx ≤ j) (hj' : j ≤ idx + n)
    (h1 : x ≤ nth xs j) (h2 : j = idx ∨ nth xs (j - 1) < x) : scan xs x n idx = .ok j := by
  obtain ⟨k, e, k1, k2, k3, k4⟩ := scan_spec (x := x) h
  rw [e]
  congr 1
  rcases lt_trichotomy k j with hk | hk | hk
  · exfalso
    rcases h2 with h2 | h2
    · omega
    rcases k4 with k4 | k4
    · omega
    · have := incr_le hx (i := k) (j := j - 1) (by omega) (by omega)
      linarith
  · exact hk
  · exfalso
    have := k3 j hj hk
    linarith

theorem linint_ok {x x1 x2 y1 y2 : ℝ} (h : x1 ≠ x2) : linint x x1 x2 y1 y2 = .ok (line x1 x2 y1 y2 x) := by
  unfold linint line
  rw [div_ok (sub_ne_zero.2 h.symm), bind_ok]
  congr 1
  ring

theorem linfuncint_ok {xs ys : List ℝ} (hx : Increasing xs) {len : ℕ} (hl : len < xs.length) (hl' : len < ys.length) {i : ℕ} (hi : i < len)
    {x : ℝ} (h1 : nth xs i ≤ x) (h2 : x ≤ nth xs (i + 1)) :
    linfuncint x len xs ys = .ok (line (nth xs i) (nth xs (i + 1)) (nth ys i) (nth ys (i + 1)) x) := by
  have hlt := hx i (i + 1) (by omega) (by omega)
  have hd : nth xs (i + 1) - nth xs i ≠ 0 := (sub_pos.2 hlt).ne'
  unfold linfuncint
  rcases h1.eq_or_lt with h | h
  · rw [scan_ok hx (n := len) (idx := 0) (j := i) (by omega) (by omega) (by omega) h.ge]
    · simp only [bind_ok]
      rw [get_ok (by omega)]
      simp only [bind_ok]
      rw [if_pos h, get_ok (by omega)]
      unfold line
      rw [← h]; simp
    · rcases Nat.eq_zero_or_pos i with h0 | h0
      · exact .inl h0
      · right; rw [← h]; exact hx _ _ (by omega) (by omega)
  · rw [scan_ok hx (n := len) (idx := 0) (j := i + 1) (by omega) (by omega) (by omega) h2 (.inr (by simpa using h))]
    simp only [bind_ok]
    rw [get_ok (by omega)]
    simp only [bind_ok]
    by_cases he : nth xs (i + 1) = x
    · rw [if_pos he, get_ok (by omega)]
      unfold line
      rw [← he, mul_div_assoc, div_self hd]; ring_nf
    · rw [if_neg he, if_neg (by omega), Nat.add_sub_cancel, get_ok (by omega), get_ok (by omega), get_ok (by omega)]
      simp only [bind_ok]
      exact linint_ok hlt.ne

theorem quadint_ok {x x1 x2 x3 y1 y2 y3 : ℝ} (h12 : x1 < x2) (h23 : x2 < x3) :
    quadint x x1 x2 x3 y1 y2 y3 = .ok ((x - x2) * (x - x3) * y1 / ((x1 - x2) * (x1 - x3)) +
      (x - x1) * (x - x3) * y2 / ((x2 - x1) * (x2 - x3)) + (x - x1) * (x - x2) * y3 / ((x3 - x1) * (x3 - x2))) := by
  have a : x1 - x2 ≠ 0 := by intro; linarith
  have a' : x2 - x1 ≠ 0 := by intro; linarith
  have b : x2 - x3 ≠ 0 := by intro; linarith
  have b' : x3 - x2 ≠ 0 := by intro; linarith
  have c : x1 - x3 ≠ 0 := by intro; linarith
  have c' : x3 - x1 ≠ 0 := by intro; linarith
  unfold quadint
  rw [div_ok (mul_ne_zero a c), div_ok (mul_ne_zero a' b), div_ok (mul_ne_zero c' b')]
  rfl

theorem quad_at {xs ys : List ℝ} (hx : Increasing xs) {len : ℕ} (hl : len < xs.length) (hl' : len < ys.length) {i : ℕ} (h0 : 1 ≤ i)
    (hi : i ≤ len) : quadfuncint (nth xs i) len xs ys = .ok (nth ys i) := by
  unfold quadfuncint
  rw [scan_ok hx (n := len - 1) (idx := 1) (j := i) (by omega) (by omega) (by omega) le_rfl]
  · simp only [bind_ok]
    rw [get_ok (by omega)]
    simp only [bind_ok, if_true]
    rw [get_ok (by omega)]
  · rcases h0.eq_or_lt with h | h
    · exact .inl h.symm
    · exact .inr (hx _ _ (by omega) (by omega))

/-- between the points the parabola through two points before and one behind -/
theorem quad_between {xs ys : List ℝ} (hx : Increasing xs) {len : ℕ} (hl : len < xs.length) (hl' : len < ys.length) {i : ℕ}
    (h0 : 2 ≤ i) (hi : i ≤ len) {x : ℝ} (h1 : nth xs (i - 1) < x) (h2 : x < nth xs i) :
    quadfuncint x len xs ys = quadint x (nth xs (i - 2)) (nth xs (i - 1)) (nth xs i) (nth ys (i - 2)) (nth ys (i - 1)) (nth ys i) := by
  unfold quadfuncint
  rw [scan_ok hx (n := len - 1) (idx := 1) (j := i) (by omega) (by omega) (by omega) h2.le (.inr h1)]
  simp only [bind_ok]
  rw [get_ok (by omega)]
  simp only [bind_ok]
  rw [if_neg h2.ne', if_neg (by omega)]
  rw [get_ok (by omega), get_ok (by omega), get_ok (v := ys) (i := i - 2) (by omega), get_ok (v := ys) (i := i - 1) (by omega),
    get_ok (v := ys) (i := i) (by omega)]
  simp only [bind_ok]

/-- above the last point the last parabola -/
theorem quad_above {xs ys : List ℝ} (hx : Increasing xs) {len : ℕ} (hl : len < xs.length) (hl' : len < ys.length)
    (h0 : 2 ≤ len) {x : ℝ} (h1 : nth xs len < x) :
    quadfuncint x len xs ys =
      quadint x (nth xs (len - 2)) (nth xs (len - 1)) (nth xs len) (nth ys (len - 2)) (nth ys (len - 1)) (nth ys len) := by
  have hs : scan xs x (len - 1) 1 = .ok len := by
    obtain ⟨k, e, k1, k2, k3, k4⟩ := scan_spec (xs := xs) (x := x) (n := len - 1) (idx := 1) (by omega)
    rw [e]
    congr 1
    rcases k4 with k4 | k4
    · omega
    · have := incr_le hx (i := k) (j := len) (by omega) hl
      linarith
  unfold quadfuncint
  rw [hs]
  simp only [bind_ok]
  rw [get_ok (by omega)]
  simp only [bind_ok]
  rw [if_neg h1.ne, if_neg (by omega)]
  rw [get_ok (by omega), get_ok (by omega), get_ok (v := ys) (i := len - 2) (by omega), get_ok (v := ys) (i := len - 1) (by omega),
    get_ok (v := ys) (i := len) (by omega)]
  simp only [bind_ok]

/-! ### the trapezoidal rule -/

theorem integ1_affine {func : ℝ → Except Stop ℝ} {low high err m c : ℝ} (he : 0 ≤ err) (h1 : func low = .ok (m * low + c))
    (h2 : func high = .ok (m * high + c)) (h3 : func ((low + high) / 2) = .ok (m * ((low + high) / 2) + c)) (n : ℕ) :
    integ1 func low high err n = .ok ((high - low) * ((m * low + c) + (m * high + c)) / 2) := by
  have e1 : integtrap func 0 low high 1 = .ok ((high - low) * ((m * low + c) + (m * high + c)) / 2) := by
    unfold integtrap
    rw [if_pos rfl, h1, h2]
    simp only [bind_ok]
    congr 1; ring
  have e2 : integtrap func ((high - low) * ((m * low + c) + (m * high + c)) / 2) low high 2 =
      .ok ((high - low) * ((m * low + c) + (m * high + c)) / 2) := by
    unfold integtrap
    rw [if_neg (by norm_num)]
    have : low + 0.5 * ((high - low) / ((2 ^ (2 - 2) : ℕ) : ℝ)) = (low + high) / 2 := by norm_num; ring
    have hs : ∀ s, sumLoop func s (2 ^ (2 - 2)) ((low + high) / 2) 0 = .ok (m * ((low + high) / 2) + c) := by
      intro s
      show sumLoop func s 1 _ 0 = _
      simp only [sumLoop, h3, bind_ok, zero_add]
    simp only [this, hs, bind_ok]
    congr 1; norm_num; ring
  unfold integ1
  rw [e1]
  simp only [bind_ok]
  rw [e2]
  simp only [bind_ok]
  unfold integLoop
  rw [if_neg]
  rw [sub_self, abs_zero, gt_iff_lt, not_lt]
  positivity

theorem sumLoop_ok {func : ℝ → Except Stop ℝ} {f : ℝ → ℝ} {s : ℝ} : ∀ {n : ℕ} {x acc : ℝ},
    (∀ i < n, func (x + i * s) = .ok (f (x + i * s))) →
    sumLoop func s n x acc = .ok (acc + ∑ i ∈ Finset.range n, f (x + i * s))
  | 0, x, acc, _ => by simp [sumLoop]
  | n + 1, x, acc, h => by
    unfold sumLoop
    have h0 := h 0 (by omega)
    simp only [Nat.cast_zero, zero_mul, add_zero] at h0
    rw [h0, bind_ok, sumLoop_ok (f := f)]
    · rw [Finset.sum_range_succ']
      congr 1
      rw [add_assoc]
      congr 1
      rw [add_comm]
      simp only [Nat.cast_zero, zero_mul, add_zero]
      congr 1
      refine Finset.sum_congr rfl fun i _ => ?_
      congr 1
      push_cast
      ring
    · intro i hi
      have := h (i + 1) (by omega)
      push_cast at this
      rw [show x + s + i * s = x + (i + 1) * s by ring]
      exact this

theorem sum_double (g : ℕ → ℝ) : ∀ N : ℕ, ∑ i ∈ Finset.range (2 * N), g i = ∑ i ∈ Finset.range N, (g (2 * i) + g (2 * i + 1))
  | 0 => rfl
  | N + 1 => by
    rw [show 2 * (N + 1) = 2 * N + 1 + 1 by ring, Finset.sum_range_succ, Finset.sum_range_succ, sum_double g N,
      Finset.sum_range_succ, add_assoc]

/-- halving all intervals of the trapezoidal rule -/
theorem trap_double (f : ℝ → ℝ) {N : ℕ} (hN : 0 < N) (a b : ℝ) :
    trapezoidal_integral f (2 * N) a b = 0.5 * (trapezoidal_integral f N a b +
      (b - a) * (∑ i ∈ Finset.range N, f (a + 0.5 * ((b - a) / N) + i * ((b - a) / N))) / N) := by
  have hN' : (N : ℝ) ≠ 0 := by positivity
  obtain ⟨h, rfl⟩ : ∃ h, b = a + N * h := ⟨(b - a) / N, by field_simp; ring⟩
  have e1 : a + N * h = a + ((2 * N : ℕ) : ℝ) * (h / 2) := by push_cast; ring
  have e2 : (a + N * h - a) / N = h := by field_simp; ring
  rw [← sum_trapezoidal_integral_adjacent_intervals hN, e2]
  conv_lhs => rw [e1]
  rw [← sum_trapezoidal_integral_adjacent_intervals (by omega), sum_double]
  rw [show (a + N * h - a) * (∑ i ∈ Finset.range N, f (a + 0.5 * h + i * h)) / N =
    h * ∑ i ∈ Finset.range N, f (a + 0.5 * h + i * h) by field_simp; ring, Finset.mul_sum, ← Finset.sum_add_distrib,
    Finset.mul_sum]
  refine Finset.sum_congr rfl fun i _ => ?_
  simp only [trapezoidal_integral_one]
  push_cast
  rw [show a + 2 * (i : ℝ) * (h / 2) = a + i * h by ring, show a + (2 * (i : ℝ) + 1) * (h / 2) = a + 0.5 * h + i * h by norm_num; ring,
    show a + (2 * (i : ℝ) + 1 + 1) * (h / 2) = a + (i + 1) * h by ring]
  norm_num
  ring

theorem integtrap_one {func : ℝ → Except Stop ℝ} {f : ℝ → ℝ} {a b : ℝ} (h1 : func a = .ok (f a)) (h2 : func b = .ok (f b)) (prev : ℝ) :
    integtrap func prev a b 1 = .ok (trapezoidal_integral f 1 a b) := by
  unfold integtrap
  rw [if_pos rfl, h1, h2, trapezoidal_integral_one]
  simp only [bind_ok]
  congr 1; norm_num; ring

theorem integtrap_double {func : ℝ → Except Stop ℝ} {f : ℝ → ℝ} {a b : ℝ} (hab : a ≤ b) (h : ∀ x, a ≤ x → x ≤ b → func x = .ok (f x))
    (k : ℕ) : integtrap func (trapezoidal_integral f (2 ^ k) a b) a b (k + 2) = .ok (trapezoidal_integral f (2 ^ (k + 1)) a b) := by
  unfold integtrap
  rw [if_neg (by omega), Nat.add_sub_cancel, pow_succ' 2 k, trap_double f (by positivity)]
  simp only
  rw [sumLoop_ok (f := f)]
  · simp only [bind_ok, zero_add]
  · intro i hi
    have hN : (0 : ℝ) < ((2 ^ k : ℕ) : ℝ) := by positivity
    have hi' : (i : ℝ) + 1 ≤ ((2 ^ k : ℕ) : ℝ) := by exact_mod_cast hi
    have hs : 0 ≤ (b - a) / ((2 ^ k : ℕ) : ℝ) := div_nonneg (by linarith) hN.le
    have hb : a + ((2 ^ k : ℕ) : ℝ) * ((b - a) / ((2 ^ k : ℕ) : ℝ)) = b := by field_simp; ring
    apply h
    · have : 0 ≤ (i : ℝ) * ((b - a) / ((2 ^ k : ℕ) : ℝ)) := by positivity
      linarith
    · nlinarith

theorem integLoop_ok {func : ℝ → Except Stop ℝ} {f : ℝ → ℝ} {a b err : ℝ} (hab : a ≤ b)
    (h : ∀ x, a ≤ x → x ≤ b → func x = .ok (f x)) : ∀ (n k : ℕ),
    (∃ j, k < j ∧ integLoop func a b err n (k + 2) (trapezoidal_integral f (2 ^ k) a b) (trapezoidal_integral f (2 ^ (k + 1)) a b) =
      .ok (trapezoidal_integral f (2 ^ j) a b) ∧
      |trapezoidal_integral f (2 ^ j) a b - trapezoidal_integral f (2 ^ (j - 1)) a b| ≤ err * |trapezoidal_integral f (2 ^ j) a b|) ∨
    (integLoop func a b err n (k + 2) (trapezoidal_integral f (2 ^ k) a b) (trapezoidal_integral f (2 ^ (k + 1)) a b) = .error .running ∧
      ∀ j, k < j → j ≤ k + n + 1 →
      err * |trapezoidal_integral f (2 ^ j) a b| < |trapezoidal_integral f (2 ^ j) a b - trapezoidal_integral f (2 ^ (j - 1)) a b|)
  | n, k => by
    unfold integLoop
    by_cases hc : |trapezoidal_integral f (2 ^ (k + 1)) a b - trapezoidal_integral f (2 ^ k) a b| >
      err * |trapezoidal_integral f (2 ^ (k + 1)) a b|
    · rw [if_pos hc]
      cases n with
      | zero =>
        refine .inr ⟨rfl, fun j h1 h2 => ?_⟩
        obtain rfl : j = k + 1 := by omega
        exact hc
      | succ n =>
        simp only
        rw [integtrap_double hab h (k + 1), bind_ok]
        rcases integLoop_ok hab h n (k + 1) with ⟨j, h1, h2, h3⟩ | ⟨h1, h2⟩
        · exact .inl ⟨j, by omega, h2, h3⟩
        · refine .inr ⟨h1, fun j hj hj' => ?_⟩
          rcases (show k + 1 ≤ j from hj).eq_or_lt with rfl | hj
          · exact hc
          · exact h2 j hj (by omega)
    · rw [if_neg hc]
      exact .inl ⟨k + 1, by omega, rfl, not_lt.1 hc⟩

theorem integ1_eq {func : ℝ → Except Stop ℝ} {f : ℝ → ℝ} {a b err : ℝ} (hab : a ≤ b)
    (h : ∀ x, a ≤ x → x ≤ b → func x = .ok (f x)) (n : ℕ) : integ1 func a b err n =
    integLoop func a b err n 2 (trapezoidal_integral f (2 ^ 0) a b) (trapezoidal_integral f (2 ^ 1) a b) := by
  unfold integ1
  rw [integtrap_one (f := f) (h a le_rfl hab) (h b hab le_rfl), bind_ok,
    show trapezoidal_integral f 1 a b = trapezoidal_integral f (2 ^ 0) a b by rw [pow_zero], integtrap_double hab h 0]
  simp only [bind_ok]

/-- the trapezoidal rule converges for a continuous function -/
theorem trap_tendsto {f : ℝ → ℝ} {a b : ℝ} (hab : a ≤ b) (hf : ContinuousOn f (Set.Icc a b)) {ε : ℝ} (he : 0 < ε) :
    ∃ N0, ∀ N, N0 ≤ N → |trapezoidal_integral f N a b - ∫ x in a..b, f x| ≤ ε := by
  have huc := isCompact_Icc.uniformContinuousOn_of_continuous hf
  rw [Metric.uniformContinuousOn_iff] at huc
  obtain ⟨δ, hδ, H⟩ := huc (ε / (b - a + 1)) (by apply div_pos he; linarith)
  obtain ⟨M, hM⟩ := exists_nat_gt ((b - a) / δ)
  refine ⟨M + 1, fun N hN => ?_⟩
  have hN0 : 0 < N := by omega
  have hNr : (0 : ℝ) < N := by exact_mod_cast hN0
  obtain ⟨h, hb⟩ : ∃ h, b = a + N * h := ⟨(b - a) / N, by field_simp; ring⟩
  have hh : 0 ≤ h := by
    by_contra hc
    have : (N : ℝ) * h < 0 := mul_neg_of_pos_of_neg hNr (not_le.1 hc)
    linarith
  have hhd : h < δ := by
    have h1 : (b - a) < M * δ := (div_lt_iff₀ hδ).1 hM
    have h2 : (M : ℝ) * δ ≤ N * δ := by
      apply mul_le_mul_of_nonneg_right _ hδ.le
      exact_mod_cast (by omega : M ≤ N)
    have h3 : (N : ℝ) * h < N * δ := by linarith
    exact lt_of_mul_lt_mul_left h3 hNr.le
  have hsub : ∀ i : ℕ, i < N → Set.Icc (a + i * h) (a + (i + 1) * h) ⊆ Set.Icc a b := by
    intro i hi x hx
    have hi' : (i : ℝ) + 1 ≤ N := by exact_mod_cast hi
    have h1 : 0 ≤ (i : ℝ) * h := by positivity
    have h2 : ((i : ℝ) + 1) * h ≤ N * h := mul_le_mul_of_nonneg_right hi' hh
    exact ⟨by linarith [hx.1], by linarith [hx.2]⟩
  have hle : ∀ i : ℕ, a + i * h ≤ a + (i + 1) * h := fun i => by nlinarith
  have hint : ∀ i : ℕ, i < N → IntervalIntegrable f MeasureTheory.volume (a + i * h) (a + (i + 1) * h) := by
    intro i hi
    apply ContinuousOn.intervalIntegrable
    rw [Set.uIcc_of_le (hle i)]
    exact hf.mono (hsub i hi)
  have hsum : ∫ x in a..b, f x = ∑ i ∈ Finset.range N, ∫ x in (a + i * h)..(a + (i + 1) * h), f x := by
    have := intervalIntegral.sum_integral_adjacent_intervals (μ := MeasureTheory.volume) (f := f) (a := fun i : ℕ => a + i * h) (n := N)
      (by intro i hi; have := hint i hi; push_cast; exact this)
    push_cast at this
    rw [zero_mul, add_zero] at this
    rw [hb]
    exact this.symm
  set η := ε / (b - a + 1) with hη
  have hη0 : 0 < η := by rw [hη]; apply div_pos he; linarith
  have hpiece : ∀ i : ℕ, i < N → |trapezoidal_integral f 1 (a + i * h) (a + (i + 1) * h) - ∫ x in (a + i * h)..(a + (i + 1) * h), f x| ≤ η * h := by
    intro i hi
    have hc : trapezoidal_integral f 1 (a + i * h) (a + (i + 1) * h) =
        ∫ x in (a + i * h)..(a + (i + 1) * h), (f (a + i * h) + f (a + (i + 1) * h)) / 2 := by
      rw [intervalIntegral.integral_const, trapezoidal_integral_one, smul_eq_mul]; ring
    rw [hc, ← intervalIntegral.integral_sub intervalIntegrable_const (hint i hi)]
    have hb' := intervalIntegral.norm_integral_le_of_norm_le_const (a := a + i * h) (b := a + (i + 1) * h) (C := η)
      (f := fun x => (f (a + i * h) + f (a + (i + 1) * h)) / 2 - f x) ?_
    · rw [Real.norm_eq_abs, show a + ((i : ℝ) + 1) * h - (a + i * h) = h by ring, abs_of_nonneg hh] at hb'
      exact hb'
    · intro x hx
      rw [Set.uIoc_of_le (hle i)] at hx
      have hx' : x ∈ Set.Icc (a + i * h) (a + (i + 1) * h) := ⟨hx.1.le, hx.2⟩
      have hl : a + i * h ∈ Set.Icc a b := hsub i hi ⟨le_rfl, hle i⟩
      have hr : a + (i + 1) * h ∈ Set.Icc a b := hsub i hi ⟨hle i, le_rfl⟩
      have d1 := H _ hl _ (hsub i hi hx') (by rw [Real.dist_eq, abs_lt]; constructor <;> nlinarith [hx'.1, hx'.2])
      have d2 := H _ hr _ (hsub i hi hx') (by rw [Real.dist_eq, abs_lt]; constructor <;> nlinarith [hx'.1, hx'.2])
      rw [Real.dist_eq, abs_lt] at d1 d2
      rw [Real.norm_eq_abs, abs_le]
      constructor <;> linarith [d1.1, d1.2, d2.1, d2.2]
  have hT : trapezoidal_integral f N a b = ∑ i ∈ Finset.range N, trapezoidal_integral f 1 (a + i * h) (a + (i + 1) * h) := by
    rw [hb, sum_trapezoidal_integral_adjacent_intervals hN0]
  rw [hT, hsum, ← Finset.sum_sub_distrib]
  refine (Finset.abs_sum_le_sum_abs _ _).trans ((Finset.sum_le_sum fun i hi => hpiece i (Finset.mem_range.1 hi)).trans ?_)
  rw [Finset.sum_const, Finset.card_range, nsmul_eq_mul, show (N : ℝ) * (η * h) = η * (N * h) by ring, show (N : ℝ) * h = b - a by linarith, hη,
    div_mul_eq_mul_div, div_le_iff₀ (by linarith)]
  nlinarith

/-! ### zeros -/

theorem widen_ok {func : ℝ → Except Stop ℝ} {f : ℝ → ℝ} {f0 xl : ℝ} (h0 : f0 < 0) (h : ∀ x, xl ≤ x → func x = .ok (f x)) :
    ∀ {k n : ℕ} {d : ℝ}, 0 < d → k ≤ n → 0 < f (xl + 3 ^ k * d) →
    ∃ j, j ≤ k ∧ widen func f0 xl n (xl + d) = .ok (xl + 3 ^ j * d) ∧ 0 < f (xl + 3 ^ j * d)
  | k, n, d, hd, hk, hf => by
    unfold widen
    rw [h (xl + d) (by linarith)]
    simp only [bind_ok]
    by_cases hc : 0 < f (xl + d)
    · rw [if_neg (by rw [ge_iff_le, not_le]; exact mul_neg_of_pos_of_neg hc h0)]
      exact ⟨0, by omega, by rw [pow_zero, one_mul], by rwa [pow_zero, one_mul]⟩
    · rw [if_pos (mul_nonneg_of_nonpos_of_nonpos (not_lt.1 hc) h0.le)]
      cases k with
      | zero => rw [pow_zero, one_mul] at hf; exact absurd hf hc
      | succ k =>
        cases n with
        | zero => omega
        | succ n =>
          obtain ⟨j, h1, h2, h3⟩ := widen_ok (k := k) (n := n) (d := 3 * d) h0 h (by linarith) (by omega)
            (by rwa [show (3 : ℝ) ^ k * (3 * d) = 3 ^ (k + 1) * d by ring])
          refine ⟨j + 1, by omega, ?_, ?_⟩
          · simp only
            rw [show xl + d + (xl + d - xl) * 2 = xl + 3 * d by ring, h2]
            congr 1; ring
          · rwa [show (3 : ℝ) ^ j * (3 * d) = 3 ^ (j + 1) * d by ring] at h3

theorem bisect_ok {func : ℝ → Except Stop ℝ} {f : ℝ → ℝ} {tol xl xh δ : ℝ} (h : ∀ x, xl ≤ x → x ≤ xh → func x = .ok (f x))
    (hδ : ∀ x y, xl ≤ x → x ≤ xh → xl ≤ y → y ≤ xh → |x - y| < δ → |f x - f y| < tol) :
    ∀ {n : ℕ} {dx rtb : ℝ}, 0 ≤ dx → xl ≤ rtb → rtb + dx ≤ xh → f rtb < 0 → 0 ≤ f (rtb + dx) → dx < 2 ^ n * δ →
    ∃ r, bisect func tol n dx rtb = .ok r ∧ |f r| ≤ tol ∧ xl ≤ r ∧ r ≤ xh
  | n, dx, rtb, hd, h1, h2, h3, h4, h5 => by
    unfold bisect
    rw [h rtb h1 (by linarith)]
    simp only [bind_ok]
    by_cases hc : |f rtb| > tol
    · rw [if_pos hc]
      cases n with
      | zero =>
        exfalso
        have := hδ rtb (rtb + dx) h1 (by linarith) (by linarith) h2
          (by rw [show rtb - (rtb + dx) = -dx by ring, abs_neg, abs_of_nonneg hd]; linarith)
        rw [abs_lt] at this
        rw [abs_of_neg h3] at hc
        linarith [this.1]
      | succ n =>
        simp only
        rw [h (rtb + dx * 0.5) (by norm_num; linarith) (by norm_num; linarith)]
        simp only [bind_ok]
        have h5' : dx * 0.5 < 2 ^ n * δ := by rw [pow_succ] at h5; norm_num; linarith
        by_cases hm : f (rtb + dx * 0.5) < 0
        · rw [if_pos hm]
          refine bisect_ok h hδ (by norm_num; linarith) (by norm_num; linarith) (by norm_num; linarith) hm ?_ h5'
          rw [show rtb + dx * 0.5 + dx * 0.5 = rtb + dx by norm_num; ring]
          exact h4
        · rw [if_neg hm]
          exact bisect_ok h hδ (by norm_num; linarith) h1 (by norm_num; linarith) h3 (not_lt.1 hm) h5'
    · rw [if_neg hc]
      exact ⟨rtb, rfl, not_lt.1 hc, h1, by linarith⟩

theorem widen_running {func : ℝ → Except Stop ℝ} {f : ℝ → ℝ} {f0 xl : ℝ} (h : ∀ x, xl ≤ x → func x = .ok (f x))
    (hs : ∀ x, xl ≤ x → 0 ≤ f x * f0) : ∀ (n : ℕ) {xh : ℝ}, xl ≤ xh → widen func f0 xl n xh = .error .running
  | n, xh, hx => by
    unfold widen
    rw [h xh hx]
    simp only [bind_ok]
    rw [if_pos (hs xh hx)]
    cases n with
    | zero => rfl
    | succ n => exact widen_running h hs n (by linarith)

theorem log10_ok {x : ℝ} (h : 0 < x) : log10 x = .ok (Real.logb 10 x) := if_pos h

theorem zero_start {xmin xmax y : ℝ} (h : 0 < xmin) (h' : xmin < xmax) (hy : 0 < y) :
    xmin < (10 : ℝ) ^ (Real.logb 10 xmin + y * (Real.logb 10 xmax - Real.logb 10 xmin)) := by
  rw [← Real.logb_lt_iff_lt_rpow (by norm_num) h]
  have : Real.logb 10 xmin < Real.logb 10 xmax := Real.logb_lt_logb (by norm_num) h h'
  nlinarith [mul_pos hy (sub_pos.2 this)]

theorem zero_start_le {xmin xmax y : ℝ} (h : 0 < xmin) (h' : xmin ≤ xmax) (hy : 0 ≤ y) :
    xmin ≤ (10 : ℝ) ^ (Real.logb 10 xmin + y * (Real.logb 10 xmax - Real.logb 10 xmin)) := by
  rw [← Real.logb_le_iff_le_rpow (by norm_num) h]
  have : Real.logb 10 xmin ≤ Real.logb 10 xmax := Real.logb_le_logb_of_le (by norm_num) h h'
  nlinarith [mul_nonneg hy (sub_nonneg.2 this)]

/-! ### distributions -/

theorem below_ok {xs : List ℝ} (hx : Increasing xs) {l : ℝ} {k : ℕ} (hk : k + 1 < xs.length) (h1 : nth xs k ≤ l) (h2 : l < nth xs (k + 1)) :
    ∀ {n idx : ℕ}, idx ≤ k + 1 → k + 1 < idx + n → below xs l n idx = .ok (k + 1)
  | 0, idx, h, h' => by omega
  | n + 1, idx, h, h' => by
    unfold below
    rw [get_ok (by omega), bind_ok]
    rcases h.eq_or_lt with rfl | h
    · rw [if_neg (not_le.2 h2)]
    · rw [if_pos ((incr_le hx (by omega) (by omega)).trans h1)]
      exact below_ok hx hk h1 h2 (by omega) (by omega)

theorem seg_ok {xs ys : List ℝ} (hx : Increasing xs) {len : ℕ} (hl : len < xs.length) (hl' : len < ys.length) {i : ℕ} (hi : i < len)
    {a b err : ℝ} (he : 0 ≤ err) (h1 : nth xs i ≤ a) (h2 : a ≤ b) (h3 : b ≤ nth xs (i + 1)) (n : ℕ) :
    integ1 (fun x => linfuncint x len xs ys) a b err n = .ok ((b - a) * (line (nth xs i) (nth xs (i + 1)) (nth ys i) (nth ys (i + 1)) a +
      line (nth xs i) (nth xs (i + 1)) (nth ys i) (nth ys (i + 1)) b) / 2) := by
  have hlt := hx i (i + 1) (by omega) (by omega)
  have hd : nth xs (i + 1) - nth xs i ≠ 0 := (sub_pos.2 hlt).ne'
  have hL : ∀ x, line (nth xs i) (nth xs (i + 1)) (nth ys i) (nth ys (i + 1)) x =
      (nth ys (i + 1) - nth ys i) / (nth xs (i + 1) - nth xs i) * x +
      (nth ys i - (nth ys (i + 1) - nth ys i) / (nth xs (i + 1) - nth xs i) * nth xs i) := by
    intro x
    unfold line
    ring
  rw [hL, hL]
  apply integ1_affine he
  · rw [linfuncint_ok hx hl hl' hi h1 (by linarith), hL]
  · rw [linfuncint_ok hx hl hl' hi (by linarith) h3, hL]
  · rw [linfuncint_ok hx hl hl' hi (by linarith) (by linarith), hL]

theorem line_left {x1 x2 y1 y2 : ℝ} : line x1 x2 y1 y2 x1 = y1 := by unfold line; simp

theorem line_right {x1 x2 y1 y2 : ℝ} (h : x1 < x2) : line x1 x2 y1 y2 x2 = y2 := by
  unfold line
  rw [mul_div_assoc, div_self (sub_pos.2 h).ne']; ring

theorem area_succ {xs ys : List ℝ} {i j : ℕ} (h : i ≤ j) :
    area xs ys i (j + 1) = area xs ys i j + (nth xs (j + 1) - nth xs j) * (nth ys j + nth ys (j + 1)) / 2 := by
  unfold area
  rw [Finset.sum_Ico_succ_top h]

theorem area_self {xs ys : List ℝ} {i : ℕ} : area xs ys i i = 0 := by
  unfold area
  simp

theorem area_first {xs ys : List ℝ} {i j : ℕ} (h : i < j) :
    area xs ys i j = (nth xs (i + 1) - nth xs i) * (nth ys i + nth ys (i + 1)) / 2 + area xs ys (i + 1) j := by
  unfold area
  rw [Finset.sum_eq_sum_Ico_succ_bot h]

theorem put_length {P : List ℝ} {i : ℕ} {v : ℝ} (h : i ≤ P.length) (h' : P.length ≤ i + 1) : (put P i v).length = i + 1 := by
  unfold put
  simp
  omega

theorem put_same {P : List ℝ} {i : ℕ} {v : ℝ} (h : i ≤ P.length) : nth (put P i v) i = v := by
  unfold put nth
  rw [List.getD_eq_getElem?_getD, List.getElem?_append_right (by simp)]
  simp [Nat.min_eq_left h]

theorem put_other {P : List ℝ} {i j : ℕ} {v : ℝ} (h : i ≤ P.length) (hj : j < i) : nth (put P i v) j = nth P j := by
  unfold put nth
  rw [List.getD_eq_getElem?_getD, List.getElem?_append_left (by simp; omega), List.getD_eq_getElem?_getD, List.getElem?_take_of_lt hj]

theorem accum_ok {xs ys : List ℝ} (hx : Increasing xs) {len m : ℕ} (hl : len < xs.length) (hl' : len < ys.length) (hm : m ≤ len)
    (hm' : m + 1 < xs.length) {hlim : ℝ} (h1 : nth xs m ≤ hlim) (h2 : hlim < nth xs (m + 1)) (turns : ℕ) :
    ∀ {n idx : ℕ} {P : List ℝ}, 1 ≤ idx → idx ≤ m + 1 → m + 1 < idx + n → idx ≤ P.length → P.length ≤ idx + 1 →
    ∃ P', accum (fun x => linfuncint x len xs ys) hlim xs turns n idx P = .ok (m + 1, P') ∧
      P'.length = (if idx ≤ m then m + 1 else P.length) ∧ (∀ i < idx, nth P' i = nth P i) ∧
      ∀ i, idx ≤ i → i ≤ m → nth P' i = nth P (idx - 1) + area xs ys (idx - 1) i
  | 0, idx, P, _, _, h, _, _ => by omega
  | n + 1, idx, P, a1, a2, a3, a4, a5 => by
    unfold accum
    rw [get_ok (by omega)]
    simp only [bind_ok]
    by_cases hc : idx ≤ m
    · rw [if_pos ((incr_le hx hc (by omega)).trans h1), if_neg (by omega), get_ok (by omega)]
      simp only [bind_ok]
      have hlt := hx (idx - 1) idx (by omega) (by omega)
      have hs := seg_ok (ys := ys) hx hl hl' (i := idx - 1) (by omega) (a := nth xs (idx - 1)) (b := nth xs idx) (err := 0.001)
        (by norm_num) le_rfl hlt.le (by rw [Nat.sub_add_cancel a1]) turns
      rw [Nat.sub_add_cancel a1, line_left, line_right hlt] at hs
      rw [hs, get_ok (by omega)]
      simp only [bind_ok]
      obtain ⟨P', e1, e2, e3, e4⟩ := accum_ok hx hl hl' hm hm' h1 h2 turns (n := n) (idx := idx + 1)
        (P := put P idx (nth P (idx - 1) + (nth xs idx - nth xs (idx - 1)) * (nth ys (idx - 1) + nth ys idx) / 2))
        (by omega) (by omega) (by omega) (by rw [put_length a4 a5]) (by rw [put_length a4 a5]; omega)
      rw [Nat.add_sub_cancel, put_same a4] at e4
      have hself : nth P' idx = nth P (idx - 1) + (nth xs idx - nth xs (idx - 1)) * (nth ys (idx - 1) + nth ys idx) / 2 := by
        rw [e3 idx (by omega), put_same a4]
      have hfirst : ∀ j, idx ≤ j → area xs ys (idx - 1) j =
          (nth xs idx - nth xs (idx - 1)) * (nth ys (idx - 1) + nth ys idx) / 2 + area xs ys idx j := by
        intro j hj
        rw [area_first (by omega), Nat.sub_add_cancel a1]
      refine ⟨P', e1, ?_, fun i hi => ?_, fun i hi hi' => ?_⟩
      · rw [e2, put_length a4 a5, if_pos hc]
        split_ifs <;> omega
      · rw [e3 i (by omega), put_other a4 hi]
      · rw [hfirst i hi]
        rcases hi.eq_or_lt with rfl | hi
        · rw [hself, area_self, add_zero]
        · rw [e4 i hi hi', add_assoc]
    · obtain rfl : idx = m + 1 := by omega
      rw [if_neg (not_le.2 h2)]
      exact ⟨P, rfl, by rw [if_neg hc], fun _ _ => rfl, fun i h h' => by omega⟩

theorem normalise_ok {P : List ℝ} {len start stop : ℕ} (h : P.length = stop) (h0 : 0 < stop) :
    ∃ P', normalise P len start stop = .ok P' ∧ P'.length = max len stop ∧
      ∀ i < stop, nth P' i = if start ≤ i ∧ 0 < nth P (stop - 1) then nth P i / nth P (stop - 1) else nth P i := by
  subst h
  unfold normalise
  simp only
  rw [if_neg (by omega), List.take_length, List.drop_eq_nil_of_le (by omega), List.append_nil]
  have hn : ∀ i < P.length, nth (P ++ List.replicate (len - P.length) 1) i = nth P i := by
    intro i hi
    unfold nth
    rw [List.getD_eq_getElem?_getD, List.getElem?_append_left hi, List.getD_eq_getElem?_getD]
  have hlen : (P ++ List.replicate (len - P.length) 1).length = max len P.length := by simp; omega
  rw [get_ok (by rw [hlen]; omega), hn _ (by omega)]
  simp only [bind_ok]
  generalize hQ : P ++ List.replicate (len - P.length) (1 : ℝ) = Q at *
  by_cases hpos : nth P (P.length - 1) > 0
  · rw [if_pos hpos]
    refine ⟨_, rfl, by rw [List.length_mapIdx, hlen], fun i hi => ?_⟩
    have : nth (List.mapIdx (fun i p => if start ≤ i ∧ i < P.length then p / nth P (P.length - 1) else p) Q) i =
        if start ≤ i ∧ i < P.length then nth Q i / nth P (P.length - 1) else nth Q i := by
      unfold nth
      have hi' : i < Q.length := by rw [hlen]; omega
      simp [List.getD_eq_getElem?_getD, List.getElem?_mapIdx, List.getElem?_eq_getElem hi']
    rw [this, hn i hi]
    simp only [hi, and_true, hpos]
  · rw [if_neg hpos]
    refine ⟨_, rfl, hlen, fun i hi => ?_⟩
    rw [hn i hi, if_neg (fun hh => hpos hh.2)]

/-- `tPcalc`: the distribution begins at the last point that is not above the lower limit -/
theorem tpcalc_ok {xs ys : List ℝ} (hx : Increasing xs) {len k m : ℕ} (hk : k < m) (hm : m ≤ len) (hl : len < xs.length)
    (hl' : len < ys.length) (hm' : m + 1 < xs.length) {llim hlim : ℝ} (h1 : nth xs m ≤ hlim) (h2 : hlim < nth xs (m + 1))
    (h3 : nth xs k ≤ llim) (h4 : llim < nth xs (k + 1)) (turns : ℕ) :
    ∃ P, tpcalc (fun x => linfuncint x len xs ys) llim hlim xs len turns = .ok (P, k + 1, m + 1) ∧ P.length = max len (m + 1) ∧
      (∀ i ≤ k, nth P i = 0) ∧
      ∀ i, k < i → i ≤ m → nth P i = if 0 < area xs ys k m then area xs ys k i / area xs ys k m else area xs ys k i := by
  unfold tpcalc
  rw [below_ok hx (k := k) (by omega) h3 h4 (by omega) (by omega)]
  simp only [bind_ok]
  rw [get_ok (by omega)]
  simp only [bind_ok]
  rw [seg_ok (ys := ys) hx hl hl' (i := k) (by omega) (by norm_num) h3 h4.le le_rfl turns]
  simp only [bind_ok]
  generalize (nth xs (k + 1) - llim) * _ / 2 = first
  obtain ⟨P, e1, e2, e3, e4⟩ := accum_ok (ys := ys) hx (len := len) (m := m) hl hl' hm hm' h1 h2 turns (n := xs.length + 1)
    (idx := k + 1) (P := List.replicate (k + 1) 0 ++ [first]) (by omega) (by omega) (by omega) (by simp) (by simp)
  rw [e1]
  simp only [bind_ok]
  have hz : ∀ i ≤ k, nth (List.replicate (k + 1) 0 ++ [first]) i = 0 := by
    intro i hi
    unfold nth
    rw [List.getD_eq_getElem?_getD, List.getElem?_append_left (by simp; omega), List.getElem?_replicate]
    split_ifs <;> rfl
  have hval : ∀ i, k < i → i ≤ m → nth P i = area xs ys k i := by
    intro i hi hi'
    rw [e4 i hi hi', Nat.add_sub_cancel, hz k le_rfl, zero_add]
  obtain ⟨P', n1, n2, n3⟩ := normalise_ok (P := P) (len := len) (start := k + 1) (stop := m + 1) (by rw [e2, if_pos (by omega)]) (by omega)
  rw [n1]
  refine ⟨P', rfl, n2, fun i hi => ?_, fun i hi hi' => ?_⟩
  · rw [n3 i (by omega), if_neg (by omega), e3 i (by omega), hz i hi]
  · rw [n3 i (by omega), Nat.add_sub_cancel, hval i hi hi', hval m hk le_rfl]
    by_cases hA : 0 < area xs ys k m
    · rw [if_pos ⟨hi, hA⟩, if_pos hA]
    · rw [if_neg (fun h => hA h.2), if_neg hA]

/-! ### the file -/

theorem run_append (s : Tab) (p : ℝ) (l : List Row) (r : Row) (l' : List Row) (e : ℝ) (hl : ∀ q ∈ l, q.E = e) (hp : p = e) :
    Tab.run s p (l ++ r :: l') = Tab.run ((Tab.run s p l).next e r) r.E l' := by
  subst hp
  induction l generalizing s with
  | nil => rfl
  | cons q l ih =>
    have hq := hl q (by simp)
    simp only [List.cons_append, Tab.run]
    rw [hq]
    exact ih _ (fun q hq => hl q (by simp [hq]))

theorem run_same {e : ℝ} : ∀ (l : List Row) (s : Tab), (∀ q ∈ l, q.E = e) →
    (Tab.run s e l).Ecol = s.Ecol ∧ (Tab.run s e l).idx2 = s.idx2 ∧ (Tab.run s e l).idx3 = s.idx3 + l.length ∧
    (Tab.run s e l).idx3max = s.idx3max ∧
    (∀ i, i < s.idx3 ∨ s.idx3 + l.length ≤ i → (Tab.run s e l).tcol i = s.tcol i) ∧
    (∀ k (h : k < l.length), (Tab.run s e l).tcol (s.idx3 + k) = some (l[k]'h).t) ∧
    (∀ i j, i < s.idx3 ∨ s.idx3 + l.length ≤ i ∨ j ≠ s.idx2 → (Tab.run s e l).Imat i j = s.Imat i j) ∧
    (∀ k (h : k < l.length), (Tab.run s e l).Imat (s.idx3 + k) s.idx2 = some (l[k]'h).I)
  | [], s, _ => by simp [Tab.run]
  | r :: l, s, h => by
    have hr : r.E = e := h r (by simp)
    unfold Tab.run
    rw [hr]
    have hn : s.next e r = s.store r := by unfold Tab.next; rw [if_pos hr]
    rw [hn]
    obtain ⟨a1, a2, a3, a4, a5, a6, a7, a8⟩ := run_same l (s.store r) (fun q hq => h q (by simp [hq]))
    have hi3 : (s.store r).idx3 = s.idx3 + 1 := rfl
    have hi2 : (s.store r).idx2 = s.idx2 := rfl
    rw [hi3] at a3 a5 a6 a7 a8
    rw [hi2] at a7 a8
    have ht : ∀ i, (s.store r).tcol i = Function.update s.tcol s.idx3 (some r.t) i := fun _ => rfl
    have hI : ∀ i j, (s.store r).Imat i j = if i = s.idx3 ∧ j = s.idx2 then some r.I else s.Imat i j := fun _ _ => rfl
    refine ⟨a1, a2, by rw [a3, List.length_cons]; omega, a4, fun i hi => ?_, fun k hk => ?_, fun i j hi => ?_, fun k hk => ?_⟩
    · rw [List.length_cons] at hi
      rw [a5 i (by omega), ht, Function.update_of_ne (by omega)]
    · cases k with
      | zero => rw [add_zero, a5 _ (by omega), ht, Function.update_self]; rfl
      | succ k =>
        have := a6 k (by simpa using hk)
        rw [show s.idx3 + (k + 1) = s.idx3 + 1 + k by omega, this]
        rfl
    · rw [List.length_cons] at hi
      rw [a7 i j (by omega), hI, if_neg (by omega)]
    · cases k with
      | zero => rw [add_zero, a7 _ _ (by omega), hI, if_pos ⟨rfl, rfl⟩]; rfl
      | succ k =>
        have := a8 k (by simpa using hk)
        rw [show s.idx3 + (k + 1) = s.idx3 + 1 + k by omega, this]
        rfl

/-- the lines of one energy -/
def block (nT : ℕ) (ts es : ℕ → ℝ) (I : ℕ → ℕ → ℝ) (j : ℕ) : List Row := (List.range nT).map fun i => ⟨ts i, es j, I i j⟩

theorem block_cons (nT : ℕ) (ts es : ℕ → ℝ) (I : ℕ → ℕ → ℝ) (j : ℕ) : block (nT + 1) ts es I j =
    ⟨ts 0, es j, I 0 j⟩ :: (List.range nT).map fun i => ⟨ts (i + 1), es j, I (i + 1) j⟩ := by
  unfold block
  rw [List.range_succ_eq_map, List.map_cons, List.map_map]
  rfl

theorem run_append' (s : Tab) (p : ℝ) (l : List Row) (e : ℝ) (hl : ∀ q ∈ l, q.E = e) (hp : p = e) (l' : List Row) :
    Tab.run s p (l ++ l') = Tab.run (Tab.run s p l) e l' := by
  subst hp
  induction l generalizing s with
  | nil => rfl
  | cons q l ih =>
    have hq := hl q (by simp)
    simp only [List.cons_append, Tab.run]
    rw [hq]
    exact ih _ (fun q hq => hl q (by simp [hq]))

/-- what the table is after the energies up to number `j` -/
structure Good (nT : ℕ) (ts es : ℕ → ℝ) (I : ℕ → ℕ → ℝ) (j : ℕ) (s : Tab) : Prop where
  E : ∀ k ≤ j, s.Ecol k = some (es k)
  t : ∀ i < nT, s.tcol i = some (ts i)
  t' : ∀ i, nT ≤ i → s.tcol i = none
  Im : ∀ i < nT, ∀ k ≤ j, s.Imat i k = some (I i k)
  i2 : s.idx2 = j
  i3 : s.idx3 = nT
  mx : s.idx3max = if j = 0 then none else some nT

theorem good_of_first {nT : ℕ} {ts es : ℕ → ℝ} {I : ℕ → ℕ → ℝ} {j : ℕ} {s : Tab} (h2 : s.idx2 = j) (h3 : s.idx3 = 1)
    (hE : ∀ k ≤ j, s.Ecol k = some (es k)) (ht : s.tcol 0 = some (ts 0)) (ht' : ∀ i, nT + 1 ≤ i → s.tcol i = none)
    (hI : s.Imat 0 j = some (I 0 j)) (hI' : ∀ i < nT + 1, ∀ k < j, s.Imat i k = some (I i k))
    (hm : s.idx3max = if j = 0 then none else some (nT + 1)) :
    Good (nT + 1) ts es I j (Tab.run s (es j) ((List.range nT).map fun i => ⟨ts (i + 1), es j, I (i + 1) j⟩)) := by
  obtain ⟨a1, a2, a3, a4, a5, a6, a7, a8⟩ := run_same (e := es j) ((List.range nT).map fun i => (⟨ts (i + 1), es j, I (i + 1) j⟩ : Row)) s
    (by intro q hq; simp only [List.mem_map] at hq; obtain ⟨i, -, rfl⟩ := hq; rfl)
  simp only [List.length_map, List.length_range, h3, h2] at a2 a3 a5 a6 a7 a8
  refine ⟨by rw [a1]; exact hE, fun i hi => ?_, fun i hi => ?_, fun i hi k hk => ?_, a2, by rw [a3, add_comm], by rw [a4, hm]⟩
  · cases i with
    | zero => rw [a5 0 (by omega), ht]
    | succ i =>
      have := a6 i (by omega)
      rw [add_comm, this]
      simp [add_comm]
  · rw [a5 i (by omega), ht' i hi]
  · rcases hk.eq_or_lt with rfl | hk
    · cases i with
      | zero => rw [a7 0 _ (by omega), hI]
      | succ i =>
        have := a8 i (by omega)
        rw [add_comm i 1, this]
        simp [add_comm]
    · rw [a7 i k (by omega), hI' i hi k hk]

theorem run_blocks {nT : ℕ} {ts es : ℕ → ℝ} {I : ℕ → ℕ → ℝ} (hes : ∀ j, es j ≠ es (j + 1)) : ∀ (j : ℕ) (l' : List Row),
    ∃ s, Good (nT + 1) ts es I j s ∧
      Tab.run (Tab.start ⟨ts 0, es 0, I 0 0⟩) (es 0) (((List.range (j + 1)).flatMap (block (nT + 1) ts es I)).tail ++ l') =
      Tab.run s (es j) l'
  | 0, l' => by
    refine ⟨Tab.run (Tab.start ⟨ts 0, es 0, I 0 0⟩) (es 0) ((List.range nT).map fun i => ⟨ts (i + 1), es 0, I (i + 1) 0⟩), ?_, ?_⟩
    · refine good_of_first rfl rfl (fun k hk => ?_) rfl (fun i hi => ?_) rfl (fun i hi k hk => by omega) rfl
      · obtain rfl : k = 0 := by omega
        rfl
      · show Function.update _ _ _ _ = _
        rw [Function.update_of_ne (by show i ≠ 0; omega)]
    · simp only [List.range_one, List.flatMap_cons, List.flatMap_nil, List.append_nil, zero_add]
      rw [block_cons, List.tail_cons]
      exact run_append' _ _ _ _ (by intro q hq; simp only [List.mem_map] at hq; obtain ⟨i, -, rfl⟩ := hq; rfl) rfl _
  | j + 1, l' => by
    obtain ⟨s, hs, he⟩ := run_blocks (nT := nT) (ts := ts) (I := I) hes j (block (nT + 1) ts es I (j + 1) ++ l')
    set s1 := s.next (es j) ⟨ts 0, es (j + 1), I 0 (j + 1)⟩ with hs1
    have hs1' : s1 = Tab.store ⟨Function.update s.Ecol (s.idx2 + 1) (some (es (j + 1))), s.tcol, s.Imat, s.idx2 + 1, 0, some s.idx3⟩
        ⟨ts 0, es (j + 1), I 0 (j + 1)⟩ := by
      rw [hs1]; unfold Tab.next; rw [if_neg (hes j).symm]
    refine ⟨Tab.run s1 (es (j + 1)) ((List.range nT).map fun i => ⟨ts (i + 1), es (j + 1), I (i + 1) (j + 1)⟩), ?_, ?_⟩
    · rw [hs1']
      refine good_of_first (by show s.idx2 + 1 = _; rw [hs.i2]) rfl (fun k hk => ?_) ?_ (fun i hi => ?_) ?_ (fun i hi k hk => ?_) ?_
      · show Function.update s.Ecol (s.idx2 + 1) _ k = _
        rw [hs.i2]
        rcases hk.eq_or_lt with rfl | hk
        · rw [Function.update_self]
        · rw [Function.update_of_ne (by omega), hs.E k (by omega)]
      · show Function.update s.tcol 0 (some (ts 0)) 0 = some (ts 0)
        rw [Function.update_self]
      · show Function.update s.tcol 0 _ i = _
        rw [Function.update_of_ne (by omega), hs.t' i hi]
      · show (if _ then _ else _) = _
        rw [if_pos ⟨rfl, by show _ = s.idx2 + 1; rw [hs.i2]⟩]
      · show (if _ then _ else s.Imat i k) = _
        rw [if_neg (by show ¬ (_ ∧ k = s.idx2 + 1); rw [hs.i2]; omega), hs.Im i hi k (by omega)]
      · show some s.idx3 = _
        rw [hs.i3, if_neg (by omega)]
    · have hf : ((List.range (j + 1 + 1)).flatMap (block (nT + 1) ts es I)).tail =
          ((List.range (j + 1)).flatMap (block (nT + 1) ts es I)).tail ++ block (nT + 1) ts es I (j + 1) := by
        rw [List.range_succ (n := j + 1), List.flatMap_append, List.tail_append_of_ne_nil]
        · simp
        · rw [List.range_succ_eq_map, List.flatMap_cons, block_cons]
          simp
      rw [hf, List.append_assoc, he, block_cons, List.cons_append]
      show Tab.run s1 (es (j + 1)) _ = _
      exact run_append' _ _ _ _ (by intro q hq; simp only [List.mem_map] at hq; obtain ⟨i, -, rfl⟩ := hq; rfl) rfl _

theorem reformat_ok {nT nE : ℕ} {ts es : ℕ → ℝ} {I : ℕ → ℕ → ℝ} (hes : ∀ j, es j ≠ es (j + 1)) (junk : Row) {r : Row} {rs : List Row}
    (h : r :: rs = (List.range (nE + 1)).flatMap fun j => (List.range (nT + 1)).map fun i => ⟨ts i, es j, I i j⟩) :
    ∃ s, Good (nT + 1) ts es I nE s ∧ reformat r rs junk =
      (s.next (es nE) junk, (s.next (es nE) junk).idx3max.map (· + 1), (s.next (es nE) junk).idx2) := by
  obtain ⟨s, hs, he⟩ := run_blocks (nT := nT) (ts := ts) (I := I) hes nE [junk]
  have h' : r :: rs = (List.range (nE + 1)).flatMap (block (nT + 1) ts es I) := h
  have htail : rs = ((List.range (nE + 1)).flatMap (block (nT + 1) ts es I)).tail := by rw [← h', List.tail_cons]
  have hhead : r = ⟨ts 0, es 0, I 0 0⟩ := by
    rw [List.range_succ_eq_map, List.flatMap_cons, block_cons, List.cons_append] at h'
    exact (List.cons.inj h').1
  refine ⟨s, hs, ?_⟩
  unfold reformat
  simp only
  rw [hhead, htail]
  rw [he]
  rfl

/-! ### the components -/

theorem aim_ok {d w : ℝ} (hd : 0 < d) (hw : 0 ≤ w) (x : ℝ) {u : ℝ} (h0 : 0 ≤ u) (h1 : u ≤ 1) :
    let θ := Real.arctan (-(w / 2 + x) / d) + (Real.arctan ((w / 2 - x) / d) - Real.arctan (-(w / 2 + x) / d)) * u;
    (-(Real.pi / 2) < θ) ∧ θ < Real.pi / 2 ∧ |x + d * Real.tan θ| ≤ w / 2 := by
  intro θ
  have hle : Real.arctan (-(w / 2 + x) / d) ≤ Real.arctan ((w / 2 - x) / d) := by
    apply Real.arctan_mono
    apply div_le_div_of_nonneg_right _ hd.le
    linarith
  have a1 := Real.neg_pi_div_two_lt_arctan (-(w / 2 + x) / d)
  have a2 := Real.arctan_lt_pi_div_two ((w / 2 - x) / d)
  have l1 : Real.arctan (-(w / 2 + x) / d) ≤ θ := by
    show _ ≤ Real.arctan (-(w / 2 + x) / d) + (Real.arctan ((w / 2 - x) / d) - Real.arctan (-(w / 2 + x) / d)) * u
    nlinarith
  have l2 : θ ≤ Real.arctan ((w / 2 - x) / d) := by
    show Real.arctan (-(w / 2 + x) / d) + (Real.arctan ((w / 2 - x) / d) - Real.arctan (-(w / 2 + x) / d)) * u ≤ _
    nlinarith
  have b1 : -(Real.pi / 2) < θ := by linarith
  have b2 : θ < Real.pi / 2 := by linarith
  refine ⟨b1, b2, ?_⟩
  have t1 : -(w / 2 + x) / d ≤ Real.tan θ := by
    rw [← Real.tan_arctan (-(w / 2 + x) / d)]
    exact Real.strictMonoOn_tan.monotoneOn ⟨a1, by linarith⟩ ⟨b1, b2⟩ l1
  have t2 : Real.tan θ ≤ (w / 2 - x) / d := by
    rw [← Real.tan_arctan ((w / 2 - x) / d)]
    exact Real.strictMonoOn_tan.monotoneOn ⟨b1, b2⟩ ⟨by linarith, a2⟩ l2
  rw [div_le_iff₀ hd] at t1
  rw [le_div_iff₀ hd] at t2
  rw [abs_le]
  constructor <;> linarith

theorem bracket_spec {xs : List ℝ} (hx : Increasing xs) {E : ℝ} {j : ℕ} (hj' : j < xs.length) (h1 : E ≤ nth xs j)
    (h2 : j = 0 ∨ nth xs (j - 1) < E) : ∀ {n idx : ℕ}, idx ≤ j → j < idx + n → bracket xs E n idx = .ok j
  | 0, idx, h, h' => by omega
  | n + 1, idx, h, h' => by
    unfold bracket
    rw [get_ok (by omega), bind_ok]
    rcases h.eq_or_lt with rfl | h
    · rw [if_neg (not_lt.2 h1)]
    · rw [if_pos]
      · exact bracket_spec hx hj' h1 h2 (by omega) (by omega)
      · rcases h2 with h2 | h2
        · omega
        · exact (incr_le hx (by omega) (by omega)).trans_lt h2

theorem bracket_ok {xs : List ℝ} (hx : Increasing xs) {E : ℝ} {j n : ℕ} (hn : n ≤ xs.length) (_ : j ≤ n) (hj : j < n) (h1 : E ≤ nth xs j)
    (h2 : j = 0 ∨ nth xs (j - 1) < E) : bracket xs E n 0 = .ok j :=
  bracket_spec hx (by omega) h1 h2 (by omega) (by omega)

theorem positive_ok {ys : List ℝ} {idx1 z : ℕ} (hz1 : z < idx1) (hz2 : z < ys.length) (hz : nth ys z ≤ 0) : ∀ {n idx : ℕ}, idx ≤ z → z < idx + n →
    (∀ i, idx ≤ i → i < z → 0 < nth ys i) → positive ys idx1 n idx = .ok z
  | 0, idx, h, h', _ => by omega
  | n + 1, idx, h, h', hp => by
    unfold positive
    rw [if_pos (by omega), get_ok (by omega)]
    simp only [bind_ok]
    rcases h.eq_or_lt with rfl | h
    · rw [if_neg (not_lt.2 hz)]
    · rw [if_pos (hp idx le_rfl h)]
      exact positive_ok hz1 hz2 hz (by omega) (by omega) fun i hi hi' => hp i (by omega) hi'

end Verif.SnsSource
