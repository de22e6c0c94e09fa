import Verif.Lemmas.Multiphonon
/-!
Property theorems about multiphonon scattering: C44, C116, C117, C118, C119.
-/

namespace Verif.Mph
open Kinem
open Finset (range Icc)

/-! ### C44 convolution powers -/

/-- **C44** The reflected axis runs from minus the last to the last energy, the density of states is even. -/
theorem C44_reflected {E g : List ℝ} (hE : E ≠ []) (hg : g.length = E.length) :
    (reflected E g).1.length = 2 * E.length - 1 ∧ (reflected E g).2.length = 2 * E.length - 1 ∧
    ∀ k : ℤ, 0 < k → k < E.length → amp (reflected E g).1 k = E.getD k.toNat 0 ∧ amp (reflected E g).1 (-k) = -E.getD k.toNat 0 ∧
      amp (reflected E g).2 k = g.getD k.toNat 0 ∧ amp (reflected E g).2 (-k) = g.getD k.toNat 0 := by
  obtain ⟨z, hz⟩ : ∃ z, E.length = z + 1 := ⟨E.length - 1, by have := List.length_pos_iff.2 hE; omega⟩
  have hz' : g.length = z + 1 := by omega
  have l1 := reflect_length (c := -1) hz
  have l2 := reflect_length (c := 1) hz'
  refine ⟨by show (reflect E (-1)).length = _; omega, by show (reflect g 1).length = _; omega, ?_⟩
  intro k h0 hk
  simp only [reflected]
  rw [amp_eq l1, amp_eq l1, amp_eq l2, amp_eq l2, if_pos (by omega), if_pos (by omega), if_pos (by omega), if_pos (by omega),
    reflect_hi hz (by omega), reflect_lo hz (by omega), reflect_hi hz' (by omega), reflect_lo hz' (by omega),
    show (k + z).toNat - z = k.toNat by omega, show z - (-k + z).toNat = k.toNat by omega]
  refine ⟨rfl, by ring, rfl, by ring⟩

/-- the hypotheses of `C44_reflected` can be met -/
example : amp (reflected [0, 1, 2] [0, 5, 7]).1 (-2) = -2 ∧ amp (reflected [0, 1, 2] [0, 5, 7]).2 (-2) = 7 := by
  have := (C44_reflected (E := [0, 1, 2]) (g := [0, 5, 7]) (by simp) rfl).2.2 2 (by norm_num) (by simp)
  exact ⟨by simpa using this.2.1, by simpa using this.2.2.2⟩

variable {A1 C : List ℝ} {dE : ℝ} {n : ℕ}

/-- **C44** Each spectrum is proportional to the convolution of the previous one with the first one, without a shift, on
the same axis. -/
theorem C44_conv (h1 : A1.length % 2 = 1) (h : anSpectrum A1 dE (n + 1) = some C) :
    C.length = A1.length ∧ ∃ B, anSpectrum A1 dE n = some B ∧ ∃ c ≠ 0, ∀ k, |k| ≤ half A1 → amp C k = c * conv B A1 k := by
  obtain ⟨z, hz⟩ : ∃ z, A1.length = 2 * z + 1 := ⟨A1.length / 2, by omega⟩
  simp only [anSpectrum, Option.bind_eq_bind, Option.bind_eq_some_iff] at h
  obtain ⟨B, hB, h⟩ := h
  obtain ⟨hl, hd, hs, hC⟩ := anFrom_some hz (anSpectrum_length hz hB) h
  refine ⟨by omega, B, hB, 1 / ((∑ k ∈ Icc (-(z : ℤ)) z, conv B A1 k) * dE), one_div_ne_zero (mul_ne_zero hs hd), ?_⟩
  intro k hk
  rw [half_eq hz, abs_le] at hk
  rw [hC k hk.1 hk.2]
  ring

/-- **C44** Every spectrum from the second on is normalised. -/
theorem C44_norm (h1 : A1.length % 2 = 1) (h : anSpectrum A1 dE (n + 1) = some C) : C.sum * dE = 1 := by
  obtain ⟨z, hz⟩ : ∃ z, A1.length = 2 * z + 1 := ⟨A1.length / 2, by omega⟩
  simp only [anSpectrum, Option.bind_eq_bind, Option.bind_eq_some_iff] at h
  obtain ⟨B, hB, h⟩ := h
  exact norm_step hz (anSpectrum_length hz hB) h

/-- **C44** The spectrum number `n + 1` is a multiple of the `(n + 1)`-fold convolution, that is the generating function is
a multiple of the power, as long as the axis is long enough.  What is missing: longer ones (`C44_truncated_false`). -/
theorem C44_power_partial (h1 : A1.length % 2 = 1) {m : ℤ} (h0 : 0 ≤ m) (hm : Within A1 m) (hz : (n + 1) * m ≤ half A1)
    (h : anSpectrum A1 dE n = some C) :
    Within C ((n + 1) * m) ∧ ∃ c ≠ 0, ∀ x : ℝ, x ≠ 0 → gen C x = c * gen A1 x ^ (n + 1) := by
  obtain ⟨z, hz'⟩ : ∃ z, A1.length = 2 * z + 1 := ⟨A1.length / 2, by omega⟩
  rw [half_eq hz'] at hz
  exact power hz' h0 hm hz h

private theorem ex5 : ∀ k, 0 ≤ amp [0, 1, 2, 1, 0] k := by
  intro k
  have hl : ([0, 1, 2, 1, 0] : List ℝ).length = 2 * 2 + 1 := rfl
  by_cases hk : (2 : ℤ) < |k|
  · rw [amp_outside hl hk]
  · rw [not_lt, abs_le] at hk
    obtain ⟨h1, h2⟩ := hk
    interval_cases k <;> simp [amp]

private theorem ex5w : Within [0, 1, 2, 1, 0] 1 := by
  intro k hk
  have hl : ([0, 1, 2, 1, 0] : List ℝ).length = 2 * 2 + 1 := rfl
  by_cases hk' : (2 : ℤ) < |k|
  · rw [amp_outside hl hk']
  · rw [not_lt] at hk'
    have : |k| = 2 := by omega
    rcases abs_choice k with h | h <;> rw [h] at this
    · subst this; simp [amp]
    · have : k = -2 := by omega
      subst this; simp [amp]

/-- the hypotheses of `C44_conv`, `C44_norm` and `C44_power_partial` can be met -/
example : ∃ C, anSpectrum [0, 1, 2, 1, 0] 1 1 = some C ∧ C.sum * 1 = 1 ∧ ∃ c ≠ 0, ∀ x : ℝ, x ≠ 0 →
    gen C x = c * gen [0, 1, 2, 1, 0] x ^ 2 := by
  obtain ⟨C, hC⟩ := anFrom_pos (A1 := [0, 1, 2, 1, 0]) (An := [0, 1, 2, 1, 0]) (dE := 1) (z := 2) rfl rfl one_ne_zero ex5 ex5
    (i := 0) (j := 0) (by simp [amp]) (by simp [amp]) (by norm_num) (by norm_num)
  have h : anSpectrum [0, 1, 2, 1, 0] 1 1 = some C := by simpa [anSpectrum] using hC
  exact ⟨C, h, C44_norm rfl h, (C44_power_partial rfl zero_le_one ex5w (by norm_num [half]) h).2⟩

/-- **C44** In `sqe` the spectra for two and three phonons are exact: for a density of states on the input axis. -/
theorem C44_sqe {E g Qs E2 : List ℝ} {S : List (List (Option ℝ))} {T M : ℝ} {N start : ℕ} (hgrid : Grid E dE)
    (hg : g.length ≤ E.length) (h : sqe E g Qs T M N start = .ok (some (E2, S))) :
    ∃ E' g' A1, extend E g = .ok (dE, E', g') ∧ computeA1E E' g' (1 / (T * 0.0862)) dE = .ok (some (E2, A1)) ∧
      ∀ n C, n < 3 → anSpectrum A1 dE n = some C → ∃ c ≠ 0, ∀ x : ℝ, x ≠ 0 → gen C x = c * gen A1 x ^ (n + 1) := by
  obtain ⟨z, g', A1, g0, hz, -, hA, hg', ⟨E', he, hgr, hl', -, hc, -⟩, -⟩ := sqe_some hgrid h
  refine ⟨E', g', A1, he, hc, ?_⟩
  have hE2 := (extend_ok hgrid he).2.1
  have hw : Within A1 (E.length - 1 : ℕ) := by
    apply within_A1 hl' hg' hgr hc
    intro k hk
    unfold extend at he
    split at he
    · simp only at he
      split at he
      · cases he
      split at he
      · cases he
      simp only [Except.ok.injEq, Prod.mk.injEq] at he
      obtain ⟨-, -, rfl⟩ := he
      rw [List.getD_eq_getElem?_getD, List.getElem?_map, List.getElem?_append_right (by omega)]
      simp only [List.getElem?_replicate]
      split <;> simp
    · cases he
  intro n C hn h
  exact (power hA (by omega) hw (by
    have h3 : (n : ℤ) + 1 ≤ 3 := by omega
    have := mul_le_mul_of_nonneg_right h3 (show (0 : ℤ) ≤ ((E.length - 1 : ℕ) : ℤ) by omega)
    omega) h).2

/-- the hypotheses of `C44_sqe` can be met -/
example : ∃ E2 S, sqe [0, 1, 2] [0, 1, 0] [1] 300 50 2 2 = .ok (some (E2, S)) ∧ Grid [0, 1, 2] 1 := by
  obtain ⟨E2, S, h⟩ := sqe_example
  exact ⟨E2, S, h, grid3⟩

/-- **C44** On an axis that is too short the result is not a convolution power: what lies beyond the end is lost, and the
rest is scaled up.  `sqe` extends the axis threefold, so this happens for four and more phonons. -/
theorem C44_truncated_false :
    ¬ ∀ (A1 C : List ℝ) (dE : ℝ) (n : ℕ), A1.length % 2 = 1 → 0 < dE → anSpectrum A1 dE n = some C →
      ∃ c : ℝ, ∀ x : ℝ, x ≠ 0 → gen C x = c * gen A1 x ^ (n + 1) := by
  intro H
  have hl : ([1, 1, 1] : List ℝ).length = 2 * 1 + 1 := rfl
  have hI : Icc (-1 : ℤ) 1 = {-1, 0, 1} := rfl
  have c0 : conv [1, 1, 1] [1, 1, 1] 0 = 3 := by
    simp only [conv, half_eq hl, Nat.cast_one, hI]
    rw [Finset.sum_insert (by decide), Finset.sum_insert (by decide), Finset.sum_singleton]
    norm_num [amp, show Int.toNat 2 = 2 from rfl]
  have c1 : conv [1, 1, 1] [1, 1, 1] 1 = 2 := by
    simp only [conv, half_eq hl, Nat.cast_one, hI]
    rw [Finset.sum_insert (by decide), Finset.sum_insert (by decide), Finset.sum_singleton]
    norm_num [amp, show Int.toNat 2 = 2 from rfl]
  have c2 : conv [1, 1, 1] [1, 1, 1] (-1) = 2 := by
    simp only [conv, half_eq hl, Nat.cast_one, hI]
    rw [Finset.sum_insert (by decide), Finset.sum_insert (by decide), Finset.sum_singleton]
    norm_num [amp, show Int.toNat 2 = 2 from rfl]
  have cs : ∑ k ∈ Icc (-((1 : ℕ) : ℤ)) (1 : ℕ), conv [1, 1, 1] [1, 1, 1] k = 7 := by
    simp only [Nat.cast_one, hI]
    rw [Finset.sum_insert (by decide), Finset.sum_insert (by decide), Finset.sum_singleton, c0, c1, c2]
    norm_num
  obtain ⟨C, hC⟩ := anFrom_ok hl hl one_ne_zero (by rw [cs]; norm_num)
  obtain ⟨lC, -, -, hk⟩ := anFrom_some hl hl hC
  have k0 := hk 0 (by norm_num) (by norm_num)
  have k1 := hk 1 (by norm_num) (by norm_num)
  have k2 := hk (-1) (by norm_num) (by norm_num)
  rw [cs, c0] at k0
  rw [cs, c1] at k1
  rw [cs, c2] at k2
  obtain ⟨c, hc⟩ := H [1, 1, 1] C 1 1 rfl one_pos (by simpa [anSpectrum] using hC)
  have gC : ∀ x : ℝ, gen C x = 2 / 7 * x⁻¹ + (3 / 7 + 2 / 7 * x) := by
    intro x
    simp only [gen, half_eq lC, Nat.cast_one, hI]
    rw [Finset.sum_insert (by decide), Finset.sum_insert (by decide), Finset.sum_singleton, k0, k1, k2]
    norm_num
  have gA : ∀ x : ℝ, gen [1, 1, 1] x = x⁻¹ + (1 + x) := by
    intro x
    simp only [gen, half_eq hl, Nat.cast_one, hI]
    rw [Finset.sum_insert (by decide), Finset.sum_insert (by decide), Finset.sum_singleton]
    norm_num [amp, show Int.toNat 2 = 2 from rfl]
  have e1 := hc 1 one_ne_zero
  have e2 := hc 2 two_ne_zero
  rw [gC, gA] at e1 e2
  norm_num at e1 e2
  linarith

/-! ### C116 detailed balance -/

variable {E g E' : List ℝ} {beta : ℝ}

/-- **C116** In the spectra of all orders the gain of an energy is less likely than its loss by the Boltzmann factor. -/
theorem C116_spectra (hE : E ≠ []) (hg : g.length = E.length) (hgrid : Grid E dE)
    (h : computeA1E E g beta dE = .ok (some (E', A1))) (hn : anSpectrum A1 dE n = some C) (k : ℤ) :
    amp C (-k) = Real.exp (-(beta * (k * dE))) * amp C k := by
  obtain ⟨z, hz⟩ : ∃ z, E.length = z + 1 := ⟨E.length - 1, by have := List.length_pos_iff.2 hE; omega⟩
  have hz' : g.length = z + 1 := by omega
  obtain ⟨-, -, -, hl, -⟩ := computeA1E_some hz hz' hgrid h
  have := balanced_all hl (balanced_A1 hz hz' hgrid h) hn k
  rw [this]
  congr 3
  ring

/-- the hypotheses of `C116_spectra` can be met, and the spectra are not zero -/
example : ∃ E' A1 C, computeA1E [0, 1, 2] [0, 1, 0] 1 1 = .ok (some (E', A1)) ∧ anSpectrum A1 1 1 = some C ∧ C.sum ≠ 0 := by
  obtain ⟨E', A1, h, hnn, h1, -, hl⟩ := A1_example (z := 2) (E := [0, 1, 2]) rfl le_rfl grid3 one_pos
  obtain ⟨C, hC⟩ := anFrom_pos hl hl one_ne_zero hnn hnn (i := 1) (j := 1) h1 h1 (by norm_num) (by norm_num)
  have h2 : anSpectrum A1 1 1 = some C := by simpa [anSpectrum] using hC
  refine ⟨E', A1, C, h, h2, ?_⟩
  have := C44_norm (by omega) h2
  intro hc
  rw [hc] at this
  norm_num at this

variable {Qs E2 : List ℝ} {S : List (List (Option ℝ))} {T M : ℝ} {N start : ℕ}

/-- **C116** So it is for the sum of all orders at each Q. -/
theorem C116_sqe (hgrid : Grid E dE) (h : sqe E g Qs T M N start = .ok (some (E2, S))) {q : ℕ} (hq : q < Qs.length) {k : ℕ}
    (hk : k < 3 * E.length) :
    (S.getD q []).getD (3 * E.length - 1 - k) none =
      ((S.getD q []).getD (3 * E.length - 1 + k) none).map (Real.exp (-(k * dE / (T * 0.0862))) * ·) := by
  obtain ⟨z, g', A1, g0, hz, hl2, hA, hg', ⟨E', he, hgr, hl', -, hc, -⟩, hS, hsp, hel⟩ := sqe_some hgrid h
  obtain ⟨w, hw, hj⟩ := hel q hq
  rw [hj _ (by omega), hj _ (by omega), sumOrders_none, sumOrders_none]
  simp only [List.length_map, List.length_range]
  split
  · rfl
  · simp only [Option.map_some, Option.some.injEq]
    rw [drop_map_range_sum, drop_map_range_sum, Finset.mul_sum]
    apply Finset.sum_congr rfl
    intro i hi
    rw [Finset.mem_Ico] at hi
    obtain ⟨A, hAi⟩ := hsp i hi.2
    have hlA := anSpectrum_length hA hAi
    have bal := balanced_all hA (balanced_A1 hl' hg' hgr hc) hAi k
    rw [hAi, Option.getD_some]
    rw [amp_eq hlA, amp_eq hlA, if_pos (by omega), if_pos (by omega), show (-(k : ℤ) + z).toNat = 3 * E.length - 1 - k by omega,
      show ((k : ℤ) + z).toNat = 3 * E.length - 1 + k by omega] at bal
    rw [bal, show 1 / (T * 0.0862) * dE * ((k : ℤ) : ℝ) = k * dE / (T * 0.0862) by push_cast; ring]
    ring

/-- the hypotheses of `C116_sqe` can be met -/
example : ∃ E2 S, sqe [0, 1, 2] [0, 1, 0] [1] 300 50 2 2 = .ok (some (E2, S)) ∧
    (S.getD 0 []).getD 6 none = ((S.getD 0 []).getD 10 none).map (Real.exp (-((2 : ℕ) * 1 / (300 * 0.0862))) * ·) := by
  obtain ⟨E2, S, h⟩ := sqe_example
  exact ⟨E2, S, h, C116_sqe grid3 h (q := 0) (by simp) (k := 2) (by simp)⟩

/-! ### C117 norm of the first spectrum -/

/-- **C117** The norm of the one-phonon spectrum differs from one by a term from the extrapolation to energy zero, with
`q = exp(-beta dE)`.  What is missing: it is not one (`C117_norm_false`). -/
theorem C117_norm_partial (hE : E ≠ []) (hg : g.length = E.length) (hgrid : Grid E dE)
    (h : computeA1E E g beta dE = .ok (some (E', A1))) :
    A1.sum * dE = 1 + dE * (1 - Real.exp (-(beta * dE))) * (2 * amp A1 1 - (1 + Real.exp (-(beta * dE))) * amp A1 2) := by
  obtain ⟨z, hz⟩ : ∃ z, E.length = z + 1 := ⟨E.length - 1, by have := List.length_pos_iff.2 hE; omega⟩
  exact norm_A1 hz (by omega) hgrid h

/-- **C117** The one-phonon spectrum is not normalised. -/
theorem C117_norm_false :
    ¬ ∀ (E g E' A1 : List ℝ) (beta dE : ℝ), E ≠ [] → g.length = E.length → Grid E dE → 0 < beta → 0 < dE →
      (∀ x ∈ g, 0 ≤ x) → g.sum * dE = 1 → computeA1E E g beta dE = .ok (some (E', A1)) → A1.sum * dE = 1 := by
  intro H
  obtain ⟨E', A1, h, hnn, h1, h2, hl⟩ := A1_example (z := 2) (E := [0, 1, 2]) rfl le_rfl grid3 one_pos
  have e : 0 :: 1 :: List.replicate (2 - 1) (0 : ℝ) = [0, 1, 0] := rfl
  rw [e] at h
  have := H [0, 1, 2] [0, 1, 0] E' A1 1 1 (by simp) rfl grid3 one_pos one_pos (by simp) (by norm_num) h
  have hp := C117_norm_partial (E := [0, 1, 2]) (g := [0, 1, 0]) (by simp) rfl grid3 h
  rw [this, h2] at hp
  have : Real.exp (-(1 * 1)) < 1 := by rw [Real.exp_lt_one_iff]; norm_num
  have : 0 < (1 - Real.exp (-(1 * 1))) * amp A1 1 := mul_pos (by linarith) h1
  linarith

/-- the hypotheses of `C117_norm_partial` can be met -/
example : ∃ E' A1, computeA1E [0, 1, 2] [0, 1, 0] 1 1 = .ok (some (E', A1)) ∧ A1.sum * 1 ≠ 1 := by
  by_contra hc
  push Not at hc
  obtain ⟨E', A1, h, hnn, h1, h2, hl⟩ := A1_example (z := 2) (E := [0, 1, 2]) rfl le_rfl grid3 one_pos
  have hp := C117_norm_partial (E := [0, 1, 2]) (g := [0, 1, 0]) (by simp) rfl grid3 h
  rw [hc E' A1 h, h2] at hp
  have : Real.exp (-(1 * 1)) < 1 := by rw [Real.exp_lt_one_iff]; norm_num
  have : 0 < (1 - Real.exp (-(1 * 1))) * amp A1 1 := mul_pos (by linarith) h1
  linarith

/-! ### C118 weights of the orders -/

/-- **C118** The weights of all orders, the elastic line included, add up to one. -/
theorem C118_poisson (w : ℝ) : HasSum (fun n : ℕ => computeSNQ w n) 1 ∧
    ∀ n : ℕ, computeSNQ w (n + 1) * (n + 1) = computeSNQ w n * w := by
  refine ⟨poisson_sum w, fun n => ?_⟩
  unfold computeSNQ
  rw [Nat.factorial_succ, pow_succ]
  have : (n.factorial : ℝ) ≠ 0 := by exact_mod_cast n.factorial_ne_zero
  have : (n : ℝ) + 1 ≠ 0 := by positivity
  push_cast
  field_simp

/-- **C118** Each element of the result is the sum over the orders from the first to the last one wanted of weight times
spectrum; the weights are those of a Poisson distribution with mean `2W`. -/
theorem C118_element (hgrid : Grid E dE) (h : sqe E g Qs T M N start = .ok (some (E2, S))) (h1 : 1 ≤ start) (hN : start ≤ N) :
    ∃ E' g' A1 g0, extend E g = .ok (dE, E', g') ∧ computeA1E E' g' (1 / (T * 0.0862)) dE = .ok (some (E2, A1)) ∧
      gamma0 E' g' (1 / (T * 0.0862)) dE = .ok (some g0) ∧
      ∀ q < Qs.length, ∃ w, dwExp g0 (Qs.getD q 0) M = some w ∧ ∀ j < E2.length,
        (S.getD q []).getD j none = some (∑ n ∈ Icc start N, w ^ n * Real.exp (-w) / n.factorial *
          ((anSpectrum A1 dE (n - 1)).getD []).getD j 0) := by
  obtain ⟨z, g', A1, g0, hz, hl2, hA, hg', ⟨E', he, hgr, hl', -, hc, hg0⟩, hS, hsp, hel⟩ := sqe_some hgrid h
  refine ⟨E', g', A1, g0, he, hc, hg0, ?_⟩
  intro q hq
  obtain ⟨w, hw, hj⟩ := hel q hq
  refine ⟨w, hw, ?_⟩
  intro j hjl
  rw [hj j (by omega), sumOrders_none]
  simp only [List.length_map, List.length_range]
  rw [if_neg (by omega), drop_map_range_sum]
  congr 1
  have := Finset.sum_image (s := Finset.Ico (start - 1 - 0) N) (g := fun i => i + 1)
    (f := fun n => w ^ n * Real.exp (-w) / n.factorial * ((anSpectrum A1 dE (n - 1)).getD []).getD j 0)
    (fun a _ b _ hab => Nat.succ_injective hab)
  have e : (Finset.Ico (start - 1 - 0) N).image (fun i => i + 1) = Icc start N := by
    ext n
    simp only [Finset.mem_image, Finset.mem_Ico, Finset.mem_Icc]
    constructor
    · rintro ⟨i, hi, rfl⟩; omega
    · intro hn; exact ⟨n - 1, by omega, by omega⟩
  rw [e] at this
  rw [this]
  apply Finset.sum_congr rfl
  intro i _
  rw [Nat.add_sub_cancel]
  rfl

/-- the axis of the result -/
theorem C118_axis (hgrid : Grid E dE) (h : sqe E g Qs T M N start = .ok (some (E2, S))) :
    E2.length = 6 * E.length - 1 ∧ ∀ j < E2.length, E2.getD j 0 = ((j : ℝ) - (3 * E.length - 1)) * dE := by
  obtain ⟨z, g', A1, g0, hz, hl2, hA, hg', ⟨E', he, hgr, hl', rfl, hc, hg0⟩, -⟩ := sqe_some hgrid h
  refine ⟨by omega, ?_⟩
  intro j hj
  have hzr : (3 * E.length : ℝ) = (z : ℝ) + 1 := by exact_mod_cast hz.symm
  rcases le_or_gt j z with hle | hgt
  · rw [reflect_lo hl' hle, hgr _ (by omega), hzr]
    push_cast [hle]
    ring
  · rw [reflect_hi hl' hgt, hgr _ (by omega), hzr]
    push_cast [hgt.le]
    ring

/-- **C118** The integral over the energies at each Q is the sum of the weights, at most one. -/
theorem C118_total (hgrid : Grid E dE) (h : sqe E g Qs T M N start = .ok (some (E2, S))) (h2 : 2 ≤ start) (hN : start ≤ N)
    (hd : 0 < dE) (hT : 0 < T) (hM : 0 < M) (hpos : ∀ x ∈ g, 0 ≤ x) {q : ℕ} (hq : q < Qs.length) :
    ∃ w, 0 ≤ w ∧ (∑ j ∈ range E2.length, ((S.getD q []).getD j none).getD 0) * dE =
      ∑ n ∈ Icc start N, w ^ n * Real.exp (-w) / n.factorial ∧
      (∑ j ∈ range E2.length, ((S.getD q []).getD j none).getD 0) * dE ≤ 1 := by
  obtain ⟨z, g', A1, g0, hz, hl2, hA, hg', ⟨E', he, hgr, hl', -, hc, hg0⟩, hS, hsp, hel⟩ := sqe_some hgrid h
  obtain ⟨E'', g'', A1', g0', he', hc', hg0'', hall⟩ := C118_element hgrid h (by omega) hN
  rw [he] at he'
  simp only [Except.ok.injEq, Prod.mk.injEq, true_and] at he'
  obtain ⟨rfl, rfl⟩ := he'
  rw [hc] at hc'
  simp only [Except.ok.injEq, Option.some.injEq, Prod.mk.injEq, true_and] at hc'
  subst hc'
  rw [hg0] at hg0''
  simp only [Except.ok.injEq, Option.some.injEq] at hg0''
  subst hg0''
  obtain ⟨w, hw, hj⟩ := hall q hq
  have hE2 := (extend_ok hgrid he).2.1
  have hgn : ∀ x ∈ g', 0 ≤ x := by
    unfold extend at he
    split at he
    · next e0 e1 tl =>
      have h0 : e0 = 0 := by simpa using hgrid 0 (by simp)
      have h1 : e1 = dE := by simpa using hgrid 1 (by simp)
      simp only at he
      split at he
      · cases he
      split at he
      · cases he
      simp only [Except.ok.injEq, Prod.mk.injEq] at he
      obtain ⟨-, -, rfl⟩ := he
      have hp : ∀ x ∈ g ++ List.replicate (3 * (e0 :: e1 :: tl).length - g.length) 0, 0 ≤ x := by
        intro x hx
        rw [List.mem_append, List.mem_replicate] at hx
        rcases hx with hx | ⟨-, rfl⟩
        · exact hpos x hx
        · exact le_rfl
      intro x hx
      rw [List.mem_map] at hx
      obtain ⟨y, hy, rfl⟩ := hx
      exact div_nonneg (hp y hy) (mul_nonneg (List.sum_nonneg hp) (by linarith))
    · cases he
  have g0n := gamma0_nonneg hl' hg' hgr hg0 (by positivity) hd (by omega) hgn
  have hw0 : 0 ≤ w := by
    unfold dwExp recoilE at hw
    simp only [Option.bind_eq_bind, Option.bind_eq_some_iff, Option.some.injEq] at hw
    obtain ⟨r, hr, rfl⟩ := hw
    obtain ⟨-, rfl⟩ := divD_some hr
    positivity
  have key : (∑ j ∈ range E2.length, ((S.getD q []).getD j none).getD 0) * dE =
      ∑ n ∈ Icc start N, w ^ n * Real.exp (-w) / n.factorial := by
    rw [Finset.sum_congr rfl (g := fun j => ∑ n ∈ Icc start N, w ^ n * Real.exp (-w) / n.factorial *
      ((anSpectrum A1 dE (n - 1)).getD []).getD j 0) (fun j hjr => by rw [hj j (Finset.mem_range.1 hjr)]; rfl)]
    rw [Finset.sum_comm, Finset.sum_mul]
    apply Finset.sum_congr rfl
    intro n hn
    rw [Finset.mem_Icc] at hn
    obtain ⟨A, hAi⟩ := hsp (n - 1) (by omega)
    have hlA := anSpectrum_length hA hAi
    rw [hAi, ← Finset.mul_sum, Option.getD_some, hl2, ← hlA, Dos.sum_getD, mul_assoc]
    rw [show n - 1 = (n - 2) + 1 by omega] at hAi
    rw [C44_norm (by omega) hAi, mul_one]
  refine ⟨w, hw0, key, ?_⟩
  rw [key]
  exact sum_le_hasSum _ (fun n _ => poisson_nonneg hw0 n) (poisson_sum w)

/-- the hypotheses of `C118_element`, `C118_axis` and `C118_total` can be met -/
example : ∃ E2 S, sqe [0, 1, 2] [0, 1, 0] [1] 300 50 2 2 = .ok (some (E2, S)) ∧ E2.length = 17 ∧
    (∑ j ∈ range E2.length, ((S.getD 0 []).getD j none).getD 0) * 1 ≤ 1 := by
  obtain ⟨E2, S, h⟩ := sqe_example
  obtain ⟨w, -, -, hw⟩ := C118_total grid3 h le_rfl le_rfl one_pos (by norm_num) (by norm_num) (by simp) (q := 0) (by simp)
  exact ⟨E2, S, h, by simpa using (C118_axis grid3 h).1, hw⟩

/-- **C118** If the first order wanted is above the last one, `sqe` returns `None`, without an error. -/
theorem C118_none (hgrid : Grid E dE) (h : sqe E g Qs T M N start = .ok (some (E2, S))) (hN : N < start) {q : ℕ}
    (hq : q < Qs.length) {j : ℕ} (hj : j < E2.length) : (S.getD q []).getD j none = none := by
  obtain ⟨z, g', A1, g0, hz, hl2, hA, hg', -, hS, hsp, hel⟩ := sqe_some hgrid h
  obtain ⟨w, hw, hjj⟩ := hel q hq
  rw [hjj j (by omega), sumOrders_none]
  simp only [List.length_map, List.length_range]
  rw [if_pos (by omega)]

/-! ### C119 signs -/

/-- **C119** For a density of states that starts no steeper than a parabola (exactly: the second value is at most
`4 (1 + exp(-beta dE))` times the first one) all spectra are at least zero.  What is missing: `C119_negative_false`. -/
theorem C119_nonneg_partial (hE : E ≠ []) (hg : g.length = E.length) (hgrid : Grid E dE) (hb : 0 < beta) (hd : 0 < dE)
    (hpos : ∀ x ∈ g, 0 ≤ x) (h12 : g.getD 2 0 ≤ 4 * (1 + Real.exp (-(beta * dE))) * g.getD 1 0)
    (h : computeA1E E g beta dE = .ok (some (E', A1))) (hn : anSpectrum A1 dE n = some C) (k : ℤ) : 0 ≤ amp C k := by
  obtain ⟨z, hz⟩ : ∃ z, E.length = z + 1 := ⟨E.length - 1, by have := List.length_pos_iff.2 hE; omega⟩
  have hz' : g.length = z + 1 := by omega
  obtain ⟨-, -, -, hl, -⟩ := computeA1E_some hz hz' hgrid h
  exact nonneg_all hl hd (nonneg_A1 hz hz' hgrid h hb hd hpos h12) hn k

/-- the hypotheses of `C119_nonneg_partial` can be met -/
example : ∃ E' A1, computeA1E [0, 1, 2] [0, 1, 0] 1 1 = .ok (some (E', A1)) ∧ 0 ≤ amp A1 0 := by
  obtain ⟨E', A1, h, -⟩ := A1_example (z := 2) (E := [0, 1, 2]) rfl le_rfl grid3 one_pos
  refine ⟨E', A1, h, C119_nonneg_partial (E := [0, 1, 2]) (g := [0, 1, 0]) (n := 0) (by simp) rfl grid3 one_pos one_pos (by simp) ?_ h rfl 0⟩
  have := Real.exp_pos (-(1 * 1))
  simp only [List.getD_cons_succ, List.getD_cons_zero]
  linarith

private theorem grid4 : Grid [0, 1, 2, 3] 1 := by
  intro k hk
  simp only [List.length_cons, List.length_nil] at hk
  interval_cases k <;> simp

/-- **C119** For a density of states with a gap at the first point the one-phonon spectrum is negative at energy zero. -/
theorem C119_negative_false :
    ¬ ∀ (E g E' A1 : List ℝ) (beta dE : ℝ), E ≠ [] → g.length = E.length → Grid E dE → 0 < beta → 0 < dE →
      (∀ x ∈ g, 0 ≤ x) → g.sum * dE = 1 → computeA1E E g beta dE = .ok (some (E', A1)) → ∀ k, 0 ≤ amp A1 k := by
  intro H
  have hg : ([0, 0, 1 / 2, 1 / 2] : List ℝ).length = 3 + 1 := rfl
  have hE : ([0, 1, 2, 3] : List ℝ).length = 3 + 1 := rfl
  obtain ⟨g0, h0⟩ := gamma0_ok hE hg (by norm_num) grid4 one_pos one_pos (by norm_num)
  have hp : ∀ x ∈ ([0, 0, 1 / 2, 1 / 2] : List ℝ), 0 ≤ x := by
    intro x hx
    simp only [List.mem_cons, List.not_mem_nil, or_false] at hx
    rcases hx with rfl | rfl | rfl | rfl <;> norm_num
  obtain ⟨f, hf, hk⟩ := gamma0_some hE hg grid4 h0
  have f1 := (hk 1 (by norm_num) (by norm_num)).1
  have f3 := (hk 3 (by norm_num) (by norm_num)).1
  simp only [List.getD_cons_succ, List.getD_cons_zero] at f1 f3
  have f3p : 0 < f 3 := by
    rw [f3]
    have : 0 < Real.tanh (1 * (((3 : ℕ) : ℝ) * 1) / 2) := tanh_pos (by norm_num)
    positivity
  have hg0 : g0 = f 3 := by
    rw [hf]
    simp only [Finset.sum_range_succ, Finset.sum_range_zero, Nat.zero_add, Nat.reduceAdd]
    rw [f1]
    ring
  have g0p : 0 < g0 := by rw [hg0]; exact f3p
  obtain ⟨E', t, h⟩ := computeA1E_ok hE hg grid4 one_pos one_pos h0 g0p.ne'
  obtain ⟨g1, h1, -, hl, -, -, ht⟩ := computeA1E_some hE hg grid4 h
  have : g1 = g0 := by
    rw [h0] at h1
    simpa using h1.symm
  subst this
  have hneg := H [0, 1, 2, 3] [0, 0, 1 / 2, 1 / 2] E' t 1 1 (by simp) rfl grid4 one_pos one_pos hp (by norm_num) h 0
  rw [ht] at hneg
  unfold lossPoint at hneg
  simp only [List.getD_cons_succ, List.getD_cons_zero] at hneg
  have : Real.exp (-(((2 : ℕ) : ℝ) * 1) * 1) < 1 := by rw [Real.exp_lt_one_iff]; norm_num
  have l2 : 0 < 1 - Real.exp (-(((2 : ℕ) : ℝ) * 1) * 1) := by linarith
  have : 0 < 1 / 2 / (((2 : ℕ) : ℝ) * 1 * g1) / (1 - Real.exp (-(((2 : ℕ) : ℝ) * 1) * 1)) := by positivity
  simp only [zero_div, mul_zero, zero_sub] at hneg
  linarith

/-- **C119** For a density of states with all weight at the second point there is no spectrum: the divisor, which is the
integral of a positive function, comes out as zero. -/
theorem C119_undefined_false :
    ¬ ∀ (E g : List ℝ) (beta dE : ℝ), 3 ≤ E.length → g.length = E.length → Grid E dE → 0 < beta → 0 < dE →
      (∀ x ∈ g, 0 ≤ x) → g.getD 0 0 = 0 → g.sum * dE = 1 → ∃ E' A1, computeA1E E g beta dE = .ok (some (E', A1)) := by
  intro H
  have hg : ([0, 0, 1] : List ℝ).length = 2 + 1 := rfl
  have hE : ([0, 1, 2] : List ℝ).length = 2 + 1 := rfl
  obtain ⟨E', t, h⟩ := H [0, 1, 2] [0, 0, 1] 1 1 (by simp) rfl grid3 one_pos one_pos (by simp) (by simp) (by norm_num)
  obtain ⟨g0, h0, -, -, -, hk, -⟩ := computeA1E_some hE hg grid3 h
  obtain ⟨f, hf, hkf⟩ := gamma0_some hE hg grid3 h0
  have f1 := (hkf 1 (by norm_num) (by norm_num)).1
  simp only [List.getD_cons_succ, List.getD_cons_zero] at f1
  apply (hk 1 one_pos (by norm_num)).2.1
  rw [hf]
  simp only [Finset.sum_range_succ, Finset.sum_range_zero, Nat.zero_add, Nat.reduceAdd]
  rw [f1]
  ring

end Verif.Mph
