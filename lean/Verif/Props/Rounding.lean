import Verif.Lemmas.Rounding
import Verif.Lemmas.IdfPhonon
import Verif.Props.Monitor
/-!
C295, C296: axes computed with rounded numbers.
-/

namespace Verif.Rounding
open Proxy

noncomputable section
open Classical

/-! ### C295: the boundaries of the axes of an NDMonitor -/

/-- **C295** Whatever the rounding, an axis of `n` bins that are wide compared with the rounding of its ends has `n + 1` boundaries,
and they are near the ends of the bins. -/
theorem C295_boundaries {fl : ℝ → ℝ} {u : ℝ} (hr : Rounds fl u) (hu : 0 ≤ u) {lo hi : ℝ} {n : Nat} (h : Fine u (lo, hi, n)) :
    ∃ xs, ndBoundaries fl lo hi n = .ok xs ∧ Near xs (n + 1) lo ((hi - lo) / n) (20 * (n * (|lo| + |hi|) * u)) :=
  nd_boundaries hr hu h.1 h.2.1 h.2.2

/-- **C295** So the counts of the neutrons can be added to the histogram, whatever the number of axes. -/
theorem C295_add {fl : ℝ → ℝ} {u : ℝ} (hr : Rounds fl u) (hu : 0 ≤ u) {axes : List (ℝ × ℝ × Nat)} (h : ∀ a ∈ axes, Fine u a) :
    ndAdd fl axes = .ok () := by
  unfold ndAdd
  rw [nd_shape hr hu axes h]
  simp [bind, Except.bind]

/-- **C295** without rounding the boundaries are those of the model of the monitor (C26). -/
theorem C295_exact {lo hi : ℝ} (hl : lo < hi) {n : Nat} (hn : 0 < n) (e : Monitor.Axis ℝ) (h1 : e.lo = lo) (h2 : e.hi = hi)
    (h3 : e.bins = n) : ndBoundaries id lo hi n = Monitor.boundaries e := by
  have hv : e.Valid := by
    refine ⟨?_, ?_⟩ <;> simp only [h1, h2, h3] <;> assumption
  rw [Monitor.C26_boundaries e hv]
  have hd := step_pos hl hn
  have hm := step_mul (lo := lo) (hi := hi) hn
  unfold ndBoundaries
  rw [if_neg (not_le.2 hl), per_id hn]
  simp only [bind, Except.bind, id]
  rw [arange_id hd.ne', count_of (n := n + 1) (θ := 0.9) hd (by push_cast; linarith) (by norm_num) (by norm_num), h1, h2, h3]

/-- doubles: 100 bins from 0 to 200 meV and 3 bins from 1 to 4 -/
example : ndAdd dbl [(0, 200, 100), (1, 4, 3)] = .ok () := by
  refine C295_add dbl_rounds (by positivity) fun a ha => ?_
  simp only [List.mem_cons, List.mem_nil_iff, or_false] at ha
  rcases ha with rfl | rfl <;> refine ⟨by norm_num, by norm_num, ?_⟩ <;> norm_num [abs_of_pos]

/-- the error of the boundaries of 100 bins from 0 to 200 is less than 10⁻¹⁰ -/
example : ∃ xs, ndBoundaries dbl 0 200 100 = .ok xs ∧ ∃ x : ℝ, xs[37]? = some x ∧ |x - 74| < 1e-10 := by
  obtain ⟨xs, h, -, h2⟩ := C295_boundaries dbl_rounds (by positivity) (lo := 0) (hi := 200) (n := 100)
    ⟨by norm_num, by norm_num, by norm_num [abs_of_pos]⟩
  obtain ⟨x, h3, h4⟩ := h2 37 (by norm_num)
  refine ⟨xs, h, x, h3, ?_⟩
  norm_num at h4
  refine lt_of_le_of_lt h4 (by norm_num)

/-! ### C296: the energies of densities of states -/

/-- **C296** A file of a density of states with `N` values gives `N` energies, whatever the step and the rounding, if the relative
error is small compared with `1/N`. -/
theorem C296_count {fl : ℝ → ℝ} {u : ℝ} (hr : Rounds fl u) (hu : 0 ≤ u) (h1 : u ≤ 1 / 1000) {N : Nat} (hN : N * u ≤ 1 / 1000) {dE : ℝ}
    (hd : dE ≠ 0) : ∃ xs, dosEnergies fl N dE = .ok xs ∧ xs.length = N := dos_count hr hu h1 hN hd

/-- **C296** With doubles this is so for every number of values that can be in a file. -/
theorem C296_doubles {N : Nat} (hN : N < 2 ^ 31) {dE : ℝ} (hd : dE ≠ 0) : ∃ xs, dosEnergies dbl N dE = .ok xs ∧ xs.length = N := by
  refine C296_count dbl_rounds (by positivity) (by norm_num) ?_ hd
  have h : (N : ℝ) ≤ 2 ^ 31 := by exact_mod_cast hN.le
  calc (N : ℝ) * 2 ^ (-53 : ℤ) ≤ 2 ^ 31 * 2 ^ (-53 : ℤ) := mul_le_mul_of_nonneg_right h (by positivity)
    _ ≤ _ := by norm_num

/-- **C296** without rounding the energies are those of the model of the file. -/
theorem C296_exact {N : Nat} {dE : ℝ} : dosEnergies id N dE = IdfPhonon.arange0 ((N - 0.1) * dE) dE := by
  unfold dosEnergies IdfPhonon.arange0
  by_cases hd : dE = 0
  · subst hd; simp [arange]
  · rw [if_neg hd]
    simp only [id]
    rw [arange_id hd, sub_zero, Int.ceil_toNat]
    simp

example : ∃ xs, dosEnergies dbl 1000 (dbl 0.1) = .ok xs ∧ xs.length = 1000 :=
  C296_doubles (by norm_num) (by
    rw [(dbl_eq (-4) 7205759403792794 (by norm_num) (by norm_num) (by norm_num [abs_lt]) :
      dbl 0.1 = _)]
    positivity)

/-- **C296** (part that holds) The energies that `sqe` computes from `n` energies from 0 are `3 n` or one more. -/
theorem C296_more_partial {fl : ℝ → ℝ} {u : ℝ} (hr : Rounds fl u) (hu : 0 ≤ u) (h1 : u ≤ 1 / 1000) {n : Nat}
    (hN : n * u ≤ 1 / 1000) {e1 : ℝ} (hd : fl e1 ≠ 0) :
    ∃ xs, moreEnergies fl 0 e1 n = .ok xs ∧ (xs.length = 3 * n ∨ xs.length = 3 * n + 1) := more_count hr hu h1 hN hd

/-- **C296 is false** of the energies of `sqe`: for five energies 0, 2.3, ... there are sixteen, not fifteen. -/
theorem C296_more_false : ¬ ∀ (e1 : ℝ) (n : Nat), 0 < e1 → 2 ≤ n → n < 2 ^ 31 →
    ∃ xs, moreEnergies dbl 0 e1 n = .ok xs ∧ xs.length = 3 * n := by
  intro h
  have hpos : 0 < dbl 2.3 := by
    rw [(dbl_eq 1 5179139571476070 (by norm_num) (by norm_num) (by norm_num [abs_lt]) : dbl 2.3 = _)]
    positivity
  obtain ⟨xs, h1, h2⟩ := h (dbl 2.3) 5 hpos (by norm_num) (by norm_num)
  obtain ⟨ys, h3, h4⟩ := more_sixteen
  rw [h1] at h3
  simp only [Except.ok.injEq] at h3
  rw [h3, h4] at h2
  norm_num at h2

example : ∃ xs, moreEnergies dbl 0 1 5 = .ok xs ∧ (xs.length = 3 * 5 ∨ xs.length = 3 * 5 + 1) :=
  C296_more_partial dbl_rounds (by positivity) (by norm_num) (by norm_num) (by
    rw [(dbl_eq 0 4503599627370496 (by norm_num) (by norm_num) (by norm_num) : dbl 1 = _)]
    positivity)

end
end Verif.Rounding
