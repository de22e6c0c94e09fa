import Verif.Lemmas.Dos
/-!
Property theorems about densities of states, Bose factor and Debye-Waller factor: C42, C106, C107, C108, C109.
-/

namespace Verif.Dos
open Table Kinem
open Finset (range)

variable {e0 de : ℝ} {ne : Nat} {Z : List ℝ} {d : Density}

/-! ### C42 density of states from a table -/

/-- **C42** From each sample to the next the density of states is the straight line between the data, divided
by sum times step. -/
theorem C42_linear (h : linearDos e0 de ne Z = .ok d) {i : Nat} (hi : i + 1 < ne) {t : ℝ} (h0 : 0 ≤ t)
    (h1 : t < 1) :
    d.at (e0 + (i + t) * de) = .ok (((1 - t) * Z.getD i 0 + t * Z.getD (i + 1) 0) / (Z.sum * de)) := by
  obtain ⟨_, hd, hl, h20, ha, hs, he⟩ := linearDos_ok h
  have hin : (axisOf e0 de ne).In (e0 + (i + t) * de) i := by
    refine ⟨show i < ne - 1 by omega, ?_, ?_⟩
    · simp only [axisOf, Axis.tick]
      nlinarith
    · rw [tick_succ]
      simp only [axisOf, Axis.tick]
      nlinarith
  rw [at_cell h hin]
  have e : (e0 + (i + t) * de - (axisOf e0 de ne).tick i) / de = t := by
    simp only [axisOf, Axis.tick]; field_simp; ring
  rw [e]
  congr 1
  unfold interp1
  ring

/-- **C42** In particular at the samples below the last one. -/
theorem C42_nodes (h : linearDos e0 de ne Z = .ok d) {i : Nat} (hi : i + 1 < ne) :
    d.at (e0 + i * de) = .ok (Z.getD i 0 / (Z.sum * de)) := by
  have := C42_linear h hi le_rfl one_pos
  simpa using this

/-- **C42** The values at the samples, with the last one taken from the data, times the step add up to one. -/
theorem C42_sum (h : linearDos e0 de ne Z = .ok d) :
    (∑ i ∈ range (ne - 1), d.val (e0 + i * de)) * de + Z.getD (ne - 1) 0 / Z.sum = 1 := by
  obtain ⟨h0, hd, hl, h20, ha, hs, he⟩ := linearDos_ok h
  have hz : Z.sum ≠ 0 := left_ne_zero_of_mul ha
  have e : ∀ i ∈ range (ne - 1), d.val (e0 + i * de) = Z.getD i 0 / (Z.sum * de) := by
    intro i hi
    have := Finset.mem_range.1 hi
    unfold Density.val
    rw [C42_nodes h (by omega)]
  have hsum : ∑ i ∈ range (ne - 1), Z.getD i 0 + Z.getD (ne - 1) 0 = Z.sum := by
    rw [← Finset.sum_range_succ, Nat.sub_add_cancel (by omega), hl, sum_getD]
  rw [Finset.sum_congr rfl e, ← Finset.sum_div]
  rw [← hsum] at hz ⊢
  field_simp

/-- **C42** It is zero below the first and from the last sample on. -/
theorem C42_outside (h : linearDos e0 de ne Z = .ok d) {e : ℝ} (he : e < e0 ∨ e0 + de * ((ne : ℝ) - 1) ≤ e) :
    d.at e = .ok 0 := by
  apply at_outside h
  obtain ⟨_, _, _, _, _, _, hh⟩ := linearDos_ok h
  rw [hh]; exact he

/-- **C42** Data that is not negative gives a density of states that is nowhere negative; no energy raises an
exception. -/
theorem C42_nonneg (h : linearDos e0 de ne Z = .ok d) (hZ : ∀ z ∈ Z, 0 ≤ z) (e : ℝ) :
    ∃ x, d.at e = .ok x ∧ 0 ≤ x := by
  obtain ⟨h0, hd, hl, h20, ha, hs, hh⟩ := linearDos_ok h
  by_cases hout : e < e0 ∨ e0 + de * ((ne : ℝ) - 1) ≤ e
  · exact ⟨0, C42_outside h hout, le_rfl⟩
  · push Not at hout
    obtain ⟨i, hi⟩ := exists_cell (a := axisOf e0 de ne) hd hout.1
      (by rw [axisOf_end (show 1 ≤ ne by omega)]; exact hout.2)
    refine ⟨_, at_cell h hi, ?_⟩
    have hg : ∀ j, 0 ≤ Z.getD j 0 := by
      intro j
      rw [List.getD_eq_getElem?_getD]
      rcases hj : Z[j]? with _ | z
      · simp
      · simpa using hZ z (List.mem_of_getElem? hj)
    have hsum : 0 ≤ Z.sum := List.sum_nonneg hZ
    obtain ⟨f0, f1⟩ := cell_fraction (a := axisOf e0 de ne) hd hi
    have hA : 0 ≤ Z.sum * de := mul_nonneg hsum hd.le
    refine (interp1_between (lo := 0) (hi := max (Z.getD i 0 / (Z.sum * de)) (Z.getD (i + 1) 0 / (Z.sum * de)))
      f0 f1.le ⟨div_nonneg (hg _) hA, le_max_left _ _⟩ ⟨div_nonneg (hg _) hA, le_max_right _ _⟩).1

/-- **C42** Data with a number of points that does not match, fewer than two points, energies that do not
ascend or start below zero is rejected. -/
theorem C42_rejects (h : linearDos e0 de ne Z = .ok d) : 0 ≤ e0 ∧ 0 < de ∧ ne = Z.length ∧ 2 ≤ ne := by
  obtain ⟨h0, hd, hl, h20, _⟩ := linearDos_ok h
  exact ⟨h0, hd, hl, by omega⟩

/-- **C42** The coefficient `sod` is the best one to describe the first 20 values by `sod E²`. -/
theorem C42_sod (h : linearDos e0 de ne Z = .ok d) (c : ℝ) :
    ∑ i ∈ range 20, (Z.getD i 0 / (Z.sum * de) - d.sod * (e0 + de * i) ^ 2) ^ 2
      ≤ ∑ i ∈ range 20, (Z.getD i 0 / (Z.sum * de) - c * (e0 + de * i) ^ 2) ^ 2 := by
  obtain ⟨h0, hd, hl, h20, ha, hs, hh⟩ := linearDos_ok h
  have := slope_best (computeSod_ok hs).2 c
  simpa only [getD_map_div, ← sq] using this

/-! ### C106 all valid data is accepted -/

/-- **C106** (part that holds) Valid data of at least 20 points that starts exactly with a parabola is accepted,
and `sod` is its coefficient. -/
theorem C106_parabola_partial (hv : Valid e0 de Z) (h20 : 20 ≤ Z.length) (a : ℝ)
    (hp : ∀ i < 20, Z.getD i 0 = a * (e0 + de * i) ^ 2) :
    ∃ d, linearDos e0 de Z.length Z = .ok d ∧ d.sod = a / (Z.sum * de) := by
  obtain ⟨h0, hd, h2, hn, hs⟩ := hv
  have ha : Z.sum * de ≠ 0 := (mul_pos hs hd).ne'
  have hlen : (20 : ℝ) ≤ Z.length := by exact_mod_cast h20
  have hx : (∑ i ∈ range 20, (fun i : Nat => (e0 + de * i) * (e0 + de * i)) i
      * (fun i : Nat => (e0 + de * i) * (e0 + de * i)) i) ≠ 0 := by
    refine (Finset.sum_pos' (fun i _ => mul_self_nonneg _) ⟨1, by simp, ?_⟩).ne'
    simp only [Nat.cast_one, mul_one]
    positivity
  have hy : ∀ i ∈ range 20, (Z.map (· / (Z.sum * de))).getD i 0
      = a / (Z.sum * de) * ((e0 + de * i) * (e0 + de * i)) := by
    intro i hi
    rw [getD_map_div, hp i (Finset.mem_range.1 hi)]
    ring
  have hslope : slope (fun i => (e0 + de * i) * (e0 + de * i)) (fun i => (Z.map (· / (Z.sum * de))).getD i 0) 20
      = some (a / (Z.sum * de)) := by
    unfold slope
    rw [divD_ok hx]
    congr 1
    rw [div_eq_iff hx, Finset.mul_sum]
    refine Finset.sum_congr rfl fun i hi => ?_
    simp only
    rw [hy i hi]
    ring
  have hfit : ¬ poorFit (fun i => (e0 + de * i) * (e0 + de * i)) (fun i => (Z.map (· / (Z.sum * de))).getD i 0) 20
      (a / (Z.sum * de)) := by
    unfold poorFit
    simp only
    have e : ∑ i ∈ range 20, ((Z.map (· / (Z.sum * de))).getD i 0 - a / (Z.sum * de) * ((e0 + de * i) * (e0 + de * i)))
        * ((Z.map (· / (Z.sum * de))).getD i 0 - a / (Z.sum * de) * ((e0 + de * i) * (e0 + de * i))) = 0 := by
      refine Finset.sum_eq_zero fun i hi => ?_
      rw [hy i hi, sub_self, zero_mul]
    rw [e]
    split
    · exact lt_irrefl 0
    · norm_num
  have hsod : computeSod e0 de (Z.map (· / (Z.sum * de))) = .ok (a / (Z.sum * de)) := by
    unfold computeSod
    rw [if_neg (by rw [List.length_map]; omega)]
    simp only
    rw [hslope]
    simp only
    rw [if_neg hfit]
  refine ⟨⟨e0, e0 + de * ((Z.length : ℝ) - 1), linearValue e0 de (e0 + de * ((Z.length : ℝ) - 1)) Z.length
    (Z.map (· / (Z.sum * de))), a / (Z.sum * de)⟩, ?_, rfl⟩
  have hlt : e0 < e0 + de * ((Z.length : ℝ) - 1) := by nlinarith
  unfold linearDos
  simp only
  rw [if_neg (not_not.2 hlt), if_neg (not_not.2 rfl), if_neg (by omega), if_neg (not_lt.2 hd.le),
    if_neg (not_lt.2 h0), if_neg ha, hsod]

/-- **C106** (negation) Valid data of less than 20 points is not accepted: memory past the end is read. -/
theorem C106_short_false : ¬ ∀ (e0 de : ℝ) (Z : List ℝ), Valid e0 de Z → ∃ d, linearDos e0 de Z.length Z = .ok d := by
  intro h
  obtain ⟨d, hd⟩ := h 0 1 [0, 1, 2] ⟨le_rfl, one_pos, by simp, by simp, by norm_num⟩
  have := (linearDos_ok hd).2.2.2.1
  simp at this

/-- **C106** (negation) Nor is a constant density of states of 20 points: the program is ended. -/
theorem C106_flat_false : Valid 0 1 (List.replicate 20 1) ∧
    linearDos 0 1 20 (List.replicate 20 1) = .error .runtimeError := by
  have hsum : (List.replicate 20 (1 : ℝ)).sum = 20 := by rw [List.sum_replicate]; norm_num
  have hv : Valid 0 1 (List.replicate 20 (1 : ℝ)) :=
    ⟨le_rfl, one_pos, by simp, fun z hz => by rw [List.eq_of_mem_replicate hz]; norm_num, by rw [hsum]; norm_num⟩
  refine ⟨hv, ?_⟩
  have hget : ∀ i ∈ range 20, ((List.replicate 20 (1 : ℝ)).map (· / ((List.replicate 20 (1 : ℝ)).sum * 1))).getD i 0 = 1 / 20 := by
    intro i hi
    have := Finset.mem_range.1 hi
    rw [getD_map_div, hsum, mul_one, List.getD_eq_getElem?_getD, List.getElem?_replicate, if_pos this]
    simp
  have hsod : computeSod 0 1 ((List.replicate 20 (1 : ℝ)).map (· / ((List.replicate 20 (1 : ℝ)).sum * 1)))
      = .error .runtimeError := by
    unfold computeSod
    rw [if_neg (by simp)]
    simp only
    have hx : (∑ i ∈ range 20, ((fun i : Nat => ((0 : ℝ) + 1 * i) * (0 + 1 * i)) i)
      * (fun i : Nat => ((0 : ℝ) + 1 * i) * (0 + 1 * i)) i) ≠ 0 := by
      refine (Finset.sum_pos' (fun i _ => mul_self_nonneg _) ⟨1, by simp, ?_⟩).ne'
      norm_num
    have hsl := divD_ok (a := ∑ i ∈ range 20, ((fun i : Nat => ((0 : ℝ) + 1 * i) * (0 + 1 * i)) i)
      * (fun i => ((List.replicate 20 (1 : ℝ)).map (· / ((List.replicate 20 (1 : ℝ)).sum * 1))).getD i 0) i) hx
    have hsl' : slope (fun i => ((0 : ℝ) + 1 * i) * (0 + 1 * i))
      (fun i => ((List.replicate 20 (1 : ℝ)).map (· / ((List.replicate 20 (1 : ℝ)).sum * 1))).getD i 0) 20 = _ := hsl
    rw [hsl']
    simp only
    rw [if_pos]
    unfold poorFit
    simp only
    have hav : (∑ i ∈ range 20, ((List.replicate 20 (1 : ℝ)).map (· / ((List.replicate 20 (1 : ℝ)).sum * 1))).getD i 0)
        / ((20 : ℕ) : ℝ) = 1 / 20 := by
      rw [Finset.sum_congr rfl hget]; simp
    rw [hav, if_pos]
    · refine Finset.sum_pos' (fun i _ => mul_self_nonneg _) ⟨0, by simp, ?_⟩
      rw [hget 0 (by simp)]
      norm_num
    · refine Finset.sum_eq_zero fun i hi => ?_
      rw [hget i hi]; simp
  unfold linearDos
  simp only
  rw [if_neg (by norm_num), if_neg (by simp), if_neg (by norm_num), if_neg (by norm_num), if_neg (by norm_num),
    if_neg (by rw [hsum]; norm_num), hsod]

/-- a table of 22 points: a parabola and two more points -/
def demoZ : List ℝ := (List.range 20).map (fun i : Nat => (i : ℝ) ^ 2) ++ [1, 0]

theorem demoZ_get {i : Nat} (h : i < 20) : demoZ.getD i 0 = (i : ℝ) ^ 2 := by
  unfold demoZ
  rw [List.getD_eq_getElem?_getD, List.getElem?_append_left (by simpa using h), List.getElem?_map,
    List.getElem?_range h]
  simp

theorem demoZ_sum : demoZ.sum = 2471 := by
  unfold demoZ
  simp [List.range_succ]
  norm_num

theorem demoZ_valid : Valid 0 1 demoZ := by
  refine ⟨le_rfl, one_pos, by simp [demoZ], ?_, by rw [demoZ_sum]; norm_num⟩
  intro z hz
  unfold demoZ at hz
  rw [List.mem_append, List.mem_map] at hz
  rcases hz with ⟨i, _, rfl⟩ | hz
  · positivity
  · simp at hz; rcases hz with rfl | rfl <;> norm_num

theorem demo_accepted : ∃ d, linearDos 0 1 22 demoZ = .ok d ∧ d.sod = 1 / (demoZ.sum * 1) :=
  C106_parabola_partial demoZ_valid (by simp [demoZ]) 1 fun i hi => by rw [demoZ_get hi]; ring

example : ∃ d, linearDos 0 1 22 demoZ = .ok d ∧ d.at (0 + (3 : ℕ) * 1) = .ok (9 / 2471) ∧
    d.at 21 = .ok 0 ∧ d.at (-1) = .ok 0 ∧ (∀ e, ∃ x, d.at e = .ok x ∧ 0 ≤ x) ∧
    (∑ i ∈ range 21, d.val (0 + i * 1)) * 1 = 1 := by
  obtain ⟨d, hd, _⟩ := demo_accepted
  refine ⟨d, hd, ?_, C42_outside hd (.inr (by norm_num)), C42_outside hd (.inl (by norm_num)),
    C42_nonneg hd demoZ_valid.nonneg, ?_⟩
  · rw [C42_nodes hd (by norm_num), demoZ_get (by norm_num), demoZ_sum]; norm_num
  · have := C42_sum hd
    have h21 : demoZ.getD (22 - 1) 0 = 0 := by
      unfold demoZ
      rw [List.getD_eq_getElem?_getD, List.getElem?_append_right (by simp)]
      simp
    rw [h21, zero_div, add_zero] at this
    exact this

/-! ### C107 integral of the density of states -/

/-- **C107** The integral of the density of states: what is missing to one is half of the first and of the last
value. -/
theorem C107_integral (h : linearDos e0 de ne Z = .ok d) :
    ∫ e in d.emin..d.emax, d.val e = 1 - (Z.getD 0 0 + Z.getD (ne - 1) 0) / (2 * Z.sum) := by
  obtain ⟨h0, hd, hl, h20, ha, hs, hh⟩ := linearDos_ok h
  have hz : Z.sum ≠ 0 := left_ne_zero_of_mul ha
  have hmin : d.emin = (axisOf e0 de ne).tick 0 := by rw [hh]; simp [axisOf, Axis.tick]
  have hmax : d.emax = (axisOf e0 de ne).tick (ne - 1) := by
    rw [hh]; exact (axisOf_end (show 1 ≤ ne by omega)).symm
  have hcell : ∀ k < ne - 1, ∀ e ∈ Set.Ioo ((axisOf e0 de ne).tick k) ((axisOf e0 de ne).tick (k + 1)),
      d.val e = interp1 (Z.getD k 0 / (Z.sum * de)) (Z.getD (k + 1) 0 / (Z.sum * de))
        ((e - (axisOf e0 de ne).tick k) / de) := by
    intro k hk e he
    exact val_cell h ⟨hk, he.1.le, he.2⟩
  have hle : ∀ k, (axisOf e0 de ne).tick k ≤ (axisOf e0 de ne).tick (k + 1) := fun k =>
    tick_mono (a := axisOf e0 de ne) hd.le (Nat.le_succ k)
  have hcont : ∀ k : Nat, Continuous fun e : ℝ => interp1 (Z.getD k 0 / (Z.sum * de)) (Z.getD (k + 1) 0 / (Z.sum * de))
        ((e - (axisOf e0 de ne).tick k) / de) := by
    intro k; unfold interp1; fun_prop
  have hint : ∀ k < ne - 1, IntervalIntegrable d.val MeasureTheory.volume ((axisOf e0 de ne).tick k)
      ((axisOf e0 de ne).tick (k + 1)) := by
    intro k hk
    refine ((hcont k).intervalIntegrable _ _).congr_ae ?_
    rw [Set.uIoc_of_le (hle k), ← MeasureTheory.restrict_Ioo_eq_restrict_Ioc]
    filter_upwards [MeasureTheory.ae_restrict_mem measurableSet_Ioo] with e he
    exact (hcell k hk e he).symm
  rw [hmin, hmax, ← intervalIntegral.sum_integral_adjacent_intervals hint]
  have hpiece : ∀ k ∈ range (ne - 1), ∫ e in (axisOf e0 de ne).tick k..(axisOf e0 de ne).tick (k + 1), d.val e
      = (Z.getD k 0 + Z.getD (k + 1) 0) / (2 * Z.sum) := by
    intro k hk
    rw [intervalIntegral.integral_congr_ae_restrict (g := fun e => interp1 (Z.getD k 0 / (Z.sum * de))
      (Z.getD (k + 1) 0 / (Z.sum * de)) ((e - (axisOf e0 de ne).tick k) / de))]
    · rw [tick_succ]
      show ∫ e in _..(_ + de), _ = _
      rw [integral_affine _ _ _ _ hd.ne']
      field_simp
    · rw [Set.uIoc_of_le (hle k), ← MeasureTheory.restrict_Ioo_eq_restrict_Ioc]
      filter_upwards [MeasureTheory.ae_restrict_mem measurableSet_Ioo] with e he
      exact hcell k (Finset.mem_range.1 hk) e he
  rw [Finset.sum_congr rfl hpiece, ← Finset.sum_div, Finset.sum_add_distrib]
  have hsum : ∑ i ∈ range (ne - 1), Z.getD i 0 + Z.getD (ne - 1) 0 = Z.sum := by
    rw [← Finset.sum_range_succ, Nat.sub_add_cancel (by omega), hl, sum_getD]
  have hsum2 : ∑ i ∈ range (ne - 1), Z.getD (i + 1) 0 + Z.getD 0 0 = Z.sum := by
    rw [← Finset.sum_range_succ' (fun i => Z.getD i 0), Nat.sub_add_cancel (by omega), hl, sum_getD]
  rw [eq_sub_of_add_eq hsum, eq_sub_of_add_eq hsum2]
  field_simp
  ring

/-- **C107** (part that holds) It is one if the data starts and ends with zero. -/
theorem C107_ends_partial (h : linearDos e0 de ne Z = .ok d) (h0 : Z.getD 0 0 = 0) (h1 : Z.getD (ne - 1) 0 = 0) :
    ∫ e in d.emin..d.emax, d.val e = 1 := by
  rw [C107_integral h, h0, h1]; simp

example : ∃ d, linearDos 0 1 22 demoZ = .ok d ∧ ∫ e in d.emin..d.emax, d.val e = 1 := by
  obtain ⟨d, hd, _⟩ := demo_accepted
  refine ⟨d, hd, C107_ends_partial hd (by rw [demoZ_get (by norm_num)]; simp) ?_⟩
  unfold demoZ
  rw [List.getD_eq_getElem?_getD, List.getElem?_append_right (by simp)]
  simp

/-- **C107** (negation) In general it is not: a parabola cut off at its highest point (as a Debye spectrum)
gives less than 0.93. -/
theorem C107_debye_false : ∃ d, Valid 0 1 ((List.range 20).map fun i : Nat => (i : ℝ) ^ 2) ∧
    linearDos 0 1 20 ((List.range 20).map fun i : Nat => (i : ℝ) ^ 2) = .ok d ∧ ∫ e in d.emin..d.emax, d.val e < 0.93 := by
  have hg : ∀ i < 20, ((List.range 20).map fun i : Nat => (i : ℝ) ^ 2).getD i 0 = (i : ℝ) ^ 2 := by
    intro i hi
    rw [List.getD_eq_getElem?_getD, List.getElem?_map, List.getElem?_range hi]; simp
  have hsum : ((List.range 20).map fun i : Nat => (i : ℝ) ^ 2).sum = 2470 := by
    simp [List.range_succ]; norm_num
  have hv : Valid 0 1 ((List.range 20).map fun i : Nat => (i : ℝ) ^ 2) := by
    refine ⟨le_rfl, one_pos, by simp, ?_, by rw [hsum]; norm_num⟩
    intro z hz
    obtain ⟨i, _, rfl⟩ := List.mem_map.1 hz
    positivity
  obtain ⟨d, hd, _⟩ := C106_parabola_partial hv (by simp) 1 fun i hi => by rw [hg i hi]; ring
  rw [List.length_map, List.length_range] at hd
  refine ⟨d, hv, hd, ?_⟩
  rw [C107_integral hd, hg 0 (by norm_num), hg (20 - 1) (by norm_num), hsum]
  norm_num

/-! ### C108 Bose factor -/

/-- **C108** Detailed balance: the factor for gaining the energy `E` is `exp(-E/kT)` times the one for losing it. -/
theorem C108_balance {E T : ℝ} (hE : 0 < E) (hT : 0 < T) :
    ∃ a b, boseFactor E T = some a ∧ boseFactor (-E) T = some b ∧ 0 < b ∧ b < a ∧ b = Real.exp (-(E / kT T)) * a := by
  obtain ⟨h1, h2⟩ := bose_pos hE hT
  have hk : 0 < kT T := mul_pos hT kelvin2meV_pos
  have hx : 1 < Real.exp (E / kT T) := by rw [Real.one_lt_exp_iff]; positivity
  refine ⟨1 + 1 / (Real.exp (E / kT T) - 1), 1 / (Real.exp (E / kT T) - 1), ?_, ?_, h2, by linarith, ?_⟩
  · unfold boseFactor
    rw [if_neg hE.ne', abs_of_pos hE, h1]
    simp [hE]
  · unfold boseFactor
    rw [if_neg (by linarith), abs_neg, abs_of_pos hE, h1]
    simp [hE.le]
  · rw [Real.exp_neg]
    have : Real.exp (E / kT T) - 1 ≠ 0 := by linarith
    field_simp
    ring

/-- **C108** One more phonon can be lost than gained. -/
theorem C108_difference {E T a b : ℝ} (hE : 0 < E) (hT : 0 < T) (ha : boseFactor E T = some a)
    (hb : boseFactor (-E) T = some b) : a - b = 1 := by
  obtain ⟨a', b', h1, h2, h3, h4, h5⟩ := C108_balance hE hT
  rw [ha] at h1; rw [hb] at h2
  cases h1; cases h2
  rw [Real.exp_neg] at h5
  have hk : 0 < kT T := mul_pos hT kelvin2meV_pos
  obtain ⟨g1, g2⟩ := bose_pos hE hT
  unfold boseFactor at ha hb
  rw [if_neg hE.ne', abs_of_pos hE, g1] at ha
  rw [if_neg (by linarith), abs_neg, abs_of_pos hE, g1] at hb
  simp [hE] at ha
  simp [not_lt.2 hE.le] at hb
  linarith

/-- **C108** At temperature zero a neutron can only lose energy. -/
theorem C108_cold {E : ℝ} (hE : 0 < E) : boseFactor E 0 = some 1 ∧ boseFactor (-E) 0 = some 0 := by
  unfold boseFactor bose
  constructor
  · rw [if_neg hE.ne']
    simp [hE, hE.ne']
  · rw [if_neg (by linarith)]
    simp [hE.ne', hE.le]

/-- **C108** At energy 0, where the thermal factor diverges, the code returns 1. -/
theorem C108_zero (T : ℝ) : boseFactor 0 T = some 1 := if_pos rfl

example : ∃ a b, boseFactor 10 300 = some a ∧ boseFactor (-10) 300 = some b ∧ 0 < b ∧ b < a := by
  obtain ⟨a, b, h1, h2, h3, h4, _⟩ := C108_balance (E := 10) (T := 300) (by norm_num) (by norm_num)
  exact ⟨a, b, h1, h2, h3, h4⟩

/-! ### C109 Debye-Waller factor -/

/-- **C109** For a density of states that starts at energy 0 the coefficient is ħ²/2M times the trapezoidal sum
of Z(w) coth(w/2kT)/w, the value at 0 being extrapolated from the next two. -/
theorem C109_trapezoid_partial {wmax : ℝ} (hw : 0 < wmax) (Z : ℝ → ℝ) (m : Nat) (mass : ℝ) {T : ℝ} (hT : 0 < T) :
    ∃ dw : ℝ, dw * ((m : ℝ) + 2 + 0.00000001) = wmax ∧
      dwCore 0 wmax Z (m + 3) mass T = .ok (recoil mass * dw *
        ((2 * dwIntegrand Z T dw - dwIntegrand Z T (2 * dw)) / 2
          + ∑ i ∈ range (m + 1), dwIntegrand Z T ((i + 1) * dw) + dwIntegrand Z T ((m + 2) * dw) / 2)) := by
  have hden : (0 : ℝ) < (m : ℝ) + 2 + 0.00000001 := by positivity
  refine ⟨wmax / ((m : ℝ) + 2 + 0.00000001), div_mul_cancel₀ _ hden.ne', ?_⟩
  rw [dwCore_zero hw Z m mass hT]
  unfold trapezoid
  congr 2
  push_cast
  simp only [one_mul, mul_comm (wmax / ((m : ℝ) + 2 + 0.00000001))]

/-- **C109** The result is exact if the integrand is a straight line: ħ²/2M times its integral up to the last
point. -/
theorem C109_exact_partial {wmax : ℝ} (hw : 0 < wmax) (Z : ℝ → ℝ) (m : Nat) (mass : ℝ) {T : ℝ} (hT : 0 < T)
    (a b : ℝ) (hZ : ∀ w, 0 < w → w ≤ wmax → dwIntegrand Z T w = a + b * w) :
    ∃ W, W * (1 + 1e-8 / ((m : ℝ) + 2)) = wmax ∧
      dwCore 0 wmax Z (m + 3) mass T = .ok (recoil mass * ∫ w in (0 : ℝ)..W, (a + b * w)) := by
  obtain ⟨dw, hdw, hc⟩ := C109_trapezoid_partial hw Z m mass hT
  have hden : (0 : ℝ) < (m : ℝ) + 2 + 0.00000001 := by positivity
  have hdw0 : 0 < dw := by
    by_contra hn
    nlinarith
  have hle : ∀ x : ℝ, 0 < x → x ≤ (m : ℝ) + 2 → dwIntegrand Z T (x * dw) = a + b * (x * dw) := by
    intro x hx hx2
    refine hZ _ (by positivity) ?_
    rw [← hdw]
    nlinarith
  refine ⟨((m : ℝ) + 2) * dw, ?_, ?_⟩
  · rw [← hdw]; field_simp
  · rw [hc]
    have h1 := hle 1 one_pos (by linarith [Nat.cast_nonneg (α := ℝ) m])
    rw [one_mul] at h1
    rw [h1, hle 2 two_pos (by linarith [Nat.cast_nonneg (α := ℝ) m]), hle ((m : ℝ) + 2) (by positivity) le_rfl]
    have hsum : ∑ i ∈ range (m + 1), dwIntegrand Z T ((i + 1) * dw)
        = (m + 1) * a + b * dw * ((m + 1) * (m + 2) / 2) := by
      have e : ∀ i ∈ range (m + 1), dwIntegrand Z T (((i : ℝ) + 1) * dw) = a + b * dw * ((i : ℝ) + 1) := by
        intro i hi
        have : i < m + 1 := Finset.mem_range.1 hi
        have : (i : ℝ) + 1 ≤ m + 1 := by exact_mod_cast this
        rw [hle _ (by positivity) (by linarith)]
        ring
      rw [Finset.sum_congr rfl e]
      clear hc e h1 hle hdw hden
      induction m with
      | zero => simp
      | succ m ih =>
        rw [Finset.sum_range_succ, ih]
        push_cast
        ring
    rw [hsum]
    congr 1
    have hi : IntervalIntegrable (fun w : ℝ => b * w) MeasureTheory.volume 0 (((m : ℝ) + 2) * dw) :=
      (continuous_const.mul continuous_id).intervalIntegrable _ _
    rw [intervalIntegral.integral_add (by simp) hi, intervalIntegral.integral_const,
      intervalIntegral.integral_const_mul, integral_id]
    simp only [smul_eq_mul]
    ring

example : ∃ W : ℝ, dwCore 0 40 (fun w => w * (3 + 2 * w) / coth (w / (2 * kT 300))) 100 50.9 300
    = .ok (recoil 50.9 * ∫ w in (0 : ℝ)..W, (3 + 2 * w)) := by
  obtain ⟨W, _, h⟩ := C109_exact_partial (wmax := 40) (by norm_num)
    (fun w => w * (3 + 2 * w) / coth (w / (2 * kT 300))) 97 50.9 (T := 300) (by norm_num) 3 2 (by
      intro w hw _
      have hk : 0 < kT 300 := mul_pos (by norm_num) kelvin2meV_pos
      have := coth_pos (show 0 < w / (2 * kT 300) by positivity)
      unfold dwIntegrand
      field_simp)
  exact ⟨W, h⟩

theorem recoil_pos {mass : ℝ} (h : 0 < mass) : 0 < recoil mass := by unfold recoil; positivity

theorem dwIntegrand_nonneg {Z : ℝ → ℝ} {T w : ℝ} (hT : 0 < T) (hw : 0 < w) (h : 0 ≤ Z w) : 0 ≤ dwIntegrand Z T w := by
  have hk : 0 < kT T := mul_pos hT kelvin2meV_pos
  have := (coth_pos (show 0 < w / (2 * kT T) by positivity)).le
  unfold dwIntegrand
  positivity

/-- **C109** For a density of states from energy 0 on that is not negative the Debye-Waller factor is between
0 and 1. -/
theorem C109_unit_partial {wmax : ℝ} (hw : 0 < wmax) {Z : ℝ → ℝ} (hZ : ∀ w, 0 ≤ Z w) (m : Nat) {mass T : ℝ}
    (hm : 0 < mass) (hT : 0 < T) :
    ∃ core, dwCore 0 wmax Z (m + 3) mass T = .ok core ∧
      ∀ Q, 0 < Real.exp (-dwAt core Q) ∧ Real.exp (-dwAt core Q) ≤ 1 := by
  refine ⟨_, dwCore_zero hw Z m mass hT, fun Q => ⟨Real.exp_pos _, ?_⟩⟩
  rw [Real.exp_le_one_iff]
  have hden : (0 : ℝ) < (m : ℝ) + 2 + 0.00000001 := by positivity
  have hdw : 0 < wmax / ((m : ℝ) + 2 + 0.00000001) := by positivity
  have ht : 0 ≤ trapezoid (fun i => dwIntegrand Z T (wmax / ((m : ℝ) + 2 + 0.00000001) * i)) m := by
    refine trapezoid_nonneg fun i hi _ => dwIntegrand_nonneg hT ?_ (hZ _)
    have : (1 : ℝ) ≤ i := by exact_mod_cast hi
    positivity
  have hr := (recoil_pos hm).le
  unfold dwAt
  have : 0 ≤ Q * Q * (recoil mass * (wmax / ((m : ℝ) + 2 + 0.00000001)) *
      trapezoid (fun i => dwIntegrand Z T (wmax / ((m : ℝ) + 2 + 0.00000001) * i)) m) :=
    mul_nonneg (mul_self_nonneg _) (mul_nonneg (mul_nonneg hr hdw.le) ht)
  linarith

theorem coth_anti {x y : ℝ} (hx : 0 < x) (h : x ≤ y) : coth y ≤ coth x := by
  unfold coth
  have hs : 0 < Real.sinh x := Real.sinh_pos_iff.2 hx
  have ht : 0 < Real.sinh y := Real.sinh_pos_iff.2 (lt_of_lt_of_le hx h)
  rw [div_le_div_iff₀ ht hs]
  have : 0 ≤ Real.sinh (y - x) := Real.sinh_nonneg_iff.2 (by linarith)
  rw [Real.sinh_sub] at this
  linarith

/-- **C109** It gets weaker with temperature. -/
theorem C109_hotter_partial {wmax : ℝ} (hw : 0 < wmax) {Z : ℝ → ℝ} (hZ : ∀ w, 0 ≤ Z w) (m : Nat) {mass T1 T2 : ℝ}
    (hm : 0 < mass) (hT : 0 < T1) (h12 : T1 ≤ T2) :
    ∃ c1 c2, dwCore 0 wmax Z (m + 3) mass T1 = .ok c1 ∧ dwCore 0 wmax Z (m + 3) mass T2 = .ok c2 ∧ c1 ≤ c2 := by
  have hT2 : 0 < T2 := by linarith
  refine ⟨_, _, dwCore_zero hw Z m mass hT, dwCore_zero hw Z m mass hT2, ?_⟩
  have hden : (0 : ℝ) < (m : ℝ) + 2 + 0.00000001 := by positivity
  obtain ⟨dw, hdw⟩ : ∃ dw, dw = wmax / ((m : ℝ) + 2 + 0.00000001) := ⟨_, rfl⟩
  have hdw0 : 0 < dw := by rw [hdw]; positivity
  rw [← hdw]
  refine mul_le_mul_of_nonneg_left ?_ (mul_nonneg (recoil_pos hm).le hdw0.le)
  rw [← sub_nonneg]
  have e : trapezoid (fun i : Nat => dwIntegrand Z T2 (dw * i)) m - trapezoid (fun i : Nat => dwIntegrand Z T1 (dw * i)) m
      = trapezoid (fun i : Nat => dwIntegrand Z T2 (dw * i) - dwIntegrand Z T1 (dw * i)) m := by
    unfold trapezoid
    rw [Finset.sum_sub_distrib]
    ring
  rw [e]
  refine trapezoid_nonneg fun i hi _ => ?_
  have h1 : (1 : ℝ) ≤ i := by exact_mod_cast hi
  have hwi : 0 < dw * i := by positivity
  have hk1 : 0 < kT T1 := mul_pos hT kelvin2meV_pos
  have hk2 : 0 < kT T2 := mul_pos hT2 kelvin2meV_pos
  have hk : kT T1 ≤ kT T2 := mul_le_mul_of_nonneg_right h12 kelvin2meV_pos.le
  have hc := coth_anti (x := dw * i / (2 * kT T2)) (y := dw * i / (2 * kT T1)) (by positivity)
    (div_le_div_of_nonneg_left hwi.le (by positivity) (by linarith))
  rw [sub_nonneg]
  unfold dwIntegrand
  exact div_le_div_of_nonneg_right (mul_le_mul_of_nonneg_left hc (hZ _)) hwi.le

example : ∃ core, dwCore 0 40 (fun w => if 0 ≤ w ∧ w ≤ 40 then 1 / 40 else 0) 100 50.9 300 = .ok core ∧
    ∀ Q, Real.exp (-dwAt core Q) ≤ 1 := by
  obtain ⟨c, h1, h2⟩ := C109_unit_partial (wmax := 40) (by norm_num)
    (Z := fun w => if 0 ≤ w ∧ w ≤ 40 then 1 / 40 else 0) (fun w => by split <;> norm_num) 97 (mass := 50.9)
    (T := 300) (by norm_num) (by norm_num)
  exact ⟨c, h1, fun Q => (h2 Q).2⟩

/-- **C109** (negation) If the density of states starts above zero the coefficient may be negative and the
factor larger than one. -/
theorem C109_gap_false : ∃ core, dwCore 10 11 (fun w => if 10.1 < w ∧ w < 10.9 then 1 else 0) 3 1 300 = .ok core ∧
    ∀ Q, Q ≠ 0 → 1 < Real.exp (-dwAt core Q) := by
  obtain ⟨Z, hZ⟩ : ∃ Z : ℝ → ℝ, Z = fun w => if 10.1 < w ∧ w < 10.9 then 1 else 0 := ⟨_, rfl⟩
  obtain ⟨dw, hdw⟩ : ∃ dw : ℝ, dw = (11 - 10) / (((3 : ℕ) : ℝ) - 1 + 0.00000001) := ⟨_, rfl⟩
  have hlo : 0.49 < dw := by rw [hdw]; norm_num
  have hhi : dw < 0.5 := by rw [hdw]; norm_num
  have ew : ∀ i : Nat, dwPoint 10 11 3 i = dw * i + 10 := fun i => by unfold dwPoint; rw [hdw]
  have hu : ((List.range 3).filter fun i => ¬ dwPoint 10 11 3 i < 11 / ((3 : ℕ) : ℝ) / 100) = [0, 1, 2] := by
    rw [List.filter_eq_self.2]
    · rfl
    · intro i _
      rw [ew]
      have : (0 : ℝ) ≤ dw * i := mul_nonneg (by linarith) (Nat.cast_nonneg i)
      simp only [decide_eq_true_eq, not_lt]
      norm_num
      linarith
  have ht : ∀ i : Nat, dwTerm Z 300 (dw * i + 10) = some (dwIntegrand Z 300 (dw * i + 10)) := fun i =>
    dwTerm_some Z (by norm_num) (by
      have : (0 : ℝ) ≤ dw * i := mul_nonneg (by linarith) (Nat.cast_nonneg i)
      linarith)
  have f0 : dwIntegrand Z 300 (dw * (0 : ℕ) + 10) = 0 := by
    have : Z (dw * (0 : ℕ) + 10) = 0 := by rw [hZ]; simp; intro h; norm_num at h
    unfold dwIntegrand; rw [this]; simp
  have f2 : dwIntegrand Z 300 (dw * (2 : ℕ) + 10) = 0 := by
    have : Z (dw * (2 : ℕ) + 10) = 0 := by
      rw [hZ]; simp only; rw [if_neg]; rintro ⟨_, h⟩; push_cast at h; norm_num at h hlo; linarith
    unfold dwIntegrand; rw [this]; simp
  have f1 : 0 < dwIntegrand Z 300 (dw * (1 : ℕ) + 10) := by
    have : Z (dw * (1 : ℕ) + 10) = 1 := by
      rw [hZ]; simp only; rw [if_pos]; push_cast; norm_num at *; constructor <;> linarith
    unfold dwIntegrand; rw [this]
    have hk : 0 < kT 300 := mul_pos (by norm_num) kelvin2meV_pos
    have hx : (0 : ℝ) < dw * (1 : ℕ) + 10 := by push_cast; linarith
    have := coth_pos (show 0 < (dw * (1 : ℕ) + 10) / (2 * kT 300) by positivity)
    positivity
  obtain ⟨g, hg⟩ : ∃ g, g = dwIntegrand Z 300 (dw * (1 : ℕ) + 10) := ⟨_, rfl⟩
  rw [← hg] at f1
  refine ⟨(g * 1 + (0 - (dw * (0 : ℕ) + 10) * (g - 0) / dw) / 2) * dwFactor dw 1, ?_, ?_⟩
  · rw [← hZ]
    unfold dwCore
    simp only
    rw [hu, ← hdw]
    simp only [ew]
    rw [if_neg]
    · simp only [List.head?_cons]
      rw [if_neg (by simp)]
      simp only [List.map_cons, List.map_nil, List.sum_cons, List.sum_nil]
      rw [ht 0, ht 1, ht 2]
      rw [f0, f2, ← hg]
      simp
    · rintro ⟨i, _, hi⟩
      rw [ht] at hi; cases hi
  · intro Q hQ
    rw [Real.one_lt_exp_iff, dwFactor_eq]
    have hr := recoil_pos one_pos
    have hcore : g * 1 + (0 - (dw * (0 : ℕ) + 10) * (g - 0) / dw) / 2 < 0 := by
      have : g * 1 + (0 - (dw * (0 : ℕ) + 10) * (g - 0) / dw) / 2 = g * (1 - 5 / dw) := by
        push_cast; field_simp; ring
      rw [this]
      refine mul_neg_of_pos_of_neg f1 ?_
      have : 1 < 5 / dw := by rw [lt_div_iff₀ (by linarith)]; linarith
      linarith
    have hQ2 : 0 < Q * Q := mul_self_pos.2 hQ
    unfold dwAt
    have : 0 < -(g * 1 + (0 - (dw * (0 : ℕ) + 10) * (g - 0) / dw) / 2) * (recoil 1 * dw) :=
      mul_pos (by linarith) (mul_pos hr (by linarith))
    nlinarith [mul_pos hQ2 this]

end Verif.Dos
