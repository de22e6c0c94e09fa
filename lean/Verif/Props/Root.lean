import Verif.Lemmas.Root
/-!
C50, C120, C121: root finding.
-/

namespace Verif.Root

/-- C50: every returned value lies in the interval; it is a grid point at which the function vanishes, or it lies
strictly inside a sub-interval at whose ends the function has opposite signs. -/
theorem C50_inside {f : ℝ → ℝ} {xacc x1 x2 r : ℝ} {n : ℕ} (h12 : x1 < x2) (hn : 0 < n)
    (h : r ∈ solve f xacc n x1 x2) :
    (x1 ≤ r ∧ r ≤ x2) ∧
    ((∃ i ≤ n, r = gridPt x1 x2 n i ∧ f r = 0) ∨
     (∃ i < n, gridPt x1 x2 n i < r ∧ r < gridPt x1 x2 n (i + 1) ∧
       f (gridPt x1 x2 n i) * f (gridPt x1 x2 n (i + 1)) < 0)) := by
  obtain ⟨i, hi, hz⟩ := mem_solve h
  have hlt := grid_lt h12 hn (Nat.lt_succ_self i)
  have ha : x1 ≤ gridPt x1 x2 n i := by
    have := grid_le h12 hn (Nat.zero_le i)
    rwa [grid_zero] at this
  have hb : gridPt x1 x2 n (i + 1) ≤ x2 := by
    have := grid_le h12 hn (Nat.succ_le_of_lt hi)
    rwa [grid_last x1 x2 hn] at this
  rcases zridd_some hlt hz with ⟨rfl, h0⟩ | ⟨rfl, h0⟩ | ⟨hs, h1, h2, -⟩
  · exact ⟨⟨ha, by linarith⟩, .inl ⟨i, hi.le, rfl, h0⟩⟩
  · exact ⟨⟨by linarith, hb⟩, .inl ⟨i + 1, hi, rfl, h0⟩⟩
  · exact ⟨⟨by linarith, by linarith⟩, .inr ⟨i, hi, h1, h2, hs⟩⟩

/-- C50: near every returned value there is a root of a continuous function, at a distance of at most half a step. -/
theorem C50_real {f : ℝ → ℝ} {xacc x1 x2 r : ℝ} {n : ℕ} (h12 : x1 < x2) (hn : 0 < n)
    (hf : ContinuousOn f (Set.Icc x1 x2)) (h : r ∈ solve f xacc n x1 x2) :
    ∃ x, (x1 ≤ x ∧ x ≤ x2) ∧ f x = 0 ∧ |x - r| ≤ (x2 - x1) / n / 2 := by
  obtain ⟨i, hi, hz⟩ := mem_solve h
  have hlt := grid_lt h12 hn (Nat.lt_succ_self i)
  have ha : x1 ≤ gridPt x1 x2 n i := by
    have := grid_le h12 hn (Nat.zero_le i)
    rwa [grid_zero] at this
  have hb : gridPt x1 x2 n (i + 1) ≤ x2 := by
    have := grid_le h12 hn (Nat.succ_le_of_lt hi)
    rwa [grid_last x1 x2 hn] at this
  have hst : 0 ≤ (x2 - x1) / n / 2 := by
    have := grid_step x1 x2 n i
    linarith
  rcases zridd_some hlt hz with ⟨rfl, h0⟩ | ⟨rfl, h0⟩ | ⟨-, h1, h2, hN⟩
  · exact ⟨_, ⟨ha, by linarith⟩, h0, by simpa using hst⟩
  · exact ⟨_, ⟨by linarith, hb⟩, h0, by simpa using hst⟩
  · rw [grid_step] at hN
    obtain ⟨x, hx, h0, hd⟩ := hN.root (hf.mono (Set.Icc_subset_Icc ha hb)) hst ⟨h1.le, h2.le⟩
    exact ⟨x, ⟨by linarith [hx.1], by linarith [hx.2]⟩, h0, hd⟩

/-- C50: a sign change on the grid (or a root at a grid point) produces a root in that sub-interval, provided the
accuracy is at least the `2^59`-th part of a step and the interval lies above the value used as a marker. -/
theorem C50_complete {f : ℝ → ℝ} {xacc x1 x2 : ℝ} {n i : ℕ} (h12 : x1 < x2) (hi : i < n) (hu : -1.11e30 + xacc < x1)
    (hx : (x2 - x1) / n ≤ xacc * 2 ^ 59) (hs : f (gridPt x1 x2 n i) * f (gridPt x1 x2 n (i + 1)) ≤ 0) :
    ∃ r ∈ solve f xacc n x1 x2, gridPt x1 x2 n i ≤ r ∧ r ≤ gridPt x1 x2 n (i + 1) := by
  have hn : 0 < n := by omega
  have hlt := grid_lt h12 hn (Nat.lt_succ_self i)
  have ha : x1 ≤ gridPt x1 x2 n i := by
    have := grid_le h12 hn (Nat.zero_le i)
    rwa [grid_zero] at this
  obtain ⟨r, hr⟩ := zridd_ok (xacc := xacc) hlt hs (by unfold unused; linarith) (by rw [grid_step]; exact hx)
  refine ⟨r, ?_, ?_⟩
  · unfold solve
    simp only [List.mem_filterMap, List.mem_range]
    refine ⟨i, hi, ?_⟩
    unfold stepRoot
    unfold gridPt at hr
    rw [hr]
  · rcases zridd_some hlt hr with ⟨rfl, -⟩ | ⟨rfl, -⟩ | ⟨-, h1, h2, -⟩
    · exact ⟨le_rfl, hlt.le⟩
    · exact ⟨hlt.le, le_rfl⟩
    · exact ⟨h1.le, h2.le⟩

/-- the identity on `[-1,2]` in one step meets the hypotheses of `C50_inside`, `C50_real` and `C50_complete` -/
example : ∃ r ∈ solve (fun x => x) 1e-3 1 (-1) 2, gridPt (-1) 2 1 0 ≤ r ∧ r ≤ gridPt (-1) 2 1 (0 + 1) :=
  C50_complete (by norm_num) (by norm_num) (by norm_num) (by norm_num) (by norm_num [gridPt])

example : ∃ r ∈ solve (fun x => x) 1e-3 1 (-1) 2, (∃ x, ((-1 : ℝ) ≤ x ∧ x ≤ 2) ∧ x = 0 ∧ |x - r| ≤ (2 - (-1 : ℝ)) / (1 : ℕ) / 2) ∧
    -1 ≤ r ∧ r ≤ 2 := by
  obtain ⟨r, hr, -⟩ : ∃ r ∈ solve (fun x => x) 1e-3 1 (-1) 2, gridPt (-1) 2 1 0 ≤ r ∧ r ≤ gridPt (-1) 2 1 (0 + 1) :=
    C50_complete (by norm_num) (by norm_num) (by norm_num) (by norm_num) (by norm_num [gridPt])
  exact ⟨r, hr, C50_real (by norm_num) (by norm_num) continuousOn_id hr, (C50_inside (by norm_num) (by norm_num) hr).1⟩

/-! ### C120 -/

/-- C120, partial: every returned value is within the requested accuracy of a root if the step is at most twice the
accuracy.  Missing: finer accuracies, see `C120_accuracy_false`. -/
theorem C120_accuracy_partial {f : ℝ → ℝ} {xacc x1 x2 r : ℝ} {n : ℕ} (h12 : x1 < x2) (hn : 0 < n)
    (hf : ContinuousOn f (Set.Icc x1 x2)) (hx : (x2 - x1) / n ≤ 2 * xacc) (h : r ∈ solve f xacc n x1 x2) :
    ∃ x, (x1 ≤ x ∧ x ≤ x2) ∧ f x = 0 ∧ |x - r| ≤ xacc := by
  obtain ⟨x, h1, h2, h3⟩ := C50_real h12 hn hf h
  exact ⟨x, h1, h2, by linarith⟩

example : ∃ r ∈ solve (fun x => x) 2 1 (-1) 2, ∃ x, ((-1 : ℝ) ≤ x ∧ x ≤ 2) ∧ x = 0 ∧ |x - r| ≤ 2 := by
  obtain ⟨r, hr, -⟩ : ∃ r ∈ solve (fun x => x) 2 1 (-1) 2, gridPt (-1) 2 1 0 ≤ r ∧ r ≤ gridPt (-1) 2 1 (0 + 1) :=
    C50_complete (by norm_num) (by norm_num) (by norm_num) (by norm_num) (by norm_num [gridPt])
  exact ⟨r, hr, C120_accuracy_partial (by norm_num) (by norm_num) continuousOn_id (by norm_num) hr⟩

/-- C120 is false: for a continuous function on `[-1,1]` and an accuracy of 0.01 the value 0.2 is returned, and there
is no root within 0.01 (not even within 0.05) of it. -/
theorem C120_accuracy_false : ∃ f : ℝ → ℝ, Continuous f ∧ ∃ xacc > 0, ∃ r ∈ solve f xacc 1 (-1) 1,
    ∀ x, |x - r| ≤ 5 * xacc → f x ≠ 0 := by
  refine ⟨zigzag, zigzag_continuous, 1 / 100, by norm_num, 1 / 5, by rw [zigzag_solve]; simp, fun x hx => ?_⟩
  rw [abs_le] at hx
  unfold zigzag
  split
  · intro hc; linarith
  · split
    · intro hc; linarith
    · split
      · intro hc; linarith
      · intro hc; linarith

/-! ### C121 -/

/-- C121, partial: the returned values are strictly increasing, so no root is returned twice, if the function does not
vanish at an inner grid point.  Missing: roots at grid points, see `C121_twice_false`. -/
theorem C121_distinct_partial {f : ℝ → ℝ} {xacc x1 x2 : ℝ} {n : ℕ} (h12 : x1 < x2) (hn : 0 < n)
    (h0 : ∀ i, 0 < i → i < n → f (gridPt x1 x2 n i) ≠ 0) : (solve f xacc n x1 x2).Pairwise (· < ·) := by
  unfold solve
  simp only
  rw [List.pairwise_filterMap]
  apply List.Pairwise.imp_of_mem _ (List.pairwise_lt_range (n := n))
  intro i j hi hj hij r hr s hs
  rw [List.mem_range] at hi hj
  have key : ∀ {k r}, k < n → stepRoot f xacc x1 ((x2 - x1) / n) k = some r →
      (gridPt x1 x2 n k ≤ r ∧ r ≤ gridPt x1 x2 n (k + 1)) ∧ (0 < k → gridPt x1 x2 n k < r) := by
    intro k r hk h
    have hz : zridd f (gridPt x1 x2 n k) (gridPt x1 x2 n (k + 1)) xacc = .ok (some r) := by
      unfold stepRoot at h
      unfold gridPt
      split at h
      · next heq => rw [heq, h]
      · cases h
    have hlt := grid_lt h12 hn (Nat.lt_succ_self k)
    rcases zridd_some hlt hz with ⟨rfl, h1⟩ | ⟨rfl, h1⟩ | ⟨-, h1, h2, -⟩
    · refine ⟨⟨le_rfl, hlt.le⟩, fun hp => absurd h1 (h0 k hp hk)⟩
    · exact ⟨⟨hlt.le, le_rfl⟩, fun _ => hlt⟩
    · exact ⟨⟨h1.le, h2.le⟩, fun _ => h1⟩
  have h1 := (key hi hr).1.2
  have h2 := (key hj hs).2 (by omega)
  have h3 := grid_le h12 hn (Nat.succ_le_of_lt hij)
  exact lt_of_le_of_lt (h1.trans h3) h2

example : (solve (fun x => x) 1e-3 2 (-1) 2).Pairwise (· < ·) := by
  apply C121_distinct_partial (by norm_num) (by norm_num)
  intro i h1 h2
  have : i = 1 := by omega
  subst this
  norm_num [gridPt]

/-- C121 is false: a root at an inner grid point at whose left neighbour the function does not vanish is returned
twice. -/
theorem C121_twice_false : solve (fun x => x) 1e-3 2 (-1) 1 = [0, 0] := by
  have a : zridd (fun x => x) (-1) 0 1e-3 = .ok (some 0) := by norm_num [zridd]
  have b : zridd (fun x => x) 0 1 1e-3 = .ok (some 0) := by norm_num [zridd]
  unfold solve
  simp only [List.range_succ, List.range_zero, List.nil_append, List.cons_append]
  have e1 : (-1 : ℝ) + (1 - -1) / (2 : ℕ) * (0 : ℕ) = -1 := by norm_num
  have e2 : (-1 : ℝ) + (1 - -1) / (2 : ℕ) * ((0 + 1 : ℕ) : ℕ) = 0 := by norm_num
  have e3 : (-1 : ℝ) + (1 - -1) / (2 : ℕ) * (1 : ℕ) = 0 := by norm_num
  have e4 : (-1 : ℝ) + (1 - -1) / (2 : ℕ) * ((1 + 1 : ℕ) : ℕ) = 1 := by norm_num
  rw [List.filterMap_cons_some (b := 0), List.filterMap_cons_some (b := 0), List.filterMap_nil]
  · unfold stepRoot
    rw [e3, e4, b]
  · unfold stepRoot
    rw [e1, e2, a]

end Verif.Root
