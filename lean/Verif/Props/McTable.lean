import Verif.Lemmas.McTable
/-! Properties of the tables of the McStas components. -/

namespace Verif.McTable
open Kinem
noncomputable section
open Classical

/-- C184 (partial): in a table with an increasing first column with unequal steps, `Table_Value` interpolates linearly, and takes the first and the
last row outside.  Missing: the last two rows (see `C184_last_false`), tables with equal steps (`C184_step_false`). -/
theorem C184_partial (t : Table) (h : t.Increasing) (hu : t.stat.constantStep = false) (hl : t.linear = true) (j : Nat)
    (hj : j < t.columns) (X : ℝ) (hX : X < t.cell (t.rows - 2) 0 ∨ t.cell (t.rows - 1) 0 < X) :
    ∃ v, t.stat.value X j = some v ∧ t.Linear j X v := by
  obtain ⟨a, b, c, d⟩ := stat_same t
  obtain ⟨v, hv, hL⟩ := value_linear t.stat (increasing_stat t h) (by rw [stat_min t h, cell_stat]) (by rw [stat_max t h, cell_stat, a]) hu
    (by rw [d]; exact hl) j (by rw [b]; exact hj) X (by rw [cell_stat, a]; exact hX)
  exact ⟨v, hv, (linear_stat t j X v).1 hL⟩

/-- a table of three points (0, 0), (1, 10), (x, 10 x) on one straight line -/
def line (x : ℝ) : Table := .raw 3 2 fun k => [0, 0, 1, 10, x, 10 * x].getD k 0

lemma line_inc (x : ℝ) (h : 1 < x) (h2 : x ≤ 3) : (line x).Increasing := by
  refine ⟨by norm_num [line, Table.raw], by norm_num [line, Table.raw], fun i hi => ?_, ?_, ?_⟩
  · have : i = 0 ∨ i = 1 := by simp [line, Table.raw] at hi; omega
    rcases this with rfl | rfl <;> simp [line, Table.raw, Table.cell, h]
  · norm_num [line, Table.raw, Table.cell, fltMax]
  · norm_num [line, Table.raw, Table.cell, fltMax]
    linarith

lemma line_index (x : ℝ) : (line x).index 0 0 = 0 ∧ (line x).index 0 1 = 0 ∧ (line x).index 1 0 = 1 ∧ (line x).index 1 1 = 10 ∧
    (line x).index 2 0 = x ∧ (line x).index 2 1 = 10 * x := by
  have hc : 2 ≤ (line x).columns := by norm_num [line, Table.raw]
  have hr : 2 ≤ (line x).rows := by norm_num [line, Table.raw]
  have h := fun (i j : Nat) (hi : i < 3) (hj : j < 2) => index_cell (line x) i j hc hr (by simpa [line, Table.raw] using hi)
    (by simpa [line, Table.raw] using hj)
  have h00 := h 0 0 (by norm_num) (by norm_num)
  have h01 := h 0 1 (by norm_num) (by norm_num)
  have h10 := h 1 0 (by norm_num) (by norm_num)
  have h11 := h 1 1 (by norm_num) (by norm_num)
  have h20 := h 2 0 (by norm_num) (by norm_num)
  have h21 := h 2 1 (by norm_num) (by norm_num)
  push_cast at h00 h01 h10 h11 h20 h21
  rw [h00, h01, h10, h11, h20, h21]
  simp [Table.cell, line, Table.raw]

lemma line_step (x : ℝ) (h : 2 ≤ x) (h2 : x ≤ 3) : (line x).stat.stepX = 1 := by
  have hi := line_inc x (by linarith) h2
  have hm := stat_min _ hi
  have hM := stat_max _ hi
  have d0 := diff_cell _ hi 0 (by simp [line, Table.raw])
  have d1 := diff_cell _ hi 1 (by simp [line, Table.raw])
  unfold Table.stat at hm hM ⊢
  rw [if_neg (by simp [line, Table.raw]), if_pos (by simp [line, Table.raw])] at hm hM ⊢
  dsimp only at hm hM ⊢
  rw [hm, hM, if_pos (by simp [line, Table.raw])]
  simp [line, Table.raw, Table.cell] at d0 d1 ⊢
  norm_num [List.range_succ, Table.stepTurn, d0, d1]
  have hx : |x / 2| = x / 2 := abs_of_pos (by linarith)
  have hx1 : |x - 1| = x - 1 := abs_of_pos (by linarith)
  rw [hx]
  split_ifs with h3 h4 h4
  · rw [hx1, abs_one] at h4; linarith
  · rfl
  · rw [hx1, hx] at h4; linarith
  · linarith

lemma line_even (x : ℝ) (h : 2 ≤ x) (h2 : x ≤ 3) : (line x).stat.constantStep = true ↔ x < 2.02 := by
  have hi := line_inc x (by linarith) h2
  obtain ⟨-, -, -, h5⟩ := stat_step _ hi (by simp [line, Table.raw])
  rw [h5, line_step x h h2]
  have hx1 : |x - 1| = x - 1 := abs_of_pos (by linarith)
  constructor
  · intro hh
    have := (hh 1 (by simp [line, Table.raw])).2
    simp [line, Table.raw, Table.cell, hx1, stepTol] at this
    norm_num at this ⊢
    linarith
  · intro hh i hi
    have : i = 0 ∨ i = 1 := by simp [line, Table.raw] at hi; omega
    rcases this with rfl | rfl
    · norm_num [even, line, Table.raw, Table.cell, stepTol]
    · simp [even, line, Table.raw, Table.cell, hx1, stepTol]
      norm_num at hh ⊢
      constructor <;> linarith

example : (line 3).Increasing ∧ (line 3).stat.constantStep = false ∧ (line 3).linear = true ∧ (1 / 2 : ℝ) < (line 3).cell 1 0 := by
  refine ⟨line_inc 3 (by norm_num) le_rfl, ?_, rfl, ?_⟩
  · rw [← Bool.not_eq_true, line_even 3 (by norm_num) le_rfl]
    norm_num
  · norm_num [line, Table.raw, Table.cell]

/-- C184: `Table_Index` outside of a table takes the nearest row and column -/
theorem C184_index (t : Table) (hr : 2 ≤ t.rows) (hc : 2 ≤ t.columns) (i j : ℤ) :
    t.index i j = t.cell (min i.toNat (t.rows - 1)) (min j.toNat (t.columns - 1)) := by
  rw [← index_cell t _ _ hc hr (by omega) (by omega)]
  unfold Table.index
  have h3 : ¬ (t.columns = 1 ∨ t.rows = 1) := by omega
  have clamp : ∀ (a : ℤ) (n : Nat), 2 ≤ n →
      (if (if a < 0 then 0 else a) ≥ (n : ℤ) then (n : ℤ) - 1 else (if a < 0 then 0 else a)) = ((min a.toNat (n - 1) : Nat) : ℤ) := by
    intro a n hn
    split_ifs <;> omega
  have clamp' : ∀ (a : ℤ) (n : Nat), 2 ≤ n →
      (if (if ((min a.toNat (n - 1) : Nat) : ℤ) < 0 then 0 else ((min a.toNat (n - 1) : Nat) : ℤ)) ≥ (n : ℤ) then (n : ℤ) - 1
        else (if ((min a.toNat (n - 1) : Nat) : ℤ) < 0 then 0 else ((min a.toNat (n - 1) : Nat) : ℤ))) = ((min a.toNat (n - 1) : Nat) : ℤ) := by
    intro a n hn
    split_ifs <;> omega
  simp only [h3, if_false, clamp i t.rows hr, clamp j t.columns hc, clamp' i t.rows hr, clamp' j t.columns hc]

example : (line 3).index 7 (-2) = 3 := by
  rw [C184_index (line 3) (by norm_num [line, Table.raw]) (by norm_num [line, Table.raw])]
  norm_num [line, Table.raw, Table.cell, show (-2 : ℤ).toNat = 0 from rfl]

/-- C184 (partial): without interpolation the value is that of the nearer of the two rows around the argument (of the second one in the middle) -/
theorem C184_nearest_partial (t : Table) (h : t.Increasing) (hu : t.stat.constantStep = false) (hl : t.linear = false) (j : Nat)
    (hj : j < t.columns) (X : ℝ) (h0 : t.cell 0 0 ≤ X) (hX : X < t.cell (t.rows - 2) 0) :
    ∃ k, k + 1 < t.rows ∧ t.cell k 0 ≤ X ∧ X < t.cell (k + 1) 0 ∧
      (X - t.cell k 0 < t.cell (k + 1) 0 - X → t.stat.value X j = some (t.cell k j)) ∧
      (t.cell (k + 1) 0 - X ≤ X - t.cell k 0 → t.stat.value X j = some (t.cell (k + 1) j)) := by
  obtain ⟨a, b, c, d⟩ := stat_same t
  have hi := increasing_stat t h
  have hmax : t.stat.maxX = t.cell (t.rows - 1) 0 := stat_max t h
  have hmin : t.stat.minX = t.cell 0 0 := stat_min t h
  have hcell := cell_stat t
  have hr3 : 3 ≤ t.rows := by
    by_contra hh
    have e : t.rows - 2 = 0 := by omega
    rw [e] at hX
    linarith
  have hgt : ¬ X > t.stat.maxX := by
    rw [hmax]
    have := mono_cell_le t h (t.rows - 2) (t.rows - 1) (by omega) (by omega)
    linarith
  have hlt : ¬ X < t.stat.minX := by rw [hmin]; linarith
  obtain ⟨k, hk, hk1, hk2, hs⟩ := search_eq t.stat hi X (t.rows - 2) 1 none (by rw [a]; omega) le_rfl (by rw [hcell]; simpa using h0)
    (by rw [hcell, show 1 + (t.rows - 2) - 1 = t.rows - 2 by omega]; exact hX)
  have ek : (((k + 1 : Nat) : ℤ) - 1) = (k : ℤ) := by push_cast; ring
  rw [hcell] at hk1 hk2
  rw [a] at hk
  have hv : t.stat.value X j = some (interpNearest X (t.cell k 0) (t.cell k j) (t.cell (k + 1) 0) (t.cell (k + 1) j)) := by
    unfold Table.value
    rw [if_neg hgt, if_neg hlt]
    rw [hcell] at hs
    simp only [hu, if_true, a, hs, d, hl, Option.map_some, Option.bind_eq_bind, Option.bind_some, ek]
    rw [index_cell t.stat k j hi.2.1 hi.1 (by rw [a]; omega) (by rw [b]; exact hj),
      index_cell t.stat (k + 1) j hi.2.1 hi.1 (by rw [a]; exact hk) (by rw [b]; exact hj), hcell]
    simp
  refine ⟨k, hk, hk1, hk2, fun hn => ?_, fun hn => ?_⟩
  · rw [hv]
    unfold interpNearest
    rw [abs_of_nonneg (by linarith), abs_of_neg (by linarith), if_pos (by linarith)]
  · rw [hv]
    unfold interpNearest
    rw [abs_of_nonneg (by linarith), abs_of_neg (by linarith), if_neg (by linarith)]

example : ({line 3 with linear := false}).Increasing ∧ ({line 3 with linear := false}).stat.constantStep = false ∧
    ({line 3 with linear := false}).cell 0 0 ≤ (1 / 2 : ℝ) ∧
    (1 / 2 : ℝ) < ({line 3 with linear := false}).cell (({line 3 with linear := false} : Table).rows - 2) 0 := by
  refine ⟨line_inc 3 (by norm_num) le_rfl, ?_, ?_, ?_⟩
  · have e : ({line 3 with linear := false}).stat.constantStep = (line 3).stat.constantStep := rfl
    rw [e, ← Bool.not_eq_true, line_even 3 (by norm_num) le_rfl]
    norm_num
  · norm_num [line, Table.raw, Table.cell]
  · norm_num [line, Table.raw, Table.cell]

/-- C184 is false for tables with equal steps: in the table (0, 0), (1, 10), (2, 20) the value at 1/2 is 0 and the value in the node 1 is 0 -/
theorem C184_step_false : ¬ ∀ (t : Table), t.Increasing → t.stat.constantStep = true → t.linear = true → ∀ (j : Nat), j < t.columns →
    ∀ X : ℝ, (∃ i, i < t.rows ∧ X = t.cell i 0) → ∃ v, t.stat.value X j = some v ∧ t.Linear j X v := by
  intro hh
  have hi := line_inc 2 (by norm_num) (by norm_num)
  have hc := (line_even 2 le_rfl (by norm_num)).2 (by norm_num)
  obtain ⟨v, hv, hL⟩ := hh (line 2) hi hc rfl 1 (by norm_num [line, Table.raw]) 1 ⟨1, by norm_num [line, Table.raw],
    by norm_num [line, Table.raw, Table.cell]⟩
  have h1 : v = 10 := by
    have := hL.2.2 0 (by norm_num [line, Table.raw]) (by norm_num [line, Table.raw, Table.cell]) (by norm_num [line, Table.raw, Table.cell])
    norm_num [line, Table.raw, Table.cell] at this
    exact this
  have hm : (line 2).stat.minX = 0 := by rw [stat_min _ hi]; norm_num [line, Table.raw, Table.cell]
  have hM : (line 2).stat.maxX = 2 := by rw [stat_max _ hi]; norm_num [line, Table.raw, Table.cell]
  obtain ⟨a, b, c, d⟩ := stat_same (line 2)
  unfold Table.value at hv
  rw [hm, hM, if_neg (by norm_num), if_neg (by norm_num), hc, d] at hv
  rw [show divD ((1 : ℝ) - 0) (2 - 0) = some ((1 - 0) / (2 - 0)) by norm_num [divD], a] at hv
  have e : (⌊((1 : ℝ) - 0) / (2 - 0) * ((line 2).rows : ℝ)⌋ : ℤ) = 1 := by
    rw [Int.floor_eq_iff]
    norm_num [line, Table.raw]
  simp only [Bool.true_eq_false, if_false, Option.map_some, Option.bind_eq_bind, Option.bind_some, e] at hv
  obtain ⟨i00, i01, i10, i11, i20, i21⟩ := line_index 2
  norm_num [index_stat, i00, i01, i10, i11, i20, i21, interp] at hv
  rw [show (line 2).linear = true from rfl, if_pos rfl] at hv
  rw [h1] at hv
  norm_num at hv

/-- C184 is false between the last two rows: in the table (0, 0), (1, 10), (3, 30) the value at 2 is 50 -/
theorem C184_last_false : ¬ ∀ (t : Table), t.Increasing → t.stat.constantStep = false → t.linear = true → ∀ (j : Nat), j < t.columns →
    ∀ X : ℝ, ∃ v, t.stat.value X j = some v ∧ t.Linear j X v := by
  intro hh
  have hi := line_inc 3 (by norm_num) (by norm_num)
  have hc : (line 3).stat.constantStep = false := by
    rw [← Bool.not_eq_true, line_even 3 (by norm_num) le_rfl]
    norm_num
  obtain ⟨v, hv, hL⟩ := hh (line 3) hi hc rfl 1 (by norm_num [line, Table.raw]) 2
  have h1 : v = 20 := by
    have := hL.2.2 1 (by norm_num [line, Table.raw]) (by norm_num [line, Table.raw, Table.cell]) (by norm_num [line, Table.raw, Table.cell])
    norm_num [line, Table.raw, Table.cell] at this
    exact this
  have hm : (line 3).stat.minX = 0 := by rw [stat_min _ hi]; norm_num [line, Table.raw, Table.cell]
  have hM : (line 3).stat.maxX = 3 := by rw [stat_max _ hi]; norm_num [line, Table.raw, Table.cell]
  obtain ⟨a, b, c, d⟩ := stat_same (line 3)
  unfold Table.value at hv
  rw [hm, hM, if_neg (by norm_num), if_neg (by norm_num), hc, d, a] at hv
  obtain ⟨i00, i01, i10, i11, i20, i21⟩ := line_index 3
  have e : (line 3).stat.search 2 ((line 3).rows - 2) 1 none = (2, some (0, 1)) := by
    have : (line 3).rows - 2 = 1 := by norm_num [line, Table.raw]
    rw [this]
    unfold Table.search Table.search
    norm_num [index_stat, i00, i01, i10, i11, i20, i21]
  rw [e] at hv
  norm_num [index_stat, i00, i01, i10, i11, i20, i21, interp] at hv
  rw [show (line 3).linear = true from rfl, if_pos rfl] at hv
  rw [h1] at hv
  norm_num at hv

/-- C185 (partial): `Table_Rebin` of a table (as it was read, with an increasing first column) whose steps differ by more than the tolerance returns rows
at the places `first + i * step`, from the first row up to and without the last, where `step` is positive and not larger than the steps of
the table; the values before the last but one row of the table are interpolated linearly.  A table with equal steps is not changed.  Missing:
the values after this row, a last row (`C185_last_false`), tables in decreasing order (`C185_decreasing_false`). -/
theorem C185_partial (t : Table) (h : t.Increasing) (h0 : t.minX = 0 ∧ t.maxX = 0) (hl : t.linear = true) :
    ∃ t', t.stat.rebin = some t' ∧ t'.columns = t.columns ∧ 0 < t'.stepX ∧
      (∀ i, i + 1 < t.rows → t'.stepX ≤ t.cell (i + 1) 0 - t.cell i 0) ∧
      ((∀ i, i + 1 < t.rows → t.cell (i + 1) 0 - t.cell i 0 < t'.stepX * (1 + stepTol)) → t'.rows = t.rows ∧ t'.data = t.data) ∧
      ((∃ i, i + 1 < t.rows ∧ t'.stepX * (1 + stepTol) ≤ t.cell (i + 1) 0 - t.cell i 0) →
        (∀ i < t'.rows, t'.cell i 0 = t.cell 0 0 + i * t'.stepX ∧ t'.cell i 0 < t.cell (t.rows - 1) 0) ∧
        t.cell (t.rows - 1) 0 ≤ t.cell 0 0 + t'.rows * t'.stepX ∧
        ∀ i < t'.rows, ∀ j, 1 ≤ j → j < t.columns → t'.cell i 0 < t.cell (t.rows - 2) 0 → t.Linear j (t'.cell i 0) (t'.cell i j)) := by
  obtain ⟨a, b, c, d⟩ := stat_same t
  have hinc := increasing_stat t h
  obtain ⟨s1, -⟩ := stat_step t h (by rw [h0.1, h0.2])
  have hmm : t.stat.minX ≤ t.stat.maxX := by
    rw [stat_min t h, stat_max t h]
    exact mono_cell_le t h 0 _ (by omega) (by have := h.1; omega)
  obtain ⟨u1, u2, -, u4⟩ := stat_step t.stat hinc hmm
  rw [cell_stat, a] at u2 u4
  have hm := stat_min t.stat hinc
  have hM := stat_max t.stat hinc
  rw [cell_stat] at hm hM
  rw [a] at hM
  obtain ⟨a2, b2, c2, d2⟩ := stat_same t.stat
  rw [a] at a2; rw [b] at b2; rw [c] at c2; rw [d] at d2
  have hev : ∀ i, i + 1 < t.rows → (even t.stat.stat.stepX (t.cell (i + 1) 0 - t.cell i 0) ↔
      t.cell (i + 1) 0 - t.cell i 0 < t.stat.stat.stepX * (1 + stepTol)) := by
    intro i hi
    have := u2 i hi
    unfold even
    rw [abs_of_pos u1, abs_of_pos (by linarith)]
    constructor
    · exact fun hh => hh.2
    · refine fun hh => ⟨?_, hh⟩
      unfold stepTol
      nlinarith
  have hne : ¬ (t.stat.rows * t.stat.columns = 0 ∨ t.stat.stepX = 0) := by
    rintro (hh | hh)
    · have h1 := h.1; have h2 := h.2.1
      rw [a, b] at hh
      rcases Nat.mul_eq_zero.1 hh with hh | hh <;> omega
    · exact s1.ne' hh
  unfold Table.rebin
  rw [if_neg hne]
  by_cases hc : t.stat.stat.constantStep = true
  · dsimp only
    rw [if_pos hc]
    refine ⟨_, rfl, b2, u1, u2, fun _ => ⟨a2, c2⟩, ?_⟩
    rintro ⟨i, hi, hh⟩
    have := (hev i hi).1 (u4.1 hc i hi)
    linarith
  dsimp only
  rw [if_neg hc]
  rw [Bool.not_eq_true] at hc
  have h3 : 3 ≤ t.rows := by
    have := even_two t.stat hinc hmm hc
    rwa [a] at this
  have hval := fun X (j : ℤ) => value_some t.stat.stat hc (by rw [a2]; exact h3) X j
  rw [if_neg (by
    rintro ⟨i, j, -, -, -, hh⟩
    obtain ⟨v, hv⟩ := hval (t.stat.stat.minX + i * t.stat.stat.stepX) j
    rw [hv] at hh
    exact absurd hh (by simp))]
  refine ⟨_, rfl, b2, u1, u2, fun hh => ?_, fun _ => ?_⟩
  · rw [u4.2 fun i hi => (hev i hi).2 (hh i hi)] at hc
    exact absurd hc (by decide)
  have hcol : 0 < t.columns := by have := h.2.1; omega
  set n := ⌈|t.stat.stat.maxX - t.stat.stat.minX| / t.stat.stat.stepX⌉.toNat with hn
  have hlt := mono_cell t h 0 (t.rows - 1) (by omega) (by omega)
  have habs : |t.stat.stat.maxX - t.stat.stat.minX| = t.cell (t.rows - 1) 0 - t.cell 0 0 := by
    rw [hm, hM, abs_of_pos (by linarith)]
  have hnn : 0 ≤ ⌈(t.cell (t.rows - 1) 0 - t.cell 0 0) / t.stat.stat.stepX⌉ := Int.ceil_nonneg (div_nonneg (by linarith) u1.le)
  have hnc : (n : ℝ) = (⌈(t.cell (t.rows - 1) 0 - t.cell 0 0) / t.stat.stat.stepX⌉ : ℤ) := by
    rw [hn, habs]
    have := Int.toNat_of_nonneg hnn
    exact_mod_cast this
  have hfirst : ∀ i : Nat, (i * t.stat.stat.columns + 0) % t.stat.stat.columns = 0 ∧ (i * t.stat.stat.columns + 0) / t.stat.stat.columns = i := by
    intro i
    rw [b2, Nat.add_zero]
    exact ⟨Nat.mul_mod_left _ _, Nat.mul_div_cancel _ hcol⟩
  have hplace : ∀ i < n, t.cell 0 0 + (i : ℝ) * t.stat.stat.stepX < t.cell (t.rows - 1) 0 := by
    intro i hi
    have h1 : ((i : ℤ) : ℝ) < (t.cell (t.rows - 1) 0 - t.cell 0 0) / t.stat.stat.stepX := by
      rw [← Int.lt_ceil]
      have : (i : ℤ) < n := by exact_mod_cast hi
      rw [hn, habs, Int.toNat_of_nonneg hnn] at this
      exact this
    rw [lt_div_iff₀ u1] at h1
    push_cast at h1
    linarith
  refine ⟨fun i hi => ?_, ?_, fun i hi j hj1 hj2 hx => ?_⟩
  · have e : Table.cell { t.stat.stat with rows := n, data := fun k => if k % t.stat.stat.columns = 0 then t.stat.stat.minX + (k / t.stat.stat.columns : Nat) * t.stat.stat.stepX else (t.stat.stat.value (t.stat.stat.minX + (k / t.stat.stat.columns : Nat) * t.stat.stat.stepX) ((k % t.stat.stat.columns : Nat) : ℤ)).getD 0 } i 0 = t.cell 0 0 + i * t.stat.stat.stepX := by
      unfold Table.cell
      dsimp only
      rw [if_pos (hfirst i).1, (hfirst i).2, hm]
      rfl
    rw [e]
    exact ⟨rfl, hplace i hi⟩
  · have := Int.le_ceil ((t.cell (t.rows - 1) 0 - t.cell 0 0) / t.stat.stat.stepX)
    rw [← hnc, div_le_iff₀ u1] at this
    dsimp only
    linarith
  · have e : Table.cell { t.stat.stat with rows := n, data := fun k => if k % t.stat.stat.columns = 0 then t.stat.stat.minX + (k / t.stat.stat.columns : Nat) * t.stat.stat.stepX else (t.stat.stat.value (t.stat.stat.minX + (k / t.stat.stat.columns : Nat) * t.stat.stat.stepX) ((k % t.stat.stat.columns : Nat) : ℤ)).getD 0 } i 0 = t.cell 0 0 + i * t.stat.stat.stepX := by
      unfold Table.cell
      dsimp only
      rw [if_pos (hfirst i).1, (hfirst i).2, hm]
      rfl
    have e2 : Table.cell { t.stat.stat with rows := n, data := fun k => if k % t.stat.stat.columns = 0 then t.stat.stat.minX + (k / t.stat.stat.columns : Nat) * t.stat.stat.stepX else (t.stat.stat.value (t.stat.stat.minX + (k / t.stat.stat.columns : Nat) * t.stat.stat.stepX) ((k % t.stat.stat.columns : Nat) : ℤ)).getD 0 } i j = (t.stat.stat.value (t.cell 0 0 + i * t.stat.stat.stepX) j).getD 0 := by
      unfold Table.cell
      dsimp only
      have m1 : (i * t.stat.stat.columns + j) % t.stat.stat.columns = j := by
        rw [b2, Nat.add_comm, Nat.add_mul_mod_self_right, Nat.mod_eq_of_lt hj2]
      have m2 : (i * t.stat.stat.columns + j) / t.stat.stat.columns = i := by
        rw [b2, Nat.add_comm, Nat.add_mul_div_right _ _ hcol, Nat.div_eq_of_lt hj2, Nat.zero_add]
      rw [m1, m2, if_neg (by omega), hm]
      rfl
    rw [e] at hx ⊢
    rw [e2]
    obtain ⟨v, hv, hL⟩ := value_linear t.stat.stat (increasing_stat _ hinc) (by rw [hm, cell_stat, cell_stat])
      (by rw [hM, cell_stat, cell_stat, a2]) hc (by rw [d2]; exact hl) j (by rw [b2]; exact hj2) (t.cell 0 0 + i * t.stat.stat.stepX)
      (Or.inl (by rw [cell_stat, cell_stat, a2]; exact hx))
    rw [hv]
    exact (linear_stat t j _ _).1 ((linear_stat t.stat j _ _).1 hL)

example : (line 3).Increasing ∧ ((line 3).minX = 0 ∧ (line 3).maxX = 0) ∧ (line 3).linear = true :=
  ⟨line_inc 3 (by norm_num) le_rfl, ⟨rfl, rfl⟩, rfl⟩

/-- C185 is false: the result does not reach the last row of the table; (0, 0), (1, 10), (3, 30) -/
theorem C185_last_false : ¬ ∀ (t t' : Table), t.Increasing → (t.minX = 0 ∧ t.maxX = 0) → t.linear = true → t.stat.rebin = some t' →
    ∃ i < t'.rows, t.cell (t.rows - 1) 0 ≤ t'.cell i 0 := by
  intro hh
  have hi := line_inc 3 (by norm_num) le_rfl
  obtain ⟨t', h1, -, h2, h3, -, h5⟩ := C185_partial (line 3) hi ⟨rfl, rfl⟩ rfl
  have e0 : (line 3).cell 0 0 = 0 := by norm_num [line, Table.raw, Table.cell]
  have e1 : (line 3).cell 1 0 = 1 := by norm_num [line, Table.raw, Table.cell]
  have e2 : (line 3).cell 2 0 = 3 := by norm_num [line, Table.raw, Table.cell]
  have hs := h3 0 (by norm_num [line, Table.raw])
  simp only [Nat.zero_add, e0, e1] at hs
  obtain ⟨h6, -⟩ := h5 ⟨1, by norm_num [line, Table.raw], by
    rw [show 1 + 1 = 2 from rfl, e1, e2]
    unfold stepTol
    linarith⟩
  obtain ⟨i, hi', h7⟩ := hh (line 3) t' hi ⟨rfl, rfl⟩ rfl h1
  exact absurd h7 (not_le.2 (h6 i hi').2)

/-- the table (3, 0), (1, 10), (0, 20) -/
def fall : Table := .raw 3 2 fun k => [3, 0, 1, 10, 0, 20].getD k 0

lemma fall_first : ∀ b : Bool, ∀ mn mx st : ℝ, ∀ m c : Bool, let t : Table := ⟨3, 2, fall.data, mn, mx, st, m, c, b⟩
    t.first 0 = 3 ∧ t.first 1 = 1 ∧ t.first 2 = 0 ∧ t.diff 0 = -2 ∧ t.diff 1 = -1 := by
  intro b mn mx st m c t
  have hc : 2 ≤ t.columns := le_rfl
  have hr : 2 ≤ t.rows := by simp [t]
  have h := fun (i : Nat) (hi : i < 3) => index_cell t i 0 hc hr hi (by simp [t])
  have h0 := h 0 (by norm_num)
  have h1 := h 1 (by norm_num)
  have h2 := h 2 (by norm_num)
  push_cast at h0 h1 h2
  have hr1 : t.rows ≠ 1 := by simp [t]
  simp only [Table.diff, Table.first, if_pos hr1]
  push_cast
  rw [h0, h1, h2]
  norm_num [Table.cell, t, fall, Table.raw]

/-- C185 is false for tables in decreasing order: their statistics are computed a second time, then they count as not monotonic, and the steps
are not compared; the table is returned in decreasing order, with unequal steps, and marked as a table with constant steps -/
theorem C185_decreasing_false : ∃ (t t' : Table), (t.minX = 0 ∧ t.maxX = 0) ∧ (∀ i, i + 1 < t.rows → t.cell (i + 1) 0 < t.cell i 0) ∧
    t.stat.rebin = some t' ∧ t'.constantStep = true ∧ t'.rows = 3 ∧ t'.cell 0 0 = 3 ∧ t'.cell 1 0 = 1 ∧ t'.cell 2 0 = 0 := by
  have hf := fall_first
  have e1 : fall.stat = ⟨3, 2, fall.data, 0, 3, -1, true, false, true⟩ := by
    obtain ⟨a, b, c, d, e⟩ := hf true 0 0 0 false false
    unfold Table.stat
    rw [if_neg (by norm_num [fall, Table.raw]), if_pos (by norm_num [fall, Table.raw])]
    change fall.first 0 = 3 at a
    change fall.first 1 = 1 at b
    change fall.first 2 = 0 at c
    change fall.diff 0 = -2 at d
    change fall.diff 1 = -1 at e
    have hrow : fall.rows = 3 := rfl
    have hx : fall.maxX - fall.minX = 0 := by norm_num [fall, Table.raw]
    simp only [hrow]
    norm_num [List.range_succ, a, b, c, fltMax, Table.stepTurn, d, e, hx, abs_of_pos, even, stepTol]
    exact ⟨rfl, rfl⟩
  have e2 : fall.stat.stat = ⟨3, 2, fall.data, 0, 3, -1, false, true, true⟩ := by
    rw [e1]
    obtain ⟨a, b, c, d, e⟩ := hf true 0 3 (-1) true false
    unfold Table.stat
    rw [if_neg (by norm_num), if_pos (by norm_num)]
    norm_num [List.range_succ, a, b, c, fltMax, Table.stepTurn, d, e, abs_of_pos]
  refine ⟨fall, fall.stat.stat, ⟨rfl, rfl⟩, fun i hi => ?_, ?_, ?_, ?_, ?_, ?_, ?_⟩
  · have : i = 0 ∨ i = 1 := by simp [fall, Table.raw] at hi; omega
    rcases this with rfl | rfl <;> norm_num [fall, Table.raw, Table.cell]
  · unfold Table.rebin
    rw [if_neg (by rw [e1]; norm_num)]
    dsimp only
    rw [if_pos (by rw [e2])]
  · rw [e2]
  · rw [e2]
  all_goals rw [e2]; norm_num [Table.cell, fall, Table.raw]

end
end Verif.McTable
