import Verif.Spec.McTable
import Mathlib.Tactic.Linarith
import Mathlib.Tactic.FieldSimp
import Mathlib.Tactic.Ring
import Mathlib.Tactic.NormNum
/-! Lemmas for the tables of the McStas components. -/

namespace Verif.McTable
open Kinem
noncomputable section
open Classical

lemma stat_same (t : Table) : t.stat.rows = t.rows ∧ t.stat.columns = t.columns ∧ t.stat.data = t.data ∧ t.stat.linear = t.linear := by
  unfold Table.stat
  split_ifs <;> simp

lemma index_cell (t : Table) (i j : Nat) (hc : 2 ≤ t.columns) (hr : 2 ≤ t.rows) (hi : i < t.rows) (hj : j < t.columns) :
    t.index i j = t.cell i j := by
  unfold Table.index Table.cell
  have h1 : ¬ ((i : ℤ) < 0) := by omega
  have h2 : ¬ ((j : ℤ) < 0) := by omega
  have h3 : ¬ (t.columns = 1 ∨ t.rows = 1) := by omega
  have h4 : ¬ ((i : ℤ) ≥ t.rows) := by omega
  have h5 : ¬ ((j : ℤ) ≥ t.columns) := by omega
  have hlt : i * t.columns + j < t.rows * t.columns := by
    calc i * t.columns + j < i * t.columns + t.columns := by omega
      _ = (i + 1) * t.columns := by ring
      _ ≤ t.rows * t.columns := Nat.mul_le_mul_right _ (by omega)
  have h6 : ¬ ((i : ℤ) * t.columns + j ≥ t.rows * t.columns) := by exact_mod_cast not_le.2 hlt
  have h7 : ¬ ((i : ℤ) * t.columns + j < 0) := not_lt.2 (by positivity)
  have h8 : ¬ (t.rows * t.columns = 0) := by omega
  simp only [h1, h2, h3, h4, h5, h6, h7, h8, if_false]
  congr 1

lemma index_stat (t : Table) (i j : ℤ) : t.stat.index i j = t.index i j := by
  obtain ⟨a, b, c, _⟩ := stat_same t
  unfold Table.index
  rw [a, b, c]

lemma first_cell (t : Table) (i : Nat) (h : t.Increasing) (hi : i < t.rows) : t.first i = t.cell i 0 := by
  obtain ⟨h1, h2, -⟩ := h
  unfold Table.first
  rw [if_pos (by omega)]
  exact_mod_cast index_cell t i 0 h2 h1 hi (by omega)

lemma mono_cell (t : Table) (h : t.Increasing) (i k : Nat) (hik : i < k) (hk : k < t.rows) : t.cell i 0 < t.cell k 0 := by
  induction k with
  | zero => omega
  | succ k ih =>
    have hs := h.2.2.1 k hk
    rcases Nat.lt_succ_iff_lt_or_eq.1 hik with h' | rfl
    · exact (ih h' (by omega)).trans hs
    · exact hs

lemma mono_cell_le (t : Table) (h : t.Increasing) (i k : Nat) (hik : i ≤ k) (hk : k < t.rows) : t.cell i 0 ≤ t.cell k 0 := by
  rcases hik.lt_or_eq with h' | rfl
  · exact (mono_cell t h i k h' hk).le
  · exact le_rfl

lemma diff_cell (t : Table) (h : t.Increasing) (i : Nat) (hi : i + 1 < t.rows) : t.diff i = t.cell (i + 1) 0 - t.cell i 0 := by
  unfold Table.diff
  rw [first_cell t i h (by omega)]
  have := index_cell t (i + 1) 0 h.2.1 h.1 hi (by have := h.2.1; omega)
  push_cast at this
  rw [this]

lemma fold_min (f : Nat → ℝ) (M : ℝ) (n : Nat) :
    (List.range n).foldl (fun m i => if f i < m then f i else m) M ≤ M ∧
      (∀ i < n, (List.range n).foldl (fun m i => if f i < m then f i else m) M ≤ f i) ∧
      ((List.range n).foldl (fun m i => if f i < m then f i else m) M = M ∨
        ∃ i < n, (List.range n).foldl (fun m i => if f i < m then f i else m) M = f i) := by
  induction n with
  | zero => simp
  | succ n ih =>
    rw [List.range_succ, List.foldl_append]
    simp only [List.foldl_cons, List.foldl_nil]
    generalize (List.range n).foldl (fun m i => if f i < m then f i else m) M = a at ih ⊢
    obtain ⟨h1, h2, h3⟩ := ih
    split_ifs with hc
    · refine ⟨by linarith, fun i hi => ?_, Or.inr ⟨n, by omega, rfl⟩⟩
      rcases Nat.lt_succ_iff_lt_or_eq.1 hi with h | rfl
      · exact hc.le.trans (h2 i h)
      · exact le_rfl
    · refine ⟨h1, fun i hi => ?_, ?_⟩
      · rcases Nat.lt_succ_iff_lt_or_eq.1 hi with h | rfl
        · exact h2 i h
        · linarith
      · rcases h3 with h | ⟨i, hi, h⟩
        · exact Or.inl h
        · exact Or.inr ⟨i, by omega, h⟩

lemma fold_max (f : Nat → ℝ) (M : ℝ) (n : Nat) :
    M ≤ (List.range n).foldl (fun m i => if f i > m then f i else m) M ∧
      (∀ i < n, f i ≤ (List.range n).foldl (fun m i => if f i > m then f i else m) M) ∧
      ((List.range n).foldl (fun m i => if f i > m then f i else m) M = M ∨
        ∃ i < n, (List.range n).foldl (fun m i => if f i > m then f i else m) M = f i) := by
  induction n with
  | zero => simp
  | succ n ih =>
    rw [List.range_succ, List.foldl_append]
    simp only [List.foldl_cons, List.foldl_nil]
    generalize (List.range n).foldl (fun m i => if f i > m then f i else m) M = a at ih ⊢
    obtain ⟨h1, h2, h3⟩ := ih
    split_ifs with hc
    · refine ⟨by linarith, fun i hi => ?_, Or.inr ⟨n, by omega, rfl⟩⟩
      rcases Nat.lt_succ_iff_lt_or_eq.1 hi with h | rfl
      · exact (h2 i h).trans hc.le
      · exact le_rfl
    · refine ⟨h1, fun i hi => ?_, ?_⟩
      · rcases Nat.lt_succ_iff_lt_or_eq.1 hi with h | rfl
        · exact h2 i h
        · linarith
      · rcases h3 with h | ⟨i, hi, h⟩
        · exact Or.inl h
        · exact Or.inr ⟨i, by omega, h⟩

lemma stat_min (t : Table) (h : t.Increasing) : t.stat.minX = t.cell 0 0 := by
  obtain ⟨h1, h2, -⟩ := id h
  unfold Table.stat
  rw [if_neg (by omega), if_pos (by omega)]
  dsimp only
  obtain ⟨a, b, c⟩ := fold_min t.first fltMax t.rows
  apply le_antisymm
  · rw [← first_cell t 0 h (by omega)]
    exact b 0 (by omega)
  · rcases c with c | ⟨i, hi, c⟩
    · rw [c]
      exact (mono_cell_le t h 0 (t.rows - 1) (by omega) (by omega)).trans h.2.2.2.2
    · rw [c, first_cell t i h hi]
      exact mono_cell_le t h 0 i (by omega) hi

lemma stat_max (t : Table) (h : t.Increasing) : t.stat.maxX = t.cell (t.rows - 1) 0 := by
  obtain ⟨h1, h2, -⟩ := id h
  unfold Table.stat
  rw [if_neg (by omega), if_pos (by omega)]
  dsimp only
  obtain ⟨a, b, c⟩ := fold_max t.first (-fltMax) t.rows
  apply le_antisymm
  · rcases c with c | ⟨i, hi, c⟩
    · rw [c]
      exact h.2.2.2.1.trans (mono_cell_le t h 0 (t.rows - 1) (by omega) (by omega))
    · rw [c, first_cell t i h hi]
      exact mono_cell_le t h i _ (by omega) (by omega)
  · rw [← first_cell t (t.rows - 1) h (by omega)]
    exact b (t.rows - 1) (by omega)

lemma interp_eq (x x1 y1 x2 y2 : ℝ) (h : x1 < x2) : interp x x1 y1 x2 y2 = y1 + (y2 - y1) * ((x - x1) / (x2 - x1)) := by
  unfold interp
  rw [if_neg h.ne']
  split_ifs with hy
  · rw [hy]; ring
  · ring

lemma linear_of (t : Table) (h : t.Increasing) (j i : Nat) (hi : i + 1 < t.rows) (X : ℝ) (h1 : t.cell i 0 ≤ X)
    (h2 : X < t.cell (i + 1) 0) :
    t.Linear j X (t.cell i j + (t.cell (i + 1) j - t.cell i j) * ((X - t.cell i 0) / (t.cell (i + 1) 0 - t.cell i 0))) := by
  refine ⟨fun hx => ?_, fun hx => ?_, fun k hk hk1 hk2 => ?_⟩
  · have h0 : i = 0 := by
      by_contra hne
      have := mono_cell t h 0 i (by omega) (by omega)
      linarith
    subst h0
    have : X = t.cell 0 0 := le_antisymm hx h1
    rw [this]; simp
  · have := mono_cell_le t h (i + 1) (t.rows - 1) (by omega) (by omega)
    linarith
  · rcases lt_trichotomy k i with hki | rfl | hki
    · have h3 := mono_cell_le t h (k + 1) i (by omega) (by omega)
      have h4 : X = t.cell i 0 := by linarith
      have h5 : k + 1 = i := by
        by_contra hne
        have := mono_cell t h (k + 1) i (by omega) (by omega)
        linarith
      subst h5
      have h6 := mono_cell t h k (k + 1) (by omega) (by omega)
      rw [h4, sub_self, zero_div, mul_zero, div_self (by linarith)]
      ring
    · rfl
    · have h3 := mono_cell_le t h (i + 1) k (by omega) (by omega)
      linarith

lemma search_eq (t : Table) (h : t.Increasing) (X : ℝ) : ∀ (turns i : Nat) (o : Option (ℝ × ℝ)), i + turns < t.rows → 1 ≤ i →
    t.cell (i - 1) 0 ≤ X → X < t.cell (i + turns - 1) 0 →
    ∃ k, k + 1 < t.rows ∧ t.cell k 0 ≤ X ∧ X < t.cell (k + 1) 0 ∧ t.search X turns i o = (k + 1, some (t.cell k 0, t.cell (k + 1) 0)) := by
  intro turns
  induction turns with
  | zero =>
    intro i o hi h1 hx hx2
    simp only [Nat.add_zero] at hx2
    linarith
  | succ n ih =>
    intro i o hi h1 hx hx2
    obtain ⟨k, rfl⟩ : ∃ k, i = k + 1 := ⟨i - 1, by omega⟩
    simp only [Nat.add_sub_cancel] at hx
    have e1 : t.index ((k + 1 : Nat) : ℤ) 0 = t.cell (k + 1) 0 := by
      exact_mod_cast index_cell t (k + 1) 0 h.2.1 h.1 (by omega) (by have := h.2.1; omega)
    have e2 : t.index (((k + 1 : Nat) : ℤ) - 1) 0 = t.cell k 0 := by
      have e : ((k + 1 : Nat) : ℤ) - 1 = (k : ℤ) := by push_cast; ring
      rw [e]
      exact_mod_cast index_cell t k 0 h.2.1 h.1 (by omega) (by have := h.2.1; omega)
    unfold Table.search
    rw [e1, e2]
    by_cases hc : X < t.cell (k + 1) 0
    · rw [if_pos ⟨hx, hc⟩]
      exact ⟨k, by omega, hx, hc, rfl⟩
    · rw [if_neg (fun hh => hc hh.2)]
      refine ih (k + 1 + 1) _ (by omega) (by omega) (by simpa using not_lt.1 hc) ?_
      have : k + 1 + 1 + n - 1 = k + 1 + (n + 1) - 1 := by omega
      rw [this]; exact hx2

lemma value_linear (t : Table) (h : t.Increasing) (hmin : t.minX = t.cell 0 0) (hmax : t.maxX = t.cell (t.rows - 1) 0)
    (hc : t.constantStep = false) (hl : t.linear = true) (j : Nat) (hj : j < t.columns) (X : ℝ)
    (hX : X < t.cell (t.rows - 2) 0 ∨ t.cell (t.rows - 1) 0 < X) : ∃ v, t.value X j = some v ∧ t.Linear j X v := by
  have hr := h.1
  unfold Table.value
  by_cases hgt : X > t.maxX
  · rw [if_pos hgt]
    have e : ((t.rows : ℤ) - 1) = ((t.rows - 1 : Nat) : ℤ) := by omega
    rw [e, index_cell t (t.rows - 1) j h.2.1 hr (by omega) hj]
    rw [hmax] at hgt
    refine ⟨_, rfl, fun hx => ?_, fun _ => rfl, fun k hk _ hk2 => ?_⟩
    · have := mono_cell_le t h 0 (t.rows - 1) (by omega) (by omega)
      linarith
    · have := mono_cell_le t h (k + 1) (t.rows - 1) (by omega) (by omega)
      linarith
  rw [if_neg hgt]
  rw [hmax] at hgt
  have hX' : X < t.cell (t.rows - 2) 0 := hX.resolve_right hgt
  by_cases hlt : X < t.minX
  · rw [if_pos hlt]
    have := index_cell t 0 j h.2.1 hr (by omega) hj
    rw [show ((0 : ℤ)) = ((0 : Nat) : ℤ) from rfl, this]
    rw [hmin] at hlt
    refine ⟨_, rfl, fun _ => rfl, fun hx => ?_, fun k hk hk1 _ => ?_⟩
    · have := mono_cell_le t h 0 (t.rows - 1) (by omega) (by omega)
      linarith
    · have := mono_cell_le t h 0 k (by omega) (by omega)
      linarith
  rw [if_neg hlt]
  rw [hmin, not_lt] at hlt
  have hr3 : 3 ≤ t.rows := by
    by_contra hh
    have e : t.rows - 2 = 0 := by omega
    rw [e] at hX'
    linarith
  obtain ⟨k, hk, hk1, hk2, hs⟩ := search_eq t h X (t.rows - 2) 1 none (by omega) le_rfl (by simpa using hlt)
    (by rw [show 1 + (t.rows - 2) - 1 = t.rows - 2 by omega]; exact hX')
  have ek : (((k + 1 : Nat) : ℤ) - 1) = (k : ℤ) := by push_cast; ring
  simp only [hc, if_true, hs, hl, Option.map_some, Option.bind_eq_bind, Option.bind_some, ek]
  rw [index_cell t k j h.2.1 hr (by omega) hj, index_cell t (k + 1) j h.2.1 hr hk hj, interp_eq _ _ _ _ _ (by linarith)]
  exact ⟨_, rfl, linear_of t h j k hk X hk1 hk2⟩

lemma cell_stat (t : Table) : t.stat.cell = t.cell := by
  obtain ⟨a, b, c, _⟩ := stat_same t
  funext i j
  unfold Table.cell
  rw [b, c]

lemma increasing_stat (t : Table) (h : t.Increasing) : t.stat.Increasing := by
  obtain ⟨a, b, c, _⟩ := stat_same t
  unfold Table.Increasing
  rw [a, b, cell_stat]
  exact h

lemma linear_stat (t : Table) (j : Nat) (X v : ℝ) : t.stat.Linear j X v ↔ t.Linear j X v := by
  unfold Table.Linear
  rw [cell_stat, (stat_same t).1]

lemma fold_step (t : Table) (h : t.Increasing) (M : ℝ) (hM : 0 < M) (hmono : t.minX ≤ t.maxX) (n : Nat) (hn : n < t.rows) :
    let s := (List.range n).foldl t.stepTurn (M, true)
    0 < s.1 ∧ s.1 ≤ M ∧ (∀ i < n, s.1 ≤ t.cell (i + 1) 0 - t.cell i 0) ∧ s.2 = true := by
  induction n with
  | zero => simpa using hM
  | succ n ih =>
    rw [List.range_succ, List.foldl_append]
    simp only [List.foldl_cons, List.foldl_nil]
    obtain ⟨h1, h2, h3, h4⟩ := ih (by omega)
    generalize (List.range n).foldl t.stepTurn (M, true) = a at h1 h2 h3 h4 ⊢
    have hd := diff_cell t h n (by omega)
    have hs := mono_cell t h n (n + 1) (by omega) (by omega)
    have hp : 0 < t.diff n := by rw [hd]; linarith
    unfold Table.stepTurn
    rw [abs_of_pos hp, abs_of_pos h1]
    have hno : ¬ ((t.maxX - t.minX) * t.diff n < 0 ∧ a.2 = true) := fun hh =>
      absurd hh.1 (not_lt.2 (mul_nonneg (by linarith) hp.le))
    dsimp only
    rw [if_neg hno]
    split_ifs with hc
    · refine ⟨hp, by linarith, fun i hi => ?_, h4⟩
      rcases Nat.lt_succ_iff_lt_or_eq.1 hi with h' | rfl
      · exact hc.le.trans (h3 i h')
      · exact hd.le
    · refine ⟨h1, h2, fun i hi => ?_, h4⟩
      rcases Nat.lt_succ_iff_lt_or_eq.1 hi with h' | rfl
      · exact h3 i h'
      · linarith

/-- the smallest step, and whether the steps are equal -/
lemma stat_step (t : Table) (h : t.Increasing) (hmono : t.minX ≤ t.maxX) :
    0 < t.stat.stepX ∧ (∀ i, i + 1 < t.rows → t.stat.stepX ≤ t.cell (i + 1) 0 - t.cell i 0) ∧ t.stat.monotonic = true ∧
    (t.stat.constantStep = true ↔ ∀ i, i + 1 < t.rows → even t.stat.stepX (t.cell (i + 1) 0 - t.cell i 0)) := by
  have hm := stat_min t h
  have hM := stat_max t h
  obtain ⟨h1, h2, -⟩ := id h
  unfold Table.stat at hm hM ⊢
  rw [if_neg (by omega), if_pos (by omega)] at hm hM ⊢
  dsimp only at hm hM ⊢
  rw [hm, hM, if_pos (by omega)]
  have hr := mono_cell t h 0 (t.rows - 1) (by omega) (by omega)
  have hpos : 0 < (t.cell (t.rows - 1) 0 - t.cell 0 0) / ((t.rows : ℝ) - 1) := by
    apply div_pos (by linarith)
    have : (2 : ℝ) ≤ t.rows := by exact_mod_cast h1
    linarith
  obtain ⟨a, b, c, d⟩ := fold_step t h _ hpos hmono (t.rows - 1) (by omega)
  generalize (List.range (t.rows - 1)).foldl t.stepTurn ((t.cell (t.rows - 1) 0 - t.cell 0 0) / ((t.rows : ℝ) - 1), true) = s
    at a b c d ⊢
  refine ⟨a, fun i hi => c i (by omega), d, ?_⟩
  rw [if_pos ⟨by omega, d⟩, List.all_eq_true]
  constructor
  · intro hh i hi
    have := hh i (List.mem_range.2 (by omega))
    rw [diff_cell t h i hi] at this
    exact of_decide_eq_true this
  · intro hh i hi
    have hi' : i + 1 < t.rows := by have := List.mem_range.1 hi; omega
    rw [diff_cell t h i hi']
    exact decide_eq_true (hh i hi')

lemma search_some (t : Table) (X : ℝ) : ∀ (turns i : Nat) (o : Option (ℝ × ℝ)), o.isSome ∨ 1 ≤ turns → (t.search X turns i o).2.isSome := by
  intro turns
  induction turns with
  | zero => intro i o h; simpa [Table.search] using h
  | succ n ih =>
    intro i o _
    unfold Table.search
    dsimp only
    split_ifs
    · rfl
    · exact ih _ _ (Or.inl rfl)

lemma value_some (t : Table) (hc : t.constantStep = false) (hr : 3 ≤ t.rows) (X : ℝ) (j : ℤ) : ∃ v, t.value X j = some v := by
  unfold Table.value
  have hs := search_some t X (t.rows - 2) 1 none (Or.inr (by omega))
  obtain ⟨x, hx⟩ := Option.isSome_iff_exists.1 hs
  by_cases h1 : X > t.maxX
  · exact ⟨_, if_pos h1⟩
  by_cases h2 : X < t.minX
  · rw [if_neg h1]
    exact ⟨_, if_pos h2⟩
  rw [if_neg h1, if_neg h2]
  simp only [hc, if_true, hx, Option.map_some, Option.bind_eq_bind, Option.bind_some]
  cases t.linear <;> exact ⟨_, rfl⟩

lemma even_two (t : Table) (h : t.Increasing) (hmono : t.minX ≤ t.maxX) (hc : t.stat.constantStep = false) : 3 ≤ t.rows := by
  by_contra hh
  have h2 : t.rows = 2 := by have := h.1; omega
  obtain ⟨h1, h3, -, h5⟩ := stat_step t h hmono
  have : t.stat.constantStep = true := by
    have hm := stat_min t h
    have hM := stat_max t h
    have hs : t.stat.stepX = t.cell 1 0 - t.cell 0 0 := by
      unfold Table.stat at hm hM ⊢
      rw [if_neg (by have := h.2.1; omega), if_pos (by omega)] at hm hM ⊢
      dsimp only at hm hM ⊢
      rw [hm, hM, if_pos (by omega), h2]
      norm_num [Table.stepTurn]
      rw [diff_cell t h 0 (by omega)]
      simp
    rw [h5]
    intro i hi
    obtain rfl : i = 0 := by omega
    rw [hs]
    have hp : 0 < t.cell 1 0 - t.cell 0 0 := by rw [← hs]; exact h1
    unfold even stepTol
    norm_num
    rw [abs_of_pos hp]
    constructor <;> nlinarith
  rw [hc] at this
  exact absurd this (by decide)

end
end Verif.McTable
