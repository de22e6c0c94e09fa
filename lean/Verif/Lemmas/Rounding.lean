import Verif.Spec.Rounding
import Verif.Lemmas.Proxy
/-!
Lemmas for axes computed with rounded numbers.
-/

namespace Verif.Rounding
open Proxy

noncomputable section
open Classical

variable {fl : ℝ → ℝ} {u lo hi : ℝ} {n : Nat}

theorem rounds_mul (hr : Rounds fl u) (hu : 0 ≤ u) {y M : ℝ} (h : |y| ≤ M) : |fl y - y| ≤ u * M :=
  (hr y).trans (mul_le_mul_of_nonneg_left h hu)

theorem arange_get {s t d : ℝ} {xs : List ℝ} (h : arange fl s t d = .ok xs) {k : Nat} (hk : k < xs.length) :
    xs[k]? = some (arangeAt fl s d k) := by
  unfold arange at h
  split_ifs at h with h0
  simp only [Except.ok.injEq] at h
  subst h
  simp only [List.length_map, List.length_range] at hk
  simp [hk]

/-- the numbers of an axis are near the exact ones -/
theorem at_near (hr : Rounds fl u) (hu : 0 ≤ u) (hl : lo < hi) (hn : 0 < n)
    (hc : n * (|lo| + |hi|) * u ≤ (hi - lo) / 1000) {d : ℝ} (hd : |d - (hi - lo) / n| ≤ 3 * (u * ((hi - lo) / n))) {k : Nat}
    (hk : k ≤ n) : |arangeAt fl lo d k - (lo + k * ((hi - lo) / n))| ≤ 20 * (n * (|lo| + |hi|) * u) := by
  have E := errs hr hu hl hn hc
  have hm := step_mul (lo := lo) (hi := hi) hn
  have hn' : (1 : ℝ) ≤ n := by exact_mod_cast hn
  have hk' : (k : ℝ) ≤ n := by exact_mod_cast hk
  have hk0 : (0 : ℝ) ≤ k := k.cast_nonneg
  have hD := E.D0
  have hDA := E.DA
  have hnv := E.nv
  have hv := E.v0
  have hWA : hi - lo ≤ |lo| + |hi| := by linarith [le_abs_self hi, neg_le_abs lo]
  have hlo : |lo| ≤ |lo| + |hi| := by linarith [abs_nonneg hi]
  set A := |lo| + |hi| with hA
  set D := (hi - lo) / n with hDd
  have hA0 : 0 < A := by linarith
  have hw : 0 ≤ A * u := by positivity
  have huD : u * D ≤ A * u := by nlinarith
  have hnA : A * u ≤ n * A * u := by nlinarith
  have hkD : k * D ≤ A := by nlinarith
  have hkD0 : 0 ≤ k * D := by positivity
  have hdD := abs_le.1 hd
  have hle : u * D ≤ D / 1000 := by nlinarith
  have hlo' := abs_le.1 hlo
  have hAu : A * u ≤ D / 1000 := by
    have : n * (A * u) ≤ n * (D / 1000) := by nlinarith
    exact le_of_mul_le_mul_left this (by linarith)
  -- the first step
  have s1 := rounds_mul hr hu (y := lo + d) (M := 3 * A) (by rw [abs_le]; constructor <;> linarith)
  rw [abs_le] at s1
  unfold arangeAt
  split_ifs with h0 h1
  · subst h0; simp; positivity
  · subst h1
    rw [Nat.cast_one, one_mul, abs_le]
    constructor <;> linarith
  · have s2 := rounds_mul hr hu (y := fl (lo + d) - lo) (M := 2 * D) (by rw [abs_le]; constructor <;> linarith)
    rw [abs_le] at s2
    set δ := fl (fl (lo + d) - lo) with hδ
    have b1 : |δ - D| ≤ 8 * (A * u) := by rw [abs_le]; constructor <;> linarith
    have b2 : |k * δ - k * D| ≤ 8 * (n * A * u) := by
      rw [← mul_sub, abs_mul, abs_of_nonneg hk0]
      calc (k : ℝ) * |δ - D| ≤ n * (8 * (A * u)) := mul_le_mul hk' b1 (abs_nonneg _) (by linarith)
        _ = _ := by ring
    have hs : n * A * u ≤ A / 1000 := by linarith
    rw [abs_le] at b2
    have s3 := rounds_mul hr hu (y := k * δ) (M := 2 * A) (by rw [abs_le]; constructor <;> linarith)
    have hu1 : u ≤ 1 / 1000 := by
      have : u * A ≤ 1 / 1000 * A := by nlinarith
      exact le_of_mul_le_mul_right this hA0
    rw [abs_le] at s3
    have s4 := rounds_mul hr hu (y := lo + fl (k * δ)) (M := 4 * A) (by
      have : u * (2 * A) ≤ A := by nlinarith
      rw [abs_le]; constructor <;> linarith)
    rw [abs_le] at s4 ⊢
    constructor <;> linarith

theorem nd_boundaries (hr : Rounds fl u) (hu : 0 ≤ u) (hl : lo < hi) (hn : 0 < n)
    (hc : n * (|lo| + |hi|) * u ≤ (hi - lo) / 1000) :
    ∃ xs, ndBoundaries fl lo hi n = .ok xs ∧ Near xs (n + 1) lo ((hi - lo) / n) (20 * (n * (|lo| + |hi|) * u)) := by
  have E := errs hr hu hl hn hc
  have hd := step_near E hn
  have hm := step_mul (lo := lo) (hi := hi) hn
  have hn' : (1 : ℝ) ≤ n := by exact_mod_cast hn
  have hv := E.v0
  have hnv := E.nv
  have hD := E.D0
  have hDA := E.DA
  rw [mul_comm (n : ℝ) ((hi - lo) / n), hm] at hd
  unfold ndBoundaries per
  rw [if_neg (not_le.2 hl), if_neg hn.ne']
  simp only [bind, Except.bind]
  have hat := fun k hk => at_near hr hu hl hn hc hd (k := k) hk
  set d := fl (fl (hi - lo) / n)
  set D := (hi - lo) / n with hDd
  have hle : u * D ≤ D / 1000 := by nlinarith
  have hd' := abs_le.1 hd
  have hd0 : 0 < d := by linarith
  have k1 := abs_nonneg lo
  have k2 := abs_nonneg hi
  have k3 := le_abs_self lo
  have k4 := le_abs_self hi
  have k5 := neg_abs_le lo
  have k6 := neg_abs_le hi
  have c0 := abs_le.1 (E.small (d / 10) 1 (by rw [abs_le]; constructor <;> linarith))
  have c1 := abs_le.1 (E.big (hi + fl (d / 10)) 2 (by rw [abs_le]; constructor <;> linarith))
  have c2 := abs_le.1 (E.big (fl (hi + fl (d / 10)) - lo) 3 (by rw [abs_le]; constructor <;> linarith))
  set x := fl (fl (hi + fl (d / 10)) - lo) with hx
  obtain ⟨xs, h1, h2⟩ := arange_length (fl := fl) (s := lo) (t := fl (hi + fl (d / 10))) (d := d) hd0.ne'
  have hcount : ⌈fl (x / d)⌉₊ = n + 1 := by
    have e1 : (n + 0.1) * (d - D) ≤ 6 * (D / 1000) := by nlinarith
    have e2 : -(6 * (D / 1000)) ≤ (n + 0.1) * (d - D) := by nlinarith
    have f1 : (n + 0.1) * D - 20 * (D / 1000) ≤ x := by linarith
    have f2 : x ≤ (n + 0.1) * D + 20 * (D / 1000) := by linarith
    have a1 : (n + 0.1 - 0.04) * d ≤ x := by nlinarith
    have a2 : x ≤ (n + 0.1 + 0.04) * d := by nlinarith
    have b1 : n + 0.1 - 0.04 ≤ x / d := (le_div_iff₀ hd0).2 a1
    have b2 : x / d ≤ n + 0.1 + 0.04 := (div_le_iff₀ hd0).2 a2
    have h3 := E.near (x / d) (by rw [abs_le]; constructor <;> linarith)
    rw [abs_le] at h3
    apply ceil_eq <;> push_cast <;> linarith
  rw [hcount] at h2
  refine ⟨xs, h1, h2, fun k hk => ⟨_, arange_get h1 (h2 ▸ hk), hat k (by omega)⟩⟩

theorem nd_shape (hr : Rounds fl u) (hu : 0 ≤ u) : ∀ axes : List (ℝ × ℝ × Nat), (∀ a ∈ axes, Fine u a) →
    ndShape fl axes = .ok (axes.map (·.2.2))
  | [], _ => rfl
  | (lo, hi, b) :: as, h => by
    obtain ⟨h1, h2, h3⟩ := h _ List.mem_cons_self
    obtain ⟨xs, h4, h5, -⟩ := nd_boundaries hr hu h1 h2 h3
    have ih := nd_shape hr hu as fun a ha => h a (List.mem_cons_of_mem _ ha)
    unfold ndShape
    simp only at h4
    rw [h4]
    simp only [bind, Except.bind, ih, h5, List.map_cons, Nat.add_sub_cancel]

theorem dos_count (hr : Rounds fl u) (hu : 0 ≤ u) {N : Nat} (h1 : u ≤ 1 / 1000) (hN : N * u ≤ 1 / 1000) {dE : ℝ} (hd : dE ≠ 0) :
    ∃ xs, dosEnergies fl N dE = .ok xs ∧ xs.length = N := by
  obtain ⟨xs, h2, h3⟩ := arange_length (fl := fl) (s := 0) (t := fl (fl (N - fl 0.1) * dE)) (d := dE) hd
  refine ⟨xs, h2, h3.trans ?_⟩
  have hN0 : (0 : ℝ) ≤ N := N.cast_nonneg
  -- a rounded multiple of the step is a multiple of the step
  have mul : ∀ a : ℝ, ∃ b, fl (a * dE) = b * dE ∧ |b - a| ≤ u * |a| := by
    intro a
    refine ⟨fl (a * dE) / dE, by field_simp, ?_⟩
    rw [show fl (a * dE) / dE - a = (fl (a * dE) - a * dE) / dE by field_simp, abs_div, div_le_iff₀ (abs_pos.2 hd)]
    have := hr (a * dE)
    rw [abs_mul] at this
    linarith
  have h01 := rounds_mul hr hu (y := 0.1) (M := 0.1) (by rw [abs_of_nonneg] <;> norm_num)
  rw [abs_le] at h01
  have hM : u * (N + 2) ≤ 3 / 1000 := by nlinarith
  have c1 := rounds_mul hr hu (y := N - fl 0.1) (M := N + 2) (by rw [abs_le]; constructor <;> linarith)
  rw [abs_le] at c1
  obtain ⟨b, hb, hb'⟩ := mul (fl (N - fl 0.1))
  obtain ⟨b2, hb2, hb2'⟩ := mul b
  have c2 : |b - fl (N - fl 0.1)| ≤ u * (N + 2) :=
    hb'.trans (mul_le_mul_of_nonneg_left (by rw [abs_le]; constructor <;> linarith) hu)
  rw [abs_le] at c2
  have c3 : |b2 - b| ≤ u * (N + 2) :=
    hb2'.trans (mul_le_mul_of_nonneg_left (by rw [abs_le]; constructor <;> linarith) hu)
  rw [abs_le] at c3
  rw [hb, sub_zero, hb2, mul_div_assoc, div_self hd, mul_one]
  have c4 := rounds_mul hr hu (y := b2) (M := N + 2) (by rw [abs_le]; constructor <;> linarith)
  rw [abs_le] at c4
  apply ceil_eq <;> linarith

/-- a rounded multiple of `d` is a multiple of `d` -/
theorem round_mul (hr : Rounds fl u) {d : ℝ} (hd : d ≠ 0) (a : ℝ) : ∃ b, fl (a * d) = b * d ∧ |b - a| ≤ u * |a| := by
  refine ⟨fl (a * d) / d, by field_simp, ?_⟩
  rw [show fl (a * d) / d - a = (fl (a * d) - a * d) / d by field_simp, abs_div, div_le_iff₀ (abs_pos.2 hd)]
  have := hr (a * d)
  rw [abs_mul] at this
  linarith

theorem more_count (hr : Rounds fl u) (hu : 0 ≤ u) {n : Nat} (h1 : u ≤ 1 / 1000) (hN : n * u ≤ 1 / 1000) {e1 : ℝ} (hd : fl e1 ≠ 0) :
    ∃ xs, moreEnergies fl 0 e1 n = .ok xs ∧ (xs.length = 3 * n ∨ xs.length = 3 * n + 1) := by
  have hN0 : (0 : ℝ) ≤ n := n.cast_nonneg
  unfold moreEnergies
  rw [sub_zero]
  set d := fl e1
  obtain ⟨xs, h2, h3⟩ := arange_length (fl := fl) (s := 0) (t := fl (0 + fl (fl (d * 3) * n))) (d := d) hd
  refine ⟨xs, h2, ?_⟩
  obtain ⟨b, hb, hb'⟩ := round_mul hr hd 3
  rw [abs_of_pos (by norm_num : (0 : ℝ) < 3)] at hb'
  obtain ⟨c, hc, hc'⟩ := round_mul hr hd (b * n)
  obtain ⟨c2, hc2, hc2'⟩ := round_mul hr hd c
  obtain ⟨c3, hc3, hc3'⟩ := round_mul hr hd c2
  rw [mul_comm d 3, hb, show b * d * n = b * n * d by ring, hc, zero_add, hc2, sub_zero, hc3, mul_div_assoc, div_self hd,
    mul_one] at h3
  rw [abs_le] at hb'
  have e1 : |b * n - 3 * n| ≤ 3 / 1000 := by
    rw [← sub_mul, abs_mul, abs_of_nonneg hN0]
    have : |b - 3| ≤ u * 3 := abs_le.2 hb'
    nlinarith
  rw [abs_le] at e1
  have hM : u * (3 * n + 1) ≤ 4 / 1000 := by nlinarith
  have f1 : |c - b * n| ≤ u * (3 * n + 1) :=
    hc'.trans (mul_le_mul_of_nonneg_left (by rw [abs_le]; constructor <;> linarith) hu)
  rw [abs_le] at f1
  have f2 : |c2 - c| ≤ u * (3 * n + 1) :=
    hc2'.trans (mul_le_mul_of_nonneg_left (by rw [abs_le]; constructor <;> linarith) hu)
  rw [abs_le] at f2
  have f3 : |c3 - c2| ≤ u * (3 * n + 1) :=
    hc3'.trans (mul_le_mul_of_nonneg_left (by rw [abs_le]; constructor <;> linarith) hu)
  rw [abs_le] at f3
  have f4 := abs_le.1 (rounds_mul hr hu (y := c3) (M := 3 * n + 1) (by rw [abs_le]; constructor <;> linarith))
  rcases le_or_gt (fl c3) (3 * n) with h | h
  · left
    rw [h3]
    apply ceil_eq <;> push_cast <;> linarith
  · right
    rw [h3]
    apply ceil_eq <;> push_cast <;> linarith

/-- an axis of five numbers starting with 0 and 2.3 (the nearest double) is extended to sixteen -/
theorem more_sixteen : ∃ xs, moreEnergies dbl 0 (dbl 2.3) 5 = .ok xs ∧ xs.length = 16 := by
  have h1 : dbl 2.3 = 5179139571476070 * 2 ^ (-51 : ℤ) :=
    (dbl_eq 1 5179139571476070 (by norm_num) (by norm_num) (by norm_num [abs_lt])).trans (by norm_num)
  have h2 : dbl (5179139571476070 * 2 ^ (-51 : ℤ)) = 5179139571476070 * 2 ^ (-51 : ℤ) :=
    (dbl_eq 1 5179139571476070 (by norm_num) (by norm_num) (by norm_num [abs_lt])).trans (by norm_num)
  have h3 : dbl (5179139571476070 * 2 ^ (-51 : ℤ) * 3) = 7768709357214105 * 2 ^ (-50 : ℤ) :=
    (dbl_eq 2 7768709357214105 (by norm_num) (by norm_num) (by norm_num [abs_lt])).trans (by norm_num)
  have h4 : dbl (7768709357214105 * 2 ^ (-50 : ℤ) * (5 : Nat)) = 4855443348258816 * 2 ^ (-47 : ℤ) :=
    (dbl_eq 5 4855443348258816 (by norm_num) (by norm_num) (by norm_num [abs_lt])).trans (by norm_num)
  have h5 : dbl (4855443348258816 * 2 ^ (-47 : ℤ)) = 4855443348258816 * 2 ^ (-47 : ℤ) :=
    (dbl_eq 5 4855443348258816 (by norm_num) (by norm_num) (by norm_num [abs_lt])).trans (by norm_num)
  have h6 : dbl (4855443348258816 * 2 ^ (-47 : ℤ) / (5179139571476070 * 2 ^ (-51 : ℤ))) = 8444249301319681 * 2 ^ (-49 : ℤ) :=
    (dbl_eq 3 8444249301319681 (by norm_num) (by norm_num) (by norm_num [abs_lt])).trans (by norm_num)
  obtain ⟨xs, e1, e2⟩ := arange_length (fl := dbl) (s := 0) (t := 4855443348258816 * 2 ^ (-47 : ℤ))
    (d := 5179139571476070 * 2 ^ (-51 : ℤ)) (by positivity)
  refine ⟨xs, ?_, ?_⟩
  · unfold moreEnergies
    simp only [h1, sub_zero, h2, h3, h4, h5, zero_add, e1]
  · rw [e2, sub_zero, h5, h6]
    exact ceil_eq (by norm_num) (by norm_num)

end
end Verif.Rounding
