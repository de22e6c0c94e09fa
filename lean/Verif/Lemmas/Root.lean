import Verif.Model.Root
import Verif.Spec.Root
import Mathlib.Topology.Order.OrderClosed
import Mathlib.Data.List.Sort
import Mathlib.Topology.Order.IntermediateValue
import Mathlib.Topology.Algebra.Order.Field
import Mathlib.Topology.ContinuousOn
import Mathlib.Tactic.FieldSimp
import Mathlib.Tactic.Linarith
/-!
Helper lemmas for root finding.
-/

namespace Verif.Root

theorem sgn_ne {a b : ℝ} (ha : a ≠ 0) (hb : b ≠ 0) : sgn a b ≠ a ↔ a * b < 0 := by
  unfold sgn
  rcases lt_or_gt_of_ne ha with h | h <;> rcases lt_or_gt_of_ne hb with h' | h'
  · rw [if_neg (by linarith), abs_of_neg h]
    simp only [neg_neg, ne_eq, not_true, false_iff, not_lt]
    exact (mul_pos_of_neg_of_neg h h').le
  · rw [if_pos h'.le, abs_of_neg h]
    exact ⟨fun _ => mul_neg_of_neg_of_pos h h', fun _ => by intro hc; linarith⟩
  · rw [if_neg (by linarith), abs_of_pos h]
    exact ⟨fun _ => mul_neg_of_pos_of_neg h h', fun _ => by intro hc; linarith⟩
  · rw [if_pos h'.le, abs_of_pos h]
    simp only [ne_eq, not_true, false_iff, not_lt]
    exact (mul_pos h h').le

theorem checkAnswer_ok {a r : ℝ} (h : checkAnswer a = .ok r) : r = a ∧ a ≠ unused := by
  unfold checkAnswer at h
  split at h
  · cases h
  · next hn => simp only [Except.ok.injEq] at h; exact ⟨h.symm, hn⟩

/-- the point of Ridder's method relative to the middle -/
theorem ridder_eq {xl xh fl fh fm : ℝ} (h : fl * fh < 0) :
    ∃ t, |t| < 1 ∧ ridder xl xh fl fh fm = some ((xl + xh) / 2 + (xh - xl) / 2 * t) ∧ (fm = 0 → t = 0) ∧
      (fm * fl < 0 → t < 0) ∧ (fm * fh < 0 → 0 < t) := by
  have hp : 0 < fm * fm - fh * fl := by nlinarith [mul_self_nonneg fm]
  have hs : 0 < √(fm * fm - fh * fl) := Real.sqrt_pos.2 hp
  have hq : √(fm * fm - fh * fl) * √(fm * fm - fh * fl) = fm * fm - fh * fl := Real.mul_self_sqrt hp.le
  set s := √(fm * fm - fh * fl) with hsd
  have hlt : |fm| < s := by
    rw [abs_lt]
    constructor <;> nlinarith [mul_self_nonneg (fm + s), mul_self_nonneg (fm - s)]
  refine ⟨(if fl ≥ fh then 1 else -1) * fm / s, ?_, ?_, ?_, ?_, ?_⟩
  · rw [abs_div, abs_of_pos hs, div_lt_one hs, abs_mul]
    split <;> simpa using hlt
  · unfold ridder
    simp only
    rw [if_pos hp.le, if_neg hs.ne']
    congr 1
    norm_num
    ring
  · rintro rfl; simp
  · intro hf
    apply div_neg_of_neg_of_pos _ hs
    rcases mul_neg_iff.1 h with ⟨hl, hh⟩ | ⟨hl, hh⟩
    · rw [if_pos (by linarith), one_mul]
      exact (neg_iff_pos_of_mul_neg hf).2 hl
    · rw [if_neg (by linarith), neg_one_mul, neg_lt_zero]
      exact (pos_iff_neg_of_mul_neg hf).2 hl
  · intro hf
    apply div_pos _ hs
    rcases mul_neg_iff.1 h with ⟨hl, hh⟩ | ⟨hl, hh⟩
    · rw [if_pos (by linarith), one_mul]
      exact (pos_iff_neg_of_mul_neg hf).2 hh
    · rw [if_neg (by linarith), neg_one_mul, neg_pos]
      exact (neg_iff_pos_of_mul_neg hf).2 hh

/-- one of the three new brackets -/
inductive Next (f : ℝ → ℝ) (xl xh xnew : ℝ) : ℝ → ℝ → Prop
  | mid : Next f xl xh xnew ((xl + xh) / 2) xnew
  | lo : Next f xl xh xnew xl xnew
  | hi : Next f xl xh xnew xnew xh

/-- one iteration: it ends with the former point, with the new point, or goes on with a bracket at most half as long -/
theorem loop_step {f : ℝ → ℝ} {xacc xl xh ans : ℝ} (n : ℕ) (h : f xl * f xh < 0) :
    ∃ t, |t| < 1 ∧ ∃ xnew, xnew = (xl + xh) / 2 + (xh - xl) / 2 * t ∧
      ((|xnew - ans| ≤ xacc ∧ zriddLoop f xacc (n + 1) xl xh (f xl) (f xh) ans = checkAnswer ans) ∨
       (¬ |xnew - ans| ≤ xacc ∧ f xnew = 0 ∧ zriddLoop f xacc (n + 1) xl xh (f xl) (f xh) ans = checkAnswer xnew) ∨
       (¬ |xnew - ans| ≤ xacc ∧ ∃ a b, Next f xl xh xnew a b ∧ f a * f b < 0 ∧ |b - a| ≤ |xh - xl| / 2 ∧
        zriddLoop f xacc (n + 1) xl xh (f xl) (f xh) ans =
          if |b - a| ≤ xacc then checkAnswer xnew else zriddLoop f xacc n a b (f a) (f b) xnew)) := by
  have hm : (0.5 : ℝ) * (xl + xh) = (xl + xh) / 2 := by norm_num; ring
  obtain ⟨t, ht, hr, h0, hneg, hpos⟩ := ridder_eq (xl := xl) (xh := xh) (fm := f ((xl + xh) / 2)) h
  refine ⟨t, ht, _, rfl, ?_⟩
  set xnew := (xl + xh) / 2 + (xh - xl) / 2 * t with hx
  rw [zriddLoop]
  simp only [hm, hr]
  by_cases h1 : |xnew - ans| ≤ xacc
  · left; exact ⟨h1, if_pos h1⟩
  right
  rw [if_neg h1]
  by_cases h2 : f xnew = 0
  · left; exact ⟨h1, h2, if_pos h2⟩
  right
  rw [if_neg h2]
  refine ⟨h1, ?_⟩
  have hl : f xl ≠ 0 := left_ne_zero_of_mul h.ne
  have hh : f xh ≠ 0 := right_ne_zero_of_mul h.ne
  have hfm : f ((xl + xh) / 2) ≠ 0 := by
    intro hc
    apply h2
    rw [hx, h0 hc, mul_zero, add_zero, hc]
  have habs := abs_lt.1 ht
  by_cases c1 : sgn (f ((xl + xh) / 2)) (f xnew) ≠ f ((xl + xh) / 2)
  · rw [if_pos c1]
    rw [sgn_ne hfm h2] at c1
    refine ⟨_, _, Next.mid, c1, ?_, rfl⟩
    rw [hx, add_sub_cancel_left, abs_mul, abs_div, abs_of_pos (two_pos : (0 : ℝ) < 2)]
    nlinarith [abs_nonneg (xh - xl)]
  · rw [if_neg c1]
    rw [sgn_ne hfm h2, not_lt] at c1
    have c1' : 0 < f ((xl + xh) / 2) * f xnew := lt_of_le_of_ne c1 (mul_ne_zero hfm h2).symm
    by_cases c2 : sgn (f xl) (f xnew) ≠ f xl
    · rw [if_pos c2]
      rw [sgn_ne hl h2] at c2
      refine ⟨_, _, Next.lo, c2, ?_, rfl⟩
      have : f ((xl + xh) / 2) * f xl < 0 := by
        by_contra hc
        rw [not_lt] at hc
        nlinarith [mul_pos c1' (neg_pos.2 c2), mul_self_pos.2 h2, mul_nonneg hc (mul_self_nonneg (f xnew))]
      have := hneg this
      rw [hx, show (xl + xh) / 2 + (xh - xl) / 2 * t - xl = (xh - xl) / 2 * (1 + t) by ring, abs_mul, abs_div,
        abs_of_pos (two_pos : (0 : ℝ) < 2), abs_of_pos (show 0 < 1 + t by linarith)]
      nlinarith [abs_nonneg (xh - xl)]
    · rw [if_neg c2]
      rw [sgn_ne hl h2, not_lt] at c2
      have c3 : f xh * f xnew < 0 := by
        by_contra hc
        rw [not_lt] at hc
        have c2' : 0 < f xl * f xnew := lt_of_le_of_ne c2 (mul_ne_zero hl h2).symm
        nlinarith [mul_pos c2' (neg_pos.2 h), mul_self_pos.2 h2, mul_nonneg hc c2'.le, mul_self_pos.2 hl]
      rw [if_pos ((sgn_ne hh h2).2 c3)]
      refine ⟨_, _, Next.hi, by linarith [mul_comm (f xh) (f xnew)], ?_, rfl⟩
      have : f ((xl + xh) / 2) * f xh < 0 := by
        by_contra hc
        rw [not_lt] at hc
        nlinarith [mul_pos c1' (neg_pos.2 c3), mul_self_pos.2 h2, mul_nonneg hc (mul_self_nonneg (f xnew))]
      have := hpos this
      rw [hx, show xh - ((xl + xh) / 2 + (xh - xl) / 2 * t) = (xh - xl) / 2 * (1 - t) by ring, abs_mul, abs_div,
        abs_of_pos (two_pos : (0 : ℝ) < 2), abs_of_pos (show 0 < 1 - t by linarith)]
      nlinarith [abs_nonneg (xh - xl)]

theorem new_inside {a b xl xh t : ℝ} (hl : a ≤ xl ∧ xl ≤ b) (hh : a ≤ xh ∧ xh ≤ b) (hne : xl ≠ xh) (ht : |t| < 1) :
    a < (xl + xh) / 2 + (xh - xl) / 2 * t ∧ (xl + xh) / 2 + (xh - xl) / 2 * t < b := by
  rw [abs_lt] at ht
  rcases lt_or_gt_of_ne hne with h | h
  · constructor <;> nlinarith
  · constructor <;> nlinarith

theorem next_inside {f : ℝ → ℝ} {a b xl xh xnew c d : ℝ} (hl : a ≤ xl ∧ xl ≤ b) (hh : a ≤ xh ∧ xh ≤ b)
    (hx : a < xnew ∧ xnew < b) (h : Next f xl xh xnew c d) :
    (a ≤ c ∧ c ≤ b) ∧ (a ≤ d ∧ d ≤ b) ∧ (xnew = c ∨ xnew = d) := by
  cases h
  · exact ⟨⟨by linarith, by linarith⟩, ⟨hx.1.le, hx.2.le⟩, .inr rfl⟩
  · exact ⟨hl, ⟨hx.1.le, hx.2.le⟩, .inr rfl⟩
  · exact ⟨⟨hx.1.le, hx.2.le⟩, hh, .inl rfl⟩

/-- `r` is a root, or the end of a bracket of length at most `d` in `[a,b]` -/
def Near (f : ℝ → ℝ) (a b d r : ℝ) : Prop :=
  f r = 0 ∨ ∃ u w, (a ≤ u ∧ u ≤ b) ∧ (a ≤ w ∧ w ≤ b) ∧ (r = u ∨ r = w) ∧ f u * f w < 0 ∧ |w - u| ≤ d

theorem Near.mono {f : ℝ → ℝ} {a b d e r : ℝ} (h : Near f a b d r) (hd : d ≤ e) : Near f a b e r := by
  rcases h with h | ⟨u, w, h1, h2, h3, h4, h5⟩
  · exact .inl h
  · exact .inr ⟨u, w, h1, h2, h3, h4, h5.trans hd⟩

/-- what is returned later in the loop -/
theorem loop_later {f : ℝ → ℝ} {xacc a b : ℝ} : ∀ {n : ℕ} {xl xh ans r : ℝ}, f xl * f xh < 0 →
    (a ≤ xl ∧ xl ≤ b) → (a ≤ xh ∧ xh ≤ b) → (a < ans ∧ ans < b) → (ans = xl ∨ ans = xh) →
    zriddLoop f xacc n xl xh (f xl) (f xh) ans = .ok r → (a < r ∧ r < b) ∧ Near f a b |xh - xl| r
  | 0, _, _, _, _, _, _, _, _, _, h => by cases h
  | n + 1, xl, xh, ans, r, hs, hl, hh, ha, ho, h => by
    obtain ⟨t, ht, xnew, hx, hc⟩ := loop_step (f := f) (xacc := xacc) (ans := ans) n hs
    have hne : xl ≠ xh := by rintro rfl; exact absurd hs (not_lt.2 (mul_self_nonneg _))
    have hin := new_inside hl hh hne ht
    rw [← hx] at hin
    rcases hc with ⟨-, he⟩ | ⟨-, h0, he⟩ | ⟨-, c, d, hn, hs', hlen, he⟩
    · rw [he] at h
      obtain ⟨rfl, -⟩ := checkAnswer_ok h
      exact ⟨ha, .inr ⟨xl, xh, hl, hh, ho, hs, le_rfl⟩⟩
    · rw [he] at h
      obtain ⟨rfl, -⟩ := checkAnswer_ok h
      exact ⟨hin, .inl h0⟩
    · rw [he] at h
      obtain ⟨i1, i2, i3⟩ := next_inside hl hh hin hn
      have hle : |d - c| ≤ |xh - xl| := by linarith [abs_nonneg (xh - xl)]
      split at h
      · obtain ⟨rfl, -⟩ := checkAnswer_ok h
        exact ⟨hin, .inr ⟨c, d, i1, i2, i3, hs', hle⟩⟩
      · obtain ⟨j1, j2⟩ := loop_later hs' i1 i2 hin i3 h
        exact ⟨j1, j2.mono hle⟩

/-- what is returned by the loop -/
theorem loop_first {f : ℝ → ℝ} {xacc a b : ℝ} (hab : a < b) {n : ℕ} {r : ℝ} (hs : f a * f b < 0)
    (h : zriddLoop f xacc n a b (f a) (f b) unused = .ok r) : (a < r ∧ r < b) ∧ Near f a b ((b - a) / 2) r := by
  cases n with
  | zero => cases h
  | succ n =>
    obtain ⟨t, ht, xnew, hx, hc⟩ := loop_step (f := f) (xacc := xacc) (ans := unused) n hs
    have hin := new_inside ⟨le_rfl, hab.le⟩ ⟨hab.le, le_rfl⟩ hab.ne ht
    rw [← hx] at hin
    rcases hc with ⟨-, he⟩ | ⟨-, h0, he⟩ | ⟨-, c, d, hn, hs', hlen, he⟩
    · rw [he] at h
      exact absurd rfl (checkAnswer_ok h).2
    · rw [he] at h
      obtain ⟨rfl, -⟩ := checkAnswer_ok h
      exact ⟨hin, .inl h0⟩
    · rw [he] at h
      obtain ⟨i1, i2, i3⟩ := next_inside ⟨le_rfl, hab.le⟩ ⟨hab.le, le_rfl⟩ hin hn
      rw [abs_of_pos (show 0 < b - a by linarith)] at hlen
      split at h
      · obtain ⟨rfl, -⟩ := checkAnswer_ok h
        exact ⟨hin, .inr ⟨c, d, i1, i2, i3, hs', hlen⟩⟩
      · obtain ⟨j1, j2⟩ := loop_later hs' i1 i2 hin i3 h
        exact ⟨j1, j2.mono hlen⟩

/-- the loop ends with a result if the accuracy is not too fine -/
theorem loop_ends {f : ℝ → ℝ} {xacc a b : ℝ} (hu : unused + xacc < a) (h0 : 0 ≤ xacc) : ∀ {n : ℕ} {xl xh ans : ℝ},
    f xl * f xh < 0 → (a ≤ xl ∧ xl ≤ b) → (a ≤ xh ∧ xh ≤ b) → (ans = unused ∨ unused + xacc < ans) →
    |xh - xl| ≤ xacc * 2 ^ (n + 1) → ∃ r, zriddLoop f xacc (n + 1) xl xh (f xl) (f xh) ans = .ok r
  | n, xl, xh, ans, hs, hl, hh, ha, hd => by
    obtain ⟨t, ht, xnew, hx, hc⟩ := loop_step (f := f) (xacc := xacc) (ans := ans) n hs
    have hne : xl ≠ xh := by rintro rfl; exact absurd hs (not_lt.2 (mul_self_nonneg _))
    have hin := new_inside hl hh hne ht
    rw [← hx] at hin
    have hxu : unused + xacc < xnew := by linarith
    have chk : ∀ {y : ℝ}, unused + xacc < y → checkAnswer y = .ok y := by
      intro y hy
      unfold checkAnswer
      rw [if_neg (by intro hc; rw [hc] at hy; linarith)]
    rcases hc with ⟨hle, he⟩ | ⟨-, -, he⟩ | ⟨-, c, d, hn, hs', hlen, he⟩
    · rcases ha with rfl | ha
      · rw [abs_le] at hle
        linarith
      · exact ⟨ans, by rw [he, chk ha]⟩
    · exact ⟨xnew, by rw [he, chk hxu]⟩
    · rw [he]
      split
      · exact ⟨xnew, chk hxu⟩
      · next hgt =>
        obtain ⟨i1, i2, -⟩ := next_inside hl hh hin hn
        cases n with
        | zero =>
          exfalso
          apply hgt
          rw [zero_add, pow_one] at hd
          linarith
        | succ n =>
          apply loop_ends hu h0 hs' i1 i2 (.inr hxu)
          rw [pow_succ] at hd
          linarith

/-- `zridd` returns an end that is a root or goes into the loop -/
theorem zridd_some {f : ℝ → ℝ} {x1 x2 xacc r : ℝ} (h12 : x1 < x2) (h : zridd f x1 x2 xacc = .ok (some r)) :
    (r = x1 ∧ f x1 = 0) ∨ (r = x2 ∧ f x2 = 0) ∨
      (f x1 * f x2 < 0 ∧ x1 < r ∧ r < x2 ∧ Near f x1 x2 ((x2 - x1) / 2) r) := by
  unfold zridd at h
  simp only at h
  split at h
  · split at h
    · next h0 => simp only [Except.ok.injEq, Option.some.injEq] at h; exact .inl ⟨h.symm, h0⟩
    · split at h
      · next h0 => simp only [Except.ok.injEq, Option.some.injEq] at h; exact .inr (.inl ⟨h.symm, h0⟩)
      · cases h
  · next hs =>
    rw [ge_iff_le, not_le] at hs
    cases hz : zriddLoop f xacc 59 x1 x2 (f x1) (f x2) unused with
    | error e => rw [hz] at h; cases h
    | ok r' =>
      rw [hz] at h
      simp only [bind, Except.bind, Except.ok.injEq, Option.some.injEq] at h
      subst h
      obtain ⟨h1, h2⟩ := loop_first h12 hs hz
      exact .inr (.inr ⟨hs, h1.1, h1.2, h2⟩)

theorem zridd_ok {f : ℝ → ℝ} {x1 x2 xacc : ℝ} (h12 : x1 < x2) (hs : f x1 * f x2 ≤ 0) (hu : unused + xacc < x1)
    (hx : x2 - x1 ≤ xacc * 2 ^ 59) : ∃ r, zridd f x1 x2 xacc = .ok (some r) := by
  have h0 : 0 ≤ xacc := by
    by_contra hc
    rw [not_le] at hc
    have : xacc * 2 ^ 59 < 0 := mul_neg_of_neg_of_pos hc (by positivity)
    linarith
  unfold zridd
  simp only
  rcases hs.lt_or_eq with hs | hs
  · rw [if_neg (by simpa using hs)]
    obtain ⟨r, hr⟩ := loop_ends (f := f) (n := 58) hu h0 hs ⟨le_rfl, h12.le⟩ ⟨h12.le, le_rfl⟩ (.inl rfl)
      (by rw [abs_of_pos (by linarith)]; exact hx)
    rw [hr]
    exact ⟨r, rfl⟩
  · rw [if_pos (by rw [hs])]
    rcases mul_eq_zero.1 hs with h | h
    · rw [if_pos h]; exact ⟨_, rfl⟩
    · split
      · exact ⟨_, rfl⟩
      · exact ⟨_, rfl⟩

/-- a bracket of a continuous function contains a root -/
theorem root_of_bracket {f : ℝ → ℝ} {a b u w : ℝ} (hf : ContinuousOn f (Set.Icc a b)) (hu : a ≤ u ∧ u ≤ b)
    (hw : a ≤ w ∧ w ≤ b) (hs : f u * f w < 0) : ∃ x, (a ≤ x ∧ x ≤ b) ∧ f x = 0 ∧ |x - u| ≤ |w - u| ∧ |x - w| ≤ |w - u| := by
  have hsub : Set.uIcc u w ⊆ Set.Icc a b := Set.uIcc_subset_Icc hu hw
  have h0 : (0 : ℝ) ∈ Set.uIcc (f u) (f w) := by
    rw [Set.mem_uIcc]
    rcases mul_neg_iff.1 hs with h | h
    · exact .inr ⟨h.2.le, h.1.le⟩
    · exact .inl ⟨h.1.le, h.2.le⟩
  obtain ⟨x, hx, h⟩ := intermediate_value_uIcc (hf.mono hsub) h0
  refine ⟨x, hsub hx, h, ?_, ?_⟩
  · exact Set.abs_sub_left_of_mem_uIcc hx
  · have := Set.abs_sub_right_of_mem_uIcc hx
    rwa [abs_sub_comm] at this

theorem Near.root {f : ℝ → ℝ} {a b d r : ℝ} (hf : ContinuousOn f (Set.Icc a b)) (hd : 0 ≤ d) (hr : a ≤ r ∧ r ≤ b)
    (h : Near f a b d r) : ∃ x, (a ≤ x ∧ x ≤ b) ∧ f x = 0 ∧ |x - r| ≤ d := by
  rcases h with h | ⟨u, w, h1, h2, h3, h4, h5⟩
  · exact ⟨r, hr, h, by simpa using hd⟩
  · obtain ⟨x, hx, h0, h6, h7⟩ := root_of_bracket hf h1 h2 h4
    refine ⟨x, hx, h0, ?_⟩
    rcases h3 with rfl | rfl
    · linarith
    · linarith

theorem mem_solve {f : ℝ → ℝ} {xacc x1 x2 r : ℝ} {n : ℕ} (h : r ∈ solve f xacc n x1 x2) :
    ∃ i < n, zridd f (gridPt x1 x2 n i) (gridPt x1 x2 n (i + 1)) xacc = .ok (some r) := by
  unfold solve at h
  simp only [List.mem_filterMap, List.mem_range] at h
  obtain ⟨i, hi, h⟩ := h
  refine ⟨i, hi, ?_⟩
  unfold stepRoot at h
  unfold gridPt
  split at h
  · next heq => rw [heq, h]
  · cases h

theorem grid_lt {x1 x2 : ℝ} {n i j : ℕ} (h : x1 < x2) (hn : 0 < n) (hij : i < j) : gridPt x1 x2 n i < gridPt x1 x2 n j := by
  unfold gridPt
  have hs : 0 < (x2 - x1) / n := div_pos (by linarith) (by exact_mod_cast hn)
  have : (i : ℝ) < j := by exact_mod_cast hij
  linarith [mul_lt_mul_of_pos_left this hs]

theorem grid_le {x1 x2 : ℝ} {n i j : ℕ} (h : x1 < x2) (hn : 0 < n) (hij : i ≤ j) : gridPt x1 x2 n i ≤ gridPt x1 x2 n j := by
  rcases hij.lt_or_eq with hij | rfl
  · exact (grid_lt h hn hij).le
  · exact le_rfl

theorem grid_zero (x1 x2 : ℝ) (n : ℕ) : gridPt x1 x2 n 0 = x1 := by simp [gridPt]

theorem grid_last (x1 x2 : ℝ) {n : ℕ} (hn : 0 < n) : gridPt x1 x2 n n = x2 := by
  have : (n : ℝ) ≠ 0 := by exact_mod_cast hn.ne'
  unfold gridPt
  field_simp
  ring

theorem grid_step (x1 x2 : ℝ) (n i : ℕ) : gridPt x1 x2 n (i + 1) - gridPt x1 x2 n i = (x2 - x1) / n := by
  unfold gridPt
  push_cast
  ring

/-- a continuous function for which two successive points of Ridder's method are close to each other but not to the
root -/
noncomputable def zigzag (x : ℝ) : ℝ :=
  if x ≤ 0 then 1 - 3 * x else
  if x ≤ 1 / 5 then 1 + 965 / 6 * x else
  if x ≤ 3 / 5 then 199 / 6 - 3965 / 12 * (x - 1 / 5) else -99 + 465 / 2 * (x - 3 / 5)

theorem zigzag_continuous : Continuous zigzag := by
  unfold zigzag
  refine Continuous.if_le (by fun_prop) (Continuous.if_le (by fun_prop) (Continuous.if_le (by fun_prop) (by fun_prop)
    continuous_id continuous_const ?_) continuous_id continuous_const ?_) continuous_id continuous_const ?_
  · rintro x rfl; norm_num
  · rintro x rfl; norm_num
  · rintro x rfl; norm_num

theorem zigzag_solve : solve zigzag (1 / 100) 1 (-1) 1 = [1 / 5] := by
  have z1 : zigzag (-1) = 4 := by norm_num [zigzag]
  have z2 : zigzag 0 = 1 := by norm_num [zigzag]
  have z3 : zigzag 1 = -6 := by norm_num [zigzag]
  have z4 : zigzag (1 / 5) = 199 / 6 := by norm_num [zigzag]
  have z5 : zigzag (3 / 5) = -99 := by norm_num [zigzag]
  have s1 : √(25 : ℝ) = 5 := by
    rw [show (25 : ℝ) = 5 ^ 2 by norm_num]; exact Real.sqrt_sq (by norm_num)
  have s2 : √(10000 : ℝ) = 100 := by
    rw [show (10000 : ℝ) = 100 ^ 2 by norm_num]; exact Real.sqrt_sq (by norm_num)
  have r1 : ridder (-1) 1 4 (-6) 1 = some (1 / 5) := by
    unfold ridder
    simp only
    rw [show (1 : ℝ) * 1 - -6 * 4 = 25 by norm_num, s1]
    norm_num
  have r2 : ridder (1 / 5) 1 (199 / 6) (-6) (-99) = some (51 / 250) := by
    unfold ridder
    simp only
    rw [show (-99 : ℝ) * -99 - -6 * (199 / 6) = 10000 by norm_num, s2]
    norm_num
  have l2 : zriddLoop zigzag (1 / 100) 58 (1 / 5) 1 (199 / 6) (-6) (1 / 5) = .ok (1 / 5) := by
    rw [zriddLoop]
    simp only
    rw [show (0.5 : ℝ) * (1 / 5 + 1) = 3 / 5 by norm_num, z5, r2]
    simp only
    rw [if_pos (by rw [abs_le]; norm_num)]
    unfold checkAnswer
    rw [if_neg (by norm_num [unused])]
  have l1 : zriddLoop zigzag (1 / 100) 59 (-1) 1 4 (-6) unused = .ok (1 / 5) := by
    rw [zriddLoop]
    simp only
    rw [show (0.5 : ℝ) * (-1 + 1) = 0 by norm_num, z2, r1]
    simp only
    rw [if_neg (by rw [abs_le]; norm_num [unused]), z4, if_neg (by norm_num), if_neg (by norm_num [sgn]),
      if_neg (by norm_num [sgn]), if_pos (by norm_num [sgn]), if_neg (by rw [abs_le]; norm_num), l2]
  have zr : zridd zigzag (-1) 1 (1 / 100) = .ok (some (1 / 5)) := by
    unfold zridd
    simp only
    rw [z1, z3, if_neg (by norm_num), l1]
    rfl
  unfold solve
  simp only [List.range_succ, List.range_zero, List.nil_append]
  rw [List.filterMap_cons_some (b := 1 / 5), List.filterMap_nil]
  unfold stepRoot
  have e1 : (-1 : ℝ) + (1 - -1) / (1 : ℕ) * (0 : ℕ) = -1 := by norm_num
  have e2 : (-1 : ℝ) + (1 - -1) / (1 : ℕ) * ((0 + 1 : ℕ) : ℕ) = 1 := by norm_num
  rw [e1, e2, zr]

end Verif.Root
