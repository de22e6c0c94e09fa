import Verif.Spec.McFermi
import Verif.Lemmas.Kinem
import Verif.Props.McStas
import Mathlib.Tactic.LinearCombination
import Mathlib.Tactic.FieldSimp
import Mathlib.Algebra.Order.Floor.Ring
import Mathlib.Analysis.SpecialFunctions.Trigonometric.Bounds
import Mathlib.Analysis.SpecialFunctions.Trigonometric.Inverse
/-!
Lemmas about the choppers with turning slots.
-/

namespace Verif.McFermi
open McStas Kinem Sampling
open Classical

/-! ### the circle -/

theorem calcCenter_some {p0 p1 p2 : ℝ × ℝ} {c0 c1 : ℝ} (h : calcCenter p0 p1 p2 = some (c0, c1)) :
    (p0.1 - c0) ^ 2 + (p0.2 - c1) ^ 2 = (p1.1 - c0) ^ 2 + (p1.2 - c1) ^ 2 ∧
    (p2.1 - c0) ^ 2 + (p2.2 - c1) ^ 2 = (p1.1 - c0) ^ 2 + (p1.2 - c1) ^ 2 := by
  obtain ⟨z0, x0⟩ := p0
  obtain ⟨z1, x1⟩ := p1
  obtain ⟨z2, x2⟩ := p2
  unfold calcCenter at h
  simp only [Option.bind_eq_bind, Option.bind_eq_some_iff] at h
  obtain ⟨d, hd, h⟩ := h
  obtain ⟨hne, hd⟩ := divD_some hd
  rw [Option.some.injEq, Prod.mk.injEq] at h
  obtain ⟨h0, h1⟩ := h
  have hd1 : d * (2 * (-z0 * x2 + z0 * x1 + z1 * x2 + x0 * z2 - x0 * z1 - x1 * z2)) = 1 := by
    rw [hd, one_div, inv_mul_cancel₀ hne]
  simp only at h0 h1 ⊢
  rw [← h0, ← h1]
  constructor
  · linear_combination (-(z0 * z0 - z1 * z1 + x0 * x0 - x1 * x1)) * hd1
  · linear_combination (-(z2 * z2 - z1 * z1 + x2 * x2 - x1 * x1)) * hd1

theorem calcCenter_none {p0 p1 p2 : ℝ × ℝ} : calcCenter p0 p1 p2 = none ↔ OnLine p0 p1 p2 := by
  unfold calcCenter OnLine
  simp only
  constructor
  · intro h
    by_contra hne
    rw [divD_ok] at h
    · simp at h
    · intro h'
      apply hne
      linear_combination (1 / 2) * h'
  · intro h
    rw [show divD 1 (2 * (-p0.1 * p2.2 + p0.1 * p1.2 + p1.1 * p2.2 + p0.2 * p2.1 - p0.2 * p1.1 - p1.2 * p2.1)) = none from
      if_pos (by linear_combination 2 * h)]
    rfl

theorem onLine_of_same {p0 p1 p2 : ℝ × ℝ} {c0 c1 : ℝ} (h0 : (p0.1 - c0) ^ 2 + (p0.2 - c1) ^ 2 = 0)
    (h1 : (p1.1 - c0) ^ 2 + (p1.2 - c1) ^ 2 = 0) : OnLine p0 p1 p2 := by
  have e : ∀ p : ℝ × ℝ, (p.1 - c0) ^ 2 + (p.2 - c1) ^ 2 = 0 → p.1 = c0 ∧ p.2 = c1 := by
    intro p h
    have a := sq_nonneg (p.1 - c0)
    have b := sq_nonneg (p.2 - c1)
    have a' : (p.1 - c0) ^ 2 = 0 := by linarith
    have b' : (p.2 - c1) ^ 2 = 0 := by linarith
    rw [sq_eq_zero_iff] at a' b'
    exact ⟨by linarith, by linarith⟩
  obtain ⟨a, b⟩ := e p0 h0
  obtain ⟨a', b'⟩ := e p1 h1
  unfold OnLine
  rw [a, b, a', b']
  ring

theorem turned_eq (omega tc t : ℝ) (r : V3 ℝ) : turned omega tc t r = inFrame omega tc t r := by
  unfold turned inFrame rotate McStas.norm V3.cross
  norm_num
  ring

theorem onCircle_pos (c : Circle) (f : ℝ) : OnCircle c (c.pos f) := by
  unfold OnCircle Circle.pos
  linear_combination c.nrad ^ 2 * Real.sin_sq_add_cos_sq f

theorem check_eq (c : Circle) {w sw bw blader off phi b : ℝ} (hp : 0 < bw + sw) (hb : blades (c.pos phi).1 blader off = some b)
    (h : |(c.pos phi).2| ≤ w / 2) :
    checkAbsorb c w sw bw blader off phi = .ok (some ⌈((c.pos phi).2 + w / 2 - b) / (bw + sw)⌉) := by
  unfold checkAbsorb
  simp only
  rw [if_neg (not_lt.2 h), hb]
  simp only
  rw [if_neg]
  have := Int.le_ceil (((c.pos phi).2 + w / 2 - b) / (bw + sw))
  rw [div_le_iff₀ hp] at this
  linarith

theorem acosD_ok {x : ℝ} (h : -1 ≤ x ∧ x ≤ 1) : acosD x = some (Real.arccos x) := if_pos h

theorem acos02pi_ok {x y : ℝ} (h : -1 ≤ x ∧ x ≤ 1) :
    ∃ f, acos02pi (some x) y = some f ∧ 0 ≤ f ∧ f ≤ 2 * Real.pi ∧ Real.cos f = x ∧
      Real.sin f = (if y > 0 then 1 else -1) * √(1 - x ^ 2) := by
  unfold acos02pi
  refine ⟨if y > 0 then Real.arccos x else 2 * Real.pi - Real.arccos x, ?_, ?_⟩
  · simp only [Option.bind_eq_bind, Option.bind_some, acosD_ok h]
  · have a := Real.arccos_nonneg x
    have b := Real.arccos_le_pi x
    by_cases hy : y > 0
    · simp only [if_pos hy]
      exact ⟨a, by linarith, Real.cos_arccos h.1 h.2, by rw [Real.sin_arccos, one_mul]⟩
    · simp only [if_neg hy]
      refine ⟨by linarith, by linarith, ?_, ?_⟩
      · rw [Real.cos_two_pi_sub, Real.cos_arccos h.1 h.2]
      · rw [Real.sin_two_pi_sub, Real.sin_arccos, neg_one_mul]

theorem angle_ok {c : Circle} (hr : 0 < c.nrad) {p : ℝ × ℝ} (hp : OnCircle c p) :
    ∃ f, c.angle p = some f ∧ 0 ≤ f ∧ f ≤ 2 * Real.pi ∧ c.pos f = p := by
  have hp' : (p.1 - c.c0) ^ 2 + (p.2 - c.c1) ^ 2 = c.nrad ^ 2 := hp
  have hx : ((p.1 - c.c0) / c.nrad) ^ 2 ≤ 1 := by
    rw [div_pow, div_le_one (by positivity)]
    have := sq_nonneg (p.2 - c.c1)
    linarith
  have hx' := abs_le_one_iff_mul_self_le_one.2 (by rwa [sq] at hx)
  rw [abs_le] at hx'
  obtain ⟨f, h1, h2, h3, h4, h5⟩ := acos02pi_ok (y := p.2 - c.c1) hx'
  refine ⟨f, ?_, h2, h3, ?_⟩
  · unfold Circle.angle
    rw [divD_ok hr.ne', h1]
  · have e : √(1 - ((p.1 - c.c0) / c.nrad) ^ 2) = |p.2 - c.c1| / c.nrad := by
      rw [show 1 - ((p.1 - c.c0) / c.nrad) ^ 2 = ((p.2 - c.c1) / c.nrad) ^ 2 by
        field_simp; linear_combination -hp', Real.sqrt_sq_eq_abs, abs_div, abs_of_pos hr]
    unfold Circle.pos
    rw [h4, h5, e]
    refine Prod.ext ?_ ?_
    · simp only; field_simp; ring
    · simp only
      by_cases hy : p.2 - c.c1 > 0
      · rw [if_pos hy, abs_of_pos hy]; field_simp; ring
      · rw [if_neg hy, abs_of_nonpos (not_lt.1 hy)]; field_simp; ring

/-! ### the tests along the path -/

variable {ok : Option ℝ → Prop} {a b : ℝ}

theorem less_up (h : 0 < b - a) (q : ℝ) : less (some (part a b q)) (some b) ↔ q < 1 := by
  unfold less part
  simp only
  constructor <;> intro h' <;> nlinarith

theorem less_down (h : b - a < 0) (q : ℝ) : less (some b) (some (part a b q)) ↔ q < 1 := by
  unfold less part
  simp only
  constructor <;> intro h' <;> nlinarith

theorem cond_iff (hab : b - a ≠ 0) {d : ℝ} (hd : 0 < d) (q : ℝ) :
    (if less (some 0) (some (d * (b - a))) then less (some (part a b q)) (some b) else less (some b) (some (part a b q))) ↔
      q < 1 := by
  rcases lt_or_gt_of_ne hab with h | h
  · rw [if_neg, less_down h]
    unfold less
    simp only
    nlinarith
  · rw [if_pos, less_up h]
    unfold less
    simp only
    positivity

theorem inner_spec (hab : b - a ≠ 0) {d : ℝ} (hd : 0 < d) (k : ℕ) : ∀ (n : ℕ) (q : ℝ) (s : Sw), k ≤ n → 1 ≤ s.idx →
    s.phi 0 = some a → s.phi 1 = some b → s.phi s.idx = some (part a b q) → s.idx + k ≤ 129 → (∀ j < k, q + j * d < 1) → 1 ≤ q + k * d →
    ((∀ j, 1 ≤ j → j ≤ k → ok (some (part a b (q + j * d)))) →
      ∃ s', inner ok (less (some 0) (some (d * (b - a)))) (some (d * (b - a))) n s = some s' ∧ s'.idx = s.idx + k ∧
        (∀ i ≤ s.idx, s'.phi i = s.phi i) ∧ (∀ j ≤ k, s'.phi (s.idx + j) = some (part a b (q + j * d)))) ∧
    ((∃ j, 1 ≤ j ∧ j ≤ k ∧ ¬ ok (some (part a b (q + j * d)))) →
      inner ok (less (some 0) (some (d * (b - a)))) (some (d * (b - a))) n s = none) := by
  induction k with
  | zero =>
    intro n q s _ hi h0 h1 hq _ _ hend
    have hend' : ¬ q < 1 := by simpa using hend
    have e : inner ok (less (some 0) (some (d * (b - a)))) (some (d * (b - a))) n s = some s := by
      cases n with
      | zero => rfl
      | succ n =>
        unfold inner
        rw [if_neg]
        rintro ⟨h, -⟩
        rw [hq, h1, cond_iff hab hd] at h
        exact hend' h
    refine ⟨fun _ => ⟨s, e, rfl, fun _ _ => rfl, fun j hj => ?_⟩, fun ⟨j, h1, h2, _⟩ => by omega⟩
    obtain rfl : j = 0 := by omega
    simpa using hq
  | succ k ih =>
    intro n q s hn hi h0 h1 hq hlen hlt hend
    obtain ⟨n, rfl⟩ : ∃ m, n = m + 1 := ⟨n - 1, by omega⟩
    have hstep : inner ok (less (some 0) (some (d * (b - a)))) (some (d * (b - a))) (n + 1) s =
        if ok (some (part a b (q + d))) then
          inner ok (less (some 0) (some (d * (b - a)))) (some (d * (b - a))) n (s.push (some (part a b (q + d)))) else none := by
      have hc : ((if less (some 0) (some (d * (b - a))) then less (s.phi s.idx) (s.phi 1) else less (s.phi 1) (s.phi s.idx)) ∧
          s.idx < 129) := by
        refine ⟨?_, by omega⟩
        rw [hq, h1, cond_iff hab hd]
        simpa using hlt 0 (by omega)
      have hv : Option.map₂ (· + ·) (s.phi s.idx) (some (d * (b - a))) = some (part a b (q + d)) := by
        rw [hq]
        simp only [Option.map₂_some_some, part]
        congr 1
        ring
      conv_lhs => unfold inner
      rw [if_pos hc]
      simp only [hv]
      have : (s.push (some (part a b (q + d)))).phi (s.push (some (part a b (q + d)))).idx = some (part a b (q + d)) := by
        simp [Sw.push]
      rw [this]
    have hpush : ∀ i, i ≤ s.idx → (s.push (some (part a b (q + d)))).phi i = s.phi i := by
      intro i hi
      simp only [Sw.push]
      rw [Function.update_of_ne (by omega)]
    have := ih n (q + d) (s.push (some (part a b (q + d)))) (by omega) (by simp [Sw.push]) (by rw [hpush 0 (by omega), h0])
      (by rw [hpush 1 hi, h1]) (by simp [Sw.push]) (by simp only [Sw.push]; omega)
      (fun j hj => by have := hlt (j + 1) (by omega); push_cast at this; linarith) (by push_cast at hend; linarith)
    have hj : ∀ j : ℕ, q + d + j * d = q + ((j + 1 : ℕ) : ℝ) * d := by intro j; push_cast; ring
    simp only [hj] at this
    rw [hstep]
    constructor
    · intro hall
      rw [if_pos (by have := hall 1 le_rfl (by omega); simpa using this)]
      obtain ⟨s', e, e1, e2, e4⟩ := this.1 (fun j h1 h2 => hall (j + 1) (by omega) (by omega))
      have e5 : ∀ i ≤ s.idx, s'.phi i = s.phi i := by
        intro i hi
        rw [e2 i (by simp only [Sw.push]; omega), hpush i hi]
      refine ⟨s', e, by rw [e1]; simp only [Sw.push]; omega, e5, fun j hj => ?_⟩
      cases j with
      | zero =>
        rw [add_zero, e5 _ le_rfl, hq]
        simp
      | succ j =>
        have := e4 j (by omega)
        rw [← this]
        congr 1
        simp only [Sw.push]
        omega
    · rintro ⟨j, h1, h2, h3⟩
      by_cases hok : ok (some (part a b (q + d)))
      · rw [if_pos hok]
        apply this.2
        have : j ≠ 1 := by
          rintro rfl
          apply h3
          simpa using hok
        exact ⟨j - 1, by omega, by omega, by rwa [Nat.sub_add_cancel h1]⟩
      · rw [if_neg hok]

/-- the state before the turn number `n` of the outer loop -/
structure Inv (a b : ℝ) (n : ℕ) (s : Sw) : Prop where
  idx : s.idx = 2 ^ n
  h0 : s.phi 0 = some a
  h1 : s.phi 1 = some b
  last : s.phi (2 ^ n) = some (part a b (1 - 1 / 2 ^ n))

/-- the tests of the turn number `n` -/
def Lev (ok : Option ℝ → Prop) (a b : ℝ) (n : ℕ) : Prop := ∀ j : ℕ, j ≤ 2 ^ n → ok (some (part a b ((2 * j + 1) / 2 ^ (n + 1))))

theorem turn_spec (hab : b - a ≠ 0) {n : ℕ} (hn1 : 1 ≤ n) (hn : n ≤ 6) {s : Sw} (hs : Inv a b n s) :
    (Lev ok a b n → ∃ s', turn ok s = some s' ∧ (n = 6 → s'.idx = 129) ∧ (n < 6 → Inv a b (n + 1) s')) ∧
    (¬ Lev ok a b n → turn ok s = none) := by
  have hp : (0 : ℝ) < 2 ^ n := by positivity
  have hpn : 2 ≤ 2 ^ n := by
    calc 2 = 2 ^ 1 := rfl
      _ ≤ 2 ^ n := Nat.pow_le_pow_right (by norm_num) hn1
  have hpn' : 2 ^ n ≤ 64 := by
    calc 2 ^ n ≤ 2 ^ 6 := Nat.pow_le_pow_right (by norm_num) hn
      _ = 64 := rfl
  have hd : Option.map₂ (· - ·) (s.phi 1) (s.phi s.idx) = some (1 / 2 ^ n * (b - a)) := by
    rw [hs.idx, hs.h1, hs.last]
    simp only [Option.map₂_some_some, part]
    congr 1
    ring
  have hv : Option.map₂ (fun x d => x + d / 2) (s.phi 0) (some (1 / 2 ^ n * (b - a))) = some (part a b (1 / 2 ^ (n + 1))) := by
    rw [hs.h0]
    simp only [Option.map₂_some_some, part]
    congr 1
    rw [pow_succ]
    field_simp
  set s1 := s.push (some (part a b (1 / 2 ^ (n + 1)))) with hs1
  have hidx : s1.idx = 2 ^ n + 1 := by rw [hs1]; simp only [Sw.push, hs.idx]
  have hold : ∀ i, i ≤ s.idx → s1.phi i = s.phi i := by
    intro i hi
    rw [hs1]
    simp only [Sw.push]
    rw [Function.update_of_ne (by omega)]
  have hcur : s1.phi s1.idx = some (part a b (1 / 2 ^ (n + 1))) := by rw [hs1]; simp [Sw.push]
  have ht : turn ok s = if ok (some (part a b (1 / 2 ^ (n + 1)))) then
      match inner ok (less (some 0) (some (1 / 2 ^ n * (b - a)))) (some (1 / 2 ^ n * (b - a))) 129 s1 with
      | none => none
      | some s => some (if s.idx < 129 then ⟨s.phi, s.idx - 1⟩ else s) else none := by
    unfold turn
    simp only [hd, hv, ← hs1, hcur]
    rfl
  have hfr : ∀ j : ℕ, (1 : ℝ) / 2 ^ (n + 1) + j * (1 / 2 ^ n) = (2 * j + 1) / 2 ^ (n + 1) := by
    intro j
    rw [pow_succ]
    field_simp
    ring
  have hi := inner_spec (ok := ok) hab (d := 1 / 2 ^ n) (by positivity) (2 ^ n) 129 (1 / 2 ^ (n + 1)) s1 (by omega) (by omega)
    (by rw [hold 0 (by omega), hs.h0]) (by rw [hold 1 (by rw [hs.idx]; omega), hs.h1]) hcur (by omega)
    (by
      intro j hj
      rw [hfr, div_lt_one (by positivity)]
      have : ((2 * j + 1 : ℕ) : ℝ) < ((2 ^ (n + 1) : ℕ) : ℝ) := by
        rw [Nat.cast_lt, pow_succ]; omega
      push_cast at this
      exact this)
    (by
      rw [hfr, one_le_div (by positivity)]
      push_cast
      rw [pow_succ]
      linarith)
  simp only [hfr] at hi
  have h00 : (1 : ℝ) / 2 ^ (n + 1) = (2 * (0 : ℕ) + 1) / 2 ^ (n + 1) := by norm_num
  rw [ht]
  constructor
  · intro hl
    rw [if_pos (by rw [h00]; exact hl 0 (by omega))]
    obtain ⟨s', e, e1, e2, e3⟩ := hi.1 (fun j _ h => hl j h)
    rw [e]
    refine ⟨_, rfl, fun h6 => ?_, fun h6 => ?_⟩
    · rw [if_neg (by rw [e1, hidx, h6]; norm_num), e1, hidx, h6]; norm_num
    · have hsmall : 2 ^ n ≤ 32 := by
        calc 2 ^ n ≤ 2 ^ 5 := Nat.pow_le_pow_right (by norm_num) (by omega)
          _ = 32 := rfl
      rw [if_pos (by rw [e1, hidx]; omega)]
      have hpow : 2 ^ (n + 1) = 2 ^ n + 2 ^ n := by rw [pow_succ]; ring
      refine ⟨?_, ?_, ?_, ?_⟩
      · simp only; rw [e1, hidx, hpow]; omega
      · simp only; rw [e2 0 (by omega), hold 0 (by omega), hs.h0]
      · simp only; rw [e2 1 (by omega), hold 1 (by rw [hs.idx]; omega), hs.h1]
      · simp only
        have := e3 (2 ^ n - 1) (by omega)
        rw [hidx, show 2 ^ n + 1 + (2 ^ n - 1) = 2 ^ (n + 1) by rw [hpow]; omega] at this
        rw [this]
        congr 2
        rw [Nat.cast_sub (by omega), pow_succ]
        push_cast
        field_simp
        ring
  · intro hl
    unfold Lev at hl
    push Not at hl
    obtain ⟨j, hj, hbad⟩ := hl
    by_cases h0 : ok (some (part a b (1 / 2 ^ (n + 1))))
    · rw [if_pos h0]
      have hj0 : j ≠ 0 := by
        rintro rfl
        apply hbad
        rwa [← h00]
      rw [hi.2 ⟨j, by omega, hj, hbad⟩]
    · rw [if_neg h0]

theorem loop_spec (hab : b - a ≠ 0) (k : ℕ) : ∀ (n m : ℕ) (s : Sw), 1 ≤ n → n + k = 6 → k + 1 ≤ m → Inv a b n s →
    ((∀ i, n ≤ i → i ≤ 6 → Lev ok a b i) → loop ok m s = .through) ∧
    ((∃ i, n ≤ i ∧ i ≤ 6 ∧ ¬ Lev ok a b i) → loop ok m s = .gone) := by
  induction k with
  | zero =>
    intro n m s hn hk hm hs
    obtain rfl : n = 6 := by omega
    obtain ⟨m, rfl⟩ : ∃ m', m = m' + 1 := ⟨m - 1, by omega⟩
    have hlt : s.idx < 129 := by rw [hs.idx]; norm_num
    have ht := turn_spec (ok := ok) hab hn le_rfl hs
    constructor
    · intro h
      obtain ⟨s', e, e1, -⟩ := ht.1 (h 6 le_rfl le_rfl)
      unfold loop
      rw [if_pos hlt, e]
      simp only
      cases m with
      | zero => unfold loop; rw [if_neg (by rw [e1 rfl]; omega)]
      | succ m => unfold loop; rw [if_neg (by rw [e1 rfl]; omega)]
    · rintro ⟨i, h1, h2, h3⟩
      obtain rfl : i = 6 := by omega
      unfold loop
      rw [if_pos hlt, ht.2 h3]
  | succ k ih =>
    intro n m s hn hk hm hs
    obtain ⟨m, rfl⟩ : ∃ m', m = m' + 1 := ⟨m - 1, by omega⟩
    have hlt : s.idx < 129 := by
      rw [hs.idx]
      calc 2 ^ n ≤ 2 ^ 6 := Nat.pow_le_pow_right (by norm_num) (by omega)
        _ < 129 := by norm_num
    have ht := turn_spec (ok := ok) hab hn (by omega) hs
    constructor
    · intro h
      obtain ⟨s', e, -, e1⟩ := ht.1 (h n le_rfl (by omega))
      unfold loop
      rw [if_pos hlt, e]
      exact (ih (n + 1) m s' (by omega) (by omega) (by omega) (e1 (by omega))).1 (fun i h1 h2 => h i (by omega) h2)
    · rintro ⟨i, h1, h2, h3⟩
      unfold loop
      rw [if_pos hlt]
      by_cases hl : Lev ok a b n
      · obtain ⟨s', e, -, e1⟩ := ht.1 hl
        rw [e]
        refine (ih (n + 1) m s' (by omega) (by omega) (by omega) (e1 (by omega))).2 ⟨i, ?_, h2, h3⟩
        have : i ≠ n := by rintro rfl; exact h3 hl
        omega
      · rw [ht.2 hl]

theorem begin0_inv (a b : ℝ) : Inv a b 1 (begin0 (some a) (some b)) := by
  refine ⟨rfl, rfl, rfl, ?_⟩
  simp only [begin0, part]
  norm_num
  ring

theorem begin0_mid (a b : ℝ) : (begin0 (some a) (some b)).phi (begin0 (some a) (some b)).idx = some (part a b (1 / 2)) := by
  simp only [begin0, part]
  norm_num
  ring

theorem tested_iff : Tested ok a b ↔ ok (some (part a b (1 / 2))) ∧ ∀ i, 1 ≤ i → i ≤ 6 → Lev ok a b i := by
  have frac : ∀ i j : ℕ, i ≤ 6 → ((2 * j + 1 : ℝ) / 2 ^ (i + 1)) = (((2 * j + 1) * 2 ^ (6 - i) : ℕ) : ℝ) / 128 := by
    intro i j hi
    have : (128 : ℝ) = 2 ^ (i + 1) * 2 ^ (6 - i) := by
      rw [← pow_add, show i + 1 + (6 - i) = 7 by omega]; norm_num
    push_cast
    rw [this]
    field_simp
  constructor
  · rintro ⟨h1, h2⟩
    refine ⟨?_, fun i hi1 hi6 j hj => ?_⟩
    · have := h1 64 (by norm_num) (by norm_num)
      norm_num at this ⊢
      exact this
    · rcases Nat.lt_or_ge j (2 ^ i) with hlt | hge
      · rw [frac i j hi6]
        refine h1 _ ?_ ?_
        · have : 0 < 2 ^ (6 - i) := by positivity
          nlinarith
        · have e : (2 ^ i) * 2 ^ (6 - i) = 64 := by rw [← pow_add, show i + (6 - i) = 6 by omega]; norm_num
          have h1 : 2 * j + 1 ≤ 2 * 2 ^ i - 1 := by omega
          have h2 : (2 * j + 1) * 2 ^ (6 - i) ≤ (2 * 2 ^ i - 1) * 2 ^ (6 - i) := Nat.mul_le_mul_right _ h1
          rw [Nat.sub_mul, mul_assoc, e] at h2
          have : 0 < 2 ^ (6 - i) := by positivity
          omega
      · obtain rfl : j = 2 ^ i := by omega
        have := h2 (i + 1) (by omega) (by omega)
        rw [show ((2 * ((2 ^ i : ℕ) : ℝ) + 1) / 2 ^ (i + 1)) = 1 + 1 / 2 ^ (i + 1) by
          push_cast; rw [pow_succ]; field_simp]
        exact this
  · rintro ⟨h0, h⟩
    refine ⟨fun k hk1 hk2 => ?_, fun m hm1 hm2 => ?_⟩
    · obtain ⟨t, o, ho, rfl⟩ := Nat.exists_eq_two_pow_mul_odd (n := k) (by omega)
      obtain ⟨j, rfl⟩ := ho
      have ht : t ≤ 6 := by
        by_contra hc
        have : 2 ^ 7 ≤ 2 ^ t := Nat.pow_le_pow_right (by norm_num) (by omega)
        nlinarith
      have hf := frac (6 - t) j (by omega)
      rw [show 6 - (6 - t) = t by omega] at hf
      rw [Nat.mul_comm (2 ^ t), ← hf]
      rcases Nat.eq_zero_or_pos (6 - t) with hz | hpos
      · have : t = 6 := by omega
        subst this
        obtain rfl : j = 0 := by omega
        norm_num
        norm_num at h0
        exact h0
      · refine h (6 - t) hpos (by omega) j ?_
        have e : (2 ^ (6 - t)) * 2 ^ t = 64 := by rw [← pow_add, show 6 - t + t = 6 by omega]; norm_num
        have : 0 < 2 ^ t := by positivity
        by_contra hc
        have h3 : (2 ^ (6 - t) + 1) * 2 ^ t ≤ j * 2 ^ t := Nat.mul_le_mul_right _ (by omega)
        rw [add_mul, e] at h3
        nlinarith
    · have := h (m - 1) (by omega) (by omega) (2 ^ (m - 1)) le_rfl
      rw [show m - 1 + 1 = m by omega] at this
      rw [show (1 + 1 / 2 ^ m : ℝ) = (2 * ((2 ^ (m - 1) : ℕ) : ℝ) + 1) / 2 ^ m by
        have : (2 : ℝ) ^ m = 2 * 2 ^ (m - 1) := by rw [← pow_succ', show m - 1 + 1 = m by omega]
        push_cast
        rw [this]; field_simp]
      exact this

theorem loop_begin (hab : b - a ≠ 0) {m : ℕ} (hm : 6 ≤ m) (h0 : ok (some (part a b (1 / 2)))) :
    (Tested ok a b → loop ok m (begin0 (some a) (some b)) = .through) ∧
    (¬ Tested ok a b → loop ok m (begin0 (some a) (some b)) = .gone) := by
  have h := loop_spec (ok := ok) hab 5 1 m _ le_rfl (by norm_num) (by omega) (begin0_inv a b)
  rw [tested_iff]
  refine ⟨fun ht => h.1 ht.2, fun ht => h.2 ?_⟩
  by_contra hc
  push Not at hc
  exact ht ⟨h0, fun i h1 h2 => hc i h1 h2⟩

theorem sweep_spec (hab : a ≠ b) {m : ℕ} (hm : 6 ≤ m) :
    (Tested ok a b → sweep ok m (some a) (some b) = .through) ∧
    (¬ Tested ok a b → sweep ok m (some a) (some b) = .gone) := by
  have hab' : b - a ≠ 0 := sub_ne_zero.2 hab.symm
  unfold sweep
  simp only [begin0_mid]
  by_cases h0 : ok (some (part a b (1 / 2)))
  · rw [if_pos h0]
    exact loop_begin hab' hm h0
  · rw [if_neg h0]
    refine ⟨fun h => absurd (tested_iff.1 h).1 h0, fun _ => rfl⟩

/-- with angles that are not numbers the loop does not end -/
theorem sweep_nan (h : ok none) (m : ℕ) : sweep ok m none none = .running := by
  unfold sweep
  have key : ∀ (m : ℕ) (s : Sw), s.idx = 2 → s.phi 0 = none → s.phi 1 = none → s.phi 2 = none → loop ok m s = .running := by
    intro m
    induction m with
    | zero => intro s h2 _ _ _; unfold loop; rw [if_pos (by omega)]
    | succ m ih =>
      intro s hi h0 h1 h2
      unfold loop
      rw [if_pos (by omega)]
      have : turn ok s = some ⟨(s.push none).phi, 2⟩ := by
        unfold turn
        simp only [h1, Option.map₂_none_left, h0, hi]
        have e : (s.push none).phi (s.push none).idx = none := by simp [Sw.push]
        have e1 : (s.push none).phi 1 = none := by
          simp only [Sw.push]; rw [Function.update_of_ne (by omega), h1]
        rw [e, if_pos h]
        have : inner ok (less (some 0) none) none 129 (s.push none) = some (s.push none) := by
          unfold inner
          rw [if_neg]
          rintro ⟨hc, -⟩
          rw [e, e1] at hc
          simp [less] at hc
        rw [this]
        simp only
        rw [if_pos (by simp only [Sw.push]; omega)]
        simp only [Sw.push, hi]
      rw [this]
      refine ih _ rfl ?_ ?_ ?_ <;> simp only [Sw.push] <;> rw [Function.update_of_ne (by omega)] <;> assumption
  have e : (begin0 none none).phi (begin0 none none).idx = none := by simp [begin0]
  simp only [e]
  rw [if_pos h]
  exact key m _ rfl rfl rfl (by simp [begin0])

end Verif.McFermi
