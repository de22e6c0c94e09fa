import Verif.Lemmas.MtPeriod
import Mathlib.Tactic.FieldSimp
import Mathlib.Algebra.Order.Field.Basic
import Mathlib.Tactic.Linarith
import Mathlib.Tactic.NormNum
/-!
The random numbers of the McStas components and their seeds.

C191: the words are those of the generator MT19937.  C192: the random numbers are in their ranges, and every word is possible.  C193: the
words have a period without transient, and are not zero from some point on.  C194: different seeds give different words, but different
nodes may have the same seed.  C195: the seed of the old generator.
-/

namespace Verif.MtRandom
open MtSpec (IsMT)

/-! ### C191 -/

/-- After `srandom(s)`, whatever was done before, call number `n` gives the tempered word number `624 + n` of the sequence MT19937 for the
seed `s` modulo 2³². -/
theorem C191_stream (st : State) (s : Word) :
    ∃ x, IsMT (s.setWidth 32) x ∧ ∀ n, output (srandom st s) n = (MtSpec.temper (x (624 + n))).setWidth 64 :=
  ⟨seq _, seq_isMT _, fun n => output_at (seq_isMT _) (at_srandom (seq_isMT _) st s rfl) n⟩

/-- Without a seed the words are those for the seed 5489, in each process. -/
theorem C191_default (n : Nat) : output State.start n = output (srandom State.start 5489) n := start_output _ rfl n

/-- There is only one sequence for a seed, so `C191_stream` determines the words. -/
theorem C191_unique {s : BitVec 32} {x y : Nat → BitVec 32} (hx : IsMT s x) (hy : IsMT s y) : x = y := by
  have h1 : ∀ j, j < 624 → x j = y j := by
    intro j
    induction j with
    | zero => intro _; rw [hx.first, hy.first]
    | succ j ih => intro hj; rw [hx.init j hj, hy.init j hj, ih (by omega)]
  funext n
  have := forward hx.step hy.step 0 0 (fun j hj => by simpa using h1 j hj) n
  simpa using this

/-- the first words for the default seed, computed from the definition of the sequence -/
example : ∃ x, IsMT 5489 x ∧ x 0 = 5489 ∧ x 1 = 1301868182 ∧ x 2 = 2938499221 := by
  refine ⟨seq 5489, seq_isMT _, (seq_isMT _).first, ?_, ?_⟩
  · rw [(seq_isMT 5489).init 0 (by omega), (seq_isMT 5489).first]; decide
  · rw [(seq_isMT 5489).init 1 (by omega), (seq_isMT 5489).init 0 (by omega), (seq_isMT 5489).first]; decide

/-! ### C192 -/

/-- Every word that is produced has 32 bits, after any seed and without a seed. -/
theorem C192_range (st : State) (s : Word) (n : Nat) : (output (srandom st s) n).toNat < 2 ^ 32 ∧ (output State.start n).toNat < 2 ^ 32 := by
  have h : ∀ st s, (output (srandom st s) n).toNat < 2 ^ 32 := by
    intro st s
    obtain ⟨x, _, h⟩ := C191_stream st s
    rw [h n, BitVec.toNat_setWidth]
    have := (MtSpec.temper (x (624 + n))).isLt
    omega
  exact ⟨h _ _, by rw [C191_default]; exact h _ _⟩

/-- The random numbers are in their half open ranges: in particular `rand01()` is never 1. -/
theorem C192_numbers (st : State) (s : Word) (n : Nat) :
    let w := output (srandom st s) n
    (0 ≤ rand01 w ∧ rand01 w < 1) ∧ (-1 ≤ randpm1 w ∧ randpm1 w < 1) ∧
    (∀ a b : ℚ, a < b → a ≤ randminmax a b w ∧ randminmax a b w < b) ∧ randpm1 w = 2 * rand01 w - 1 ∧
    (∀ m : ℚ, rand0max m w = m * rand01 w) := by
  intro w
  have h := (C192_range st s n).1
  have h0 : (0 : ℚ) ≤ w.toNat := Nat.cast_nonneg _
  have h1 : ((w.toNat : ℕ) : ℚ) < 2 ^ 32 := by exact_mod_cast h
  have e : (0xffffffff : ℚ) + 1 = 2 ^ 32 := by norm_num
  have r0 : 0 ≤ rand01 w := by unfold rand01; rw [e]; exact div_nonneg h0 (by norm_num)
  have r1 : rand01 w < 1 := by unfold rand01; rw [e, div_lt_iff₀ (by norm_num)]; linarith
  have rp : randpm1 w = 2 * rand01 w - 1 := by unfold randpm1 rand01; rw [e]; ring
  have rm : ∀ m : ℚ, rand0max m w = m * rand01 w := by intro m; unfold rand0max rand01; rw [e, div_div_eq_mul_div]; ring
  refine ⟨⟨r0, r1⟩, ⟨by rw [rp]; linarith, by rw [rp]; linarith⟩, fun a b hab => ?_, rp, rm⟩
  unfold randminmax
  rw [rm]
  have : (b - a) * rand01 w < (b - a) * 1 := mul_lt_mul_of_pos_left r1 (by linarith)
  have : 0 ≤ (b - a) * rand01 w := mul_nonneg (by linarith) r0
  constructor <;> linarith

/-- Tempering loses nothing: each word of 32 bits is the result for exactly one word of the state. -/
theorem C192_bijective : Function.Bijective MtSpec.temper :=
  Finite.injective_iff_bijective.1 temper_injective

/-- the lowest and the highest word that is possible -/
example : rand01 0 = 0 ∧ rand01 0xffffffff = 4294967295 / 4294967296 := by
  have h : (0xffffffff : Word).toNat = 4294967295 := by decide
  have h0 : (0 : Word).toNat = 0 := by decide
  constructor
  · norm_num [rand01, h0]
  · norm_num [rand01, h]

/-! ### C193 -/

/-- The words repeat with a period, from the first call on; and they never become zero for ever. -/
theorem C193_period (st : State) (s : Word) :
    (∃ P, 0 < P ∧ ∀ n, output (srandom st s) (n + P) = output (srandom st s) n) ∧
    ∀ N, ∃ n, N ≤ n ∧ output (srandom st s) n ≠ 0 := by
  obtain ⟨x, hx, h⟩ := C191_stream st s
  constructor
  · obtain ⟨P, hP, hp⟩ := periodic hx.step
    refine ⟨P, hP, fun n => ?_⟩
    rw [h, h]
    have := hp (623 + n)
    rw [show 624 + (n + P) = 623 + n + 1 + P by omega, this, show 623 + n + 1 = 624 + n by omega]
  · intro N
    obtain ⟨n, hn, hz⟩ := not_zero hx (624 + N)
    refine ⟨n - 624, by omega, ?_⟩
    rw [h, show 624 + (n - 624) = n by omega]
    intro h0
    have e : (0 : Word) = z (MtSpec.temper 0) := by decide
    rw [e] at h0
    exact hz (temper_injective (z_inj h0))

/-- 624 words in succession determine all that follow, whatever the seeds. -/
theorem C193_state (st st' : State) (s s' : Word) (a b : Nat) (h : ∀ j < 624, output (srandom st s) (a + j) = output (srandom st' s') (b + j))
    (n : Nat) : output (srandom st s) (a + n) = output (srandom st' s') (b + n) := by
  obtain ⟨x, hx, hX⟩ := C191_stream st s
  obtain ⟨y, hy, hY⟩ := C191_stream st' s'
  rw [hX, hY]
  have := forward hx.step hy.step (624 + a) (624 + b) (fun j hj => by
    have := h j hj
    rw [hX, hY] at this
    have := temper_injective (z_inj this)
    rwa [show 624 + (a + j) = 624 + a + j by omega, show 624 + (b + j) = 624 + b + j by omega] at this) n
  rw [show 624 + (a + n) = 624 + a + n by omega, show 624 + (b + n) = 624 + b + n by omega, this]

/-- a case of the hypothesis of `C193_state` -/
example : ∀ j < 624, output (srandom State.start 7) (3 + j) = output (srandom ⟨fun _ => 1, 2⟩ (7 + 2 ^ 32)) (3 + j) := by
  intro j _
  obtain ⟨x, hx, hX⟩ := C191_stream State.start 7
  obtain ⟨y, hy, hY⟩ := C191_stream ⟨fun _ => 1, 2⟩ (7 + 2 ^ 32)
  have e : ((7 : Word) + 2 ^ 32).setWidth 32 = (7 : Word).setWidth 32 := by decide
  rw [e] at hy
  rw [hX, hY, C191_unique hx hy]

/-! ### C194 -/

/-- Two seeds give the same words only if they are the same modulo 2³²; then they do. -/
theorem C194_seeds (st st' : State) (s s' : Word) :
    (∀ n, output (srandom st s) n = output (srandom st' s') n) ↔ s.setWidth 32 = s'.setWidth 32 := by
  obtain ⟨x, hx, hX⟩ := C191_stream st s
  obtain ⟨y, hy, hY⟩ := C191_stream st' s'
  constructor
  · intro h
    have hw : ∀ j < 624, x (623 + 1 + j) = y (623 + 1 + j) := by
      intro j _
      have := h j
      rw [hX, hY] at this
      exact temper_injective (z_inj this)
    exact seed_injective hx hy (back_all hx.step hy.step 623 hw 0)
  · intro h n
    rw [← h] at hy
    rw [hX, hY, C191_unique hx hy]

/-- Nodes that ask for the time in the same microsecond have different random numbers.  (Missing: different times, see
`C194_nodes_false`.) -/
theorem C194_nodes_partial (st st' : State) (us rank rank' : Nat) (h : rank ≠ rank') (hr : rank < 2 ^ 31) (hr' : rank' < 2 ^ 31) :
    ∃ n, output (pySrandom st (BitVec.ofNat 32 (usetimerP us rank))) n ≠ output (pySrandom st' (BitVec.ofNat 32 (usetimerP us rank'))) n := by
  by_contra hno
  have hall : ∀ n, output (pySrandom st (BitVec.ofNat 32 (usetimerP us rank))) n =
      output (pySrandom st' (BitVec.ofNat 32 (usetimerP us rank'))) n := fun n => by
    by_contra hn; exact hno ⟨n, hn⟩
  have := (C194_seeds st st' _ _).1 hall
  rw [z_setWidth, z_setWidth] at this
  have := congrArg BitVec.toNat this
  simp only [BitVec.toNat_ofNat, usetimerP, usetimer] at this
  omega

example : (0 : Nat) ≠ 1 ∧ (0 : Nat) < 2 ^ 31 ∧ (1 : Nat) < 2 ^ 31 := by decide

/-- Two nodes of a run may work with the same random numbers: if node 0 asks for the time one microsecond after node 1. -/
theorem C194_nodes_false : ¬ ∀ us us' rank rank' : Nat, rank ≠ rank' → rank < 2 ^ 31 → rank' < 2 ^ 31 →
    ∃ n, output (pySrandom State.start (BitVec.ofNat 32 (usetimerP us rank))) n ≠
      output (pySrandom State.start (BitVec.ofNat 32 (usetimerP us' rank'))) n := by
  intro h
  obtain ⟨n, hn⟩ := h 1000001 1000000 0 1 (by decide) (by decide) (by decide)
  exact hn rfl

/-- There are few seeds: with 65537 runs on one node, whatever the times, two have the same random numbers. -/
theorem C194_runs_few (us : Nat → Nat) : ∃ i j, i < j ∧ j ≤ 65536 ∧
    ∀ n, output (pySrandom State.start (BitVec.ofNat 32 (usetimerP (us i) 0))) n =
      output (pySrandom State.start (BitVec.ofNat 32 (usetimerP (us j) 0))) n := by
  obtain ⟨a, b, hab, e⟩ := Fintype.exists_ne_map_eq_of_card_lt
    (fun i : Fin 65537 => (⟨us i % 2 ^ 16, Nat.mod_lt _ (by decide)⟩ : Fin 65536)) (by simp)
  have e : us a % 2 ^ 16 = us b % 2 ^ 16 := congrArg Fin.val e
  have hne : (a : ℕ) ≠ b := fun h => hab (Fin.ext h)
  rcases Nat.lt_or_gt_of_ne hne with h | h
  · exact ⟨a, b, h, by omega, fun n => by simp only [usetimerP, usetimer, e]⟩
  · exact ⟨b, a, h, by omega, fun n => by simp only [usetimerP, usetimer, e]⟩

/-! ### C195 -/

/-- The multiplication without overflow in the seed of the old generator: for every value of `int` the result is congruent to 16807 times
the value modulo 2³¹ - 1, and in the range of `int` again; all intermediate results fit into 32 bits. -/
theorem C195_partial (s : ℤ) (h : -2 ^ 31 ≤ s) (h' : s < 2 ^ 31) :
    (2147483647 : ℤ) ∣ schrage s - 16807 * s ∧ 0 ≤ schrage s ∧ schrage s < 2147483647 ∧
    |16807 * s.tmod 127773 - 2836 * s.tdiv 127773| < 2 ^ 31 := by
  have hd : s.tmod 127773 + 127773 * s.tdiv 127773 = s := Int.tmod_add_mul_tdiv s 127773
  unfold schrage
  generalize s.tdiv 127773 = hi at *
  have hlo : (0 ≤ s → 0 ≤ s.tmod 127773 ∧ s.tmod 127773 < 127773) ∧ (s ≤ 0 → -127773 < s.tmod 127773 ∧ s.tmod 127773 ≤ 0) := by
    refine ⟨fun h0 => ⟨Int.tmod_nonneg _ h0, Int.tmod_lt_of_pos _ (by norm_num)⟩, fun h0 => ?_⟩
    have e : s.tmod 127773 = -((-s).tmod 127773) := by rw [Int.neg_tmod, neg_neg]
    have a := Int.tmod_nonneg 127773 (show 0 ≤ -s by omega)
    have b := Int.tmod_lt_of_pos (-s) (show (0 : ℤ) < 127773 by norm_num)
    omega
  generalize s.tmod 127773 = lo at *
  obtain ⟨h1, h2⟩ := hlo
  simp only
  refine ⟨?_, ?_, ?_, ?_⟩
  · split_ifs
    · exact ⟨-hi + 1, by subst hd; ring⟩
    · exact ⟨-hi, by subst hd; ring⟩
  · split_ifs <;> rcases le_total 0 s with hs | hs <;> first | (have := h1 hs; omega) | (have := h2 hs; omega)
  · split_ifs <;> rcases le_total 0 s with hs | hs <;> first | (have := h1 hs; omega) | (have := h2 hs; omega)
  · rw [abs_lt]
    rcases le_total 0 s with hs | hs
    · have := h1 hs; omega
    · have := h2 hs; omega

example : (-2 ^ 31 : ℤ) ≤ -5 ∧ (-5 : ℤ) < 2 ^ 31 ∧ schrage (-5) = 2147399612 := by decide

/-- A seed that is not 0 may still give a state of zeros, which the replacement of the seed 0 is to avoid: 2³¹ - 1 does. -/
theorem C195_false : ¬ ∀ x : BitVec 32, ∃ i, 0 < i ∧ i < 31 ∧ mcState x i ≠ 0 := by
  intro h
  obtain ⟨i, h0, _, hi⟩ := h 2147483647
  apply hi
  obtain ⟨k, rfl⟩ : ∃ k, i = k + 1 := ⟨i - 1, by omega⟩
  clear h h0 hi
  induction k with
  | zero => decide
  | succ k ih => rw [mcState, ih (by omega)]; decide

end Verif.MtRandom
