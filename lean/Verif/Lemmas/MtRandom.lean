import Verif.Model.MtRandom
import Verif.Spec.MtRandom
import Mathlib.Tactic.Ring
import Mathlib.Tactic.IntervalCases
/-! Helper lemmas for `Verif.Props.MtRandom`. -/

namespace Verif.MtRandom
open MtSpec (IsMT A)

/-- a word of 32 bits as `unsigned long` -/
abbrev z (x : BitVec 32) : Word := x.setWidth 64

theorem z_inj {a b : BitVec 32} (h : z a = z b) : a = b := by
  apply BitVec.eq_of_getLsbD_eq
  intro i hi
  have := congrArg (fun w => BitVec.getLsbD w i) h
  simpa [z, show i < 64 by omega] using this

theorem z_xor (a b : BitVec 32) : z a ^^^ z b = z (a ^^^ b) := by simp [z]

theorem z_or (a b : BitVec 32) : z a ||| z b = z (a ||| b) := by simp [z]

theorem z_and (a b : BitVec 32) : z a &&& z b = z (a &&& b) := by simp [z]

theorem z_ushr (a : BitVec 32) (k : Nat) : z a >>> k = z (a >>> k) := by
  apply BitVec.eq_of_getLsbD_eq
  intro i hi
  by_cases h : k + i < 64
  · simp [z, hi, h]
  · have : a.getLsbD (k + i) = false := BitVec.getLsbD_of_ge _ _ (by omega)
    simp [z, hi, this]

theorem z_shl_and (a m : BitVec 32) (k : Nat) : (z a <<< k) &&& z m = z ((a <<< k) &&& m) := by
  apply BitVec.eq_of_getLsbD_eq
  intro i hi
  by_cases h : i < 32
  · by_cases h' : i < k
    · simp [z, hi, h, h']
    · simp [z, hi, h, h', BitVec.getLsbD_eq_getElem (show i - k < 32 by omega)]
  · have : m.getLsbD i = false := BitVec.getLsbD_of_ge _ _ (by omega)
    simp [z, hi, this]

theorem z_trunc (w : Word) : w &&& 0xffffffff = z (w.setWidth 32) := by
  apply BitVec.eq_of_toNat_eq
  simp only [z, BitVec.toNat_and, BitVec.toNat_setWidth]
  have e : (0xffffffff : Word).toNat = 2 ^ 32 - 1 := by decide
  rw [e, Nat.and_two_pow_sub_one_eq_mod]
  omega

theorem z_setWidth (a : BitVec 32) : (z a).setWidth 32 = a := by simp [z]

theorem temper_z (y : BitVec 32) : temper (z y) = z (MtSpec.temper y) := by
  have e1 : (0x9d2c5680 : Word) = z 0x9d2c5680 := by decide
  have e2 : (0xefc60000 : Word) = z 0xefc60000 := by decide
  simp only [temper, MtSpec.temper, e1, e2, z_ushr, z_xor, z_shl_and]

theorem mix_z (a b : BitVec 32) : (joined (z a) (z b) >>> 1) ^^^ mag01 (joined (z a) (z b)) = z (A (MtSpec.joined a b)) := by
  have e1 : upperMask = z 0x80000000 := by decide
  have e2 : lowerMask = z 0x7fffffff := by decide
  have e3 : matrixA = z 0x9908b0df := by decide
  have e4 : (0 : Word) = z 0 := by decide
  have e5 : (1 : Word) = z 1 := by decide
  have hj : joined (z a) (z b) = z (MtSpec.joined a b) := by
    simp only [joined, MtSpec.joined, e1, e2, z_and, z_or]
  rw [hj]
  generalize MtSpec.joined a b = y
  have hm : mag01 (z y) = z (if y.getLsbD 0 then 0x9908b0df else 0) := by
    unfold mag01
    have hb : (z y &&& 1 = 0) ↔ y.getLsbD 0 = false := by
      constructor
      · intro h
        have := congrArg (fun w => BitVec.getLsbD w 0) h
        simpa [z] using this
      · intro h
        apply BitVec.eq_of_getLsbD_eq
        intro i hi
        rcases Nat.eq_zero_or_pos i with rfl | hp
        · simpa [z] using h
        · simp [hp.ne']
    by_cases h : y.getLsbD 0 = true
    · rw [if_neg (by rw [hb, h]; simp), if_pos h, e3]
    · rw [if_pos (by rw [hb]; simpa using h), if_neg h, e4]
  rw [hm, z_ushr, z_xor]
  rfl

/-! ### the seed -/

theorem seed_loop (x : Nat → BitVec 32) (a : Nat → Word) (n : Nat) (h0 : a 0 = z (x 0))
    (hx : ∀ i, i < n → x (i + 1) = 1812433253#32 * (x i ^^^ (x i >>> 30)) + BitVec.ofNat 32 (i + 1)) :
    ∀ j ≤ n, (List.range n).foldl seedTurn a j = z (x j) := by
  induction n with
  | zero => intro j hj; obtain rfl : j = 0 := by omega
            simpa using h0
  | succ n ih =>
    have ih := ih (fun i hi => hx i (by omega))
    intro j hj
    rw [List.range_succ, List.foldl_append]
    simp only [List.foldl_cons, List.foldl_nil]
    generalize (List.range n).foldl seedTurn a = b at ih
    unfold seedTurn
    simp only [set]
    by_cases h : j = n + 1
    · subst h
      simp only [if_true]
      rw [z_trunc, ih n le_rfl]
      congr 1
      rw [BitVec.setWidth_add _ _ (by omega), BitVec.setWidth_mul _ _ (by omega), z_ushr, z_xor, z_setWidth, hx n (by omega)]
      congr 1
      apply BitVec.eq_of_toNat_eq
      simp
    · simp only [h, if_false]
      exact ih j (by omega)

/-! ### one block -/

theorem loop1 (x : Nat → BitVec 32) (b : Nat) (hx : ∀ k, x (k + 624) = x (k + 397) ^^^ A (MtSpec.joined (x k) (x (k + 1))))
    (a : Nat → Word) (ha : ∀ j < 624, a j = z (x (b + j))) (n : Nat) (hn : n ≤ 227) :
    ∀ j < 624, (List.range n).foldl twist1 a j = z (x (if j < n then b + 624 + j else b + j)) := by
  induction n with
  | zero => intro j hj; simpa using ha j hj
  | succ n ih =>
    have ih := ih (by omega)
    intro j hj
    rw [List.range_succ, List.foldl_append]
    simp only [List.foldl_cons, List.foldl_nil]
    generalize (List.range n).foldl twist1 a = c at ih
    unfold twist1
    simp only [set]
    by_cases h : j = n
    · subst h
      rw [if_pos rfl, if_pos (by omega), ih (j + 397) (by omega), ih j hj, ih (j + 1) (by omega), if_neg (by omega), if_neg (by omega),
        if_neg (by omega), BitVec.xor_assoc, mix_z, z_xor, show b + 624 + j = (b + j) + 624 by omega, hx (b + j),
        show b + (j + 397) = b + j + 397 by omega, show b + (j + 1) = b + j + 1 by omega]
    · rw [if_neg h, ih j hj]
      by_cases h' : j < n
      · rw [if_pos h', if_pos (by omega)]
      · rw [if_neg h', if_neg (by omega)]

theorem loop2 (x : Nat → BitVec 32) (b : Nat) (hx : ∀ k, x (k + 624) = x (k + 397) ^^^ A (MtSpec.joined (x k) (x (k + 1))))
    (a : Nat → Word) (ha : ∀ j < 624, a j = z (x (if j < 227 then b + 624 + j else b + j))) (n : Nat) (hn : n ≤ 396) :
    ∀ j < 624, (List.range n).foldl twist2 a j = z (x (if j < 227 + n then b + 624 + j else b + j)) := by
  induction n with
  | zero => intro j hj; simpa using ha j hj
  | succ n ih =>
    have ih := ih (by omega)
    intro j hj
    rw [List.range_succ, List.foldl_append]
    simp only [List.foldl_cons, List.foldl_nil]
    generalize (List.range n).foldl twist2 a = c at ih
    unfold twist2
    simp only [set]
    by_cases h : j = 227 + n
    · subst h
      rw [if_pos rfl, if_pos (by omega), ih (227 + n - 227) (by omega), ih (227 + n) hj, ih (227 + n + 1) (by omega), if_pos (by omega),
        if_neg (by omega), if_neg (by omega), BitVec.xor_assoc, mix_z, z_xor, show b + 624 + (227 + n) = (b + 227 + n) + 624 by omega,
        hx (b + 227 + n), show b + 624 + (227 + n - 227) = b + 227 + n + 397 by omega, show b + (227 + n) = b + 227 + n by omega,
        show b + (227 + n + 1) = b + 227 + n + 1 by omega]
    · rw [if_neg h, ih j hj]
      by_cases h' : j < 227 + n
      · rw [if_pos h', if_pos (by omega)]
      · rw [if_neg h', if_neg (by omega)]

theorem twist_eq (x : Nat → BitVec 32) (b : Nat) (hx : ∀ k, x (k + 624) = x (k + 397) ^^^ A (MtSpec.joined (x k) (x (k + 1))))
    (a : Nat → Word) (ha : ∀ j < 624, a j = z (x (b + j))) : ∀ j < 624, twist a j = z (x (b + 624 + j)) := by
  have h1 := loop1 x b hx a ha 227 le_rfl
  have h2 := loop2 x b hx _ h1 396 le_rfl
  intro j hj
  unfold twist twist3
  generalize List.foldl twist2 (List.foldl twist1 a (List.range 227)) (List.range 396) = c at h2
  simp only [set]
  by_cases h : j = 623
  · subst h
    rw [if_pos rfl, h2 396 (by omega), h2 623 (by omega), h2 0 (by omega), if_pos (by omega), if_neg (by omega), if_pos (by omega),
      BitVec.xor_assoc, mix_z, z_xor, show b + 624 + 623 = (b + 623) + 624 by omega, hx (b + 623),
      show b + 624 + 396 = b + 623 + 397 by omega, show b + 624 + 0 = b + 623 + 1 by omega]
  · rw [if_neg h, h2 j hj, if_pos (by omega)]

/-! ### the sequence -/

/-- the sequence for a seed -/
def seq (s : BitVec 32) (n : Nat) : BitVec 32 :=
  if n = 0 then s
  else if n < 624 then 1812433253#32 * (seq s (n - 1) ^^^ (seq s (n - 1) >>> 30)) + BitVec.ofNat 32 n
  else seq s (n - 227) ^^^ A (MtSpec.joined (seq s (n - 624)) (seq s (n - 623)))
termination_by n

theorem seq_isMT (s : BitVec 32) : IsMT s (seq s) where
  first := by rw [seq]; simp
  init i hi := by rw [seq, if_neg (by omega), if_pos hi, Nat.add_sub_cancel]
  step k := by rw [seq, if_neg (by omega), if_neg (by omega), show k + 624 - 227 = k + 397 by omega, show k + 624 - 624 = k by omega,
    show k + 624 - 623 = k + 1 by omega]

/-- the state when the next word is number `k` of the sequence -/
def At (x : Nat → BitVec 32) (st : State) (k : Nat) : Prop :=
  ∃ b, b + st.mti = k ∧ st.mti ≤ 624 ∧ ∀ j < 624, st.mt j = z (x (b + j))

theorem at_srandom {s : BitVec 32} {x : Nat → BitVec 32} (hx : IsMT s x) (st : State) (w : Word) (hw : w.setWidth 32 = s) :
    At x (srandom st w) 624 := by
  have h0 : set st.mt 0 (w &&& 0xffffffff) 0 = z (x 0) := by
    simp only [set, if_true]
    rw [z_trunc, hw, hx.first]
  have h := seed_loop x _ 623 h0 (fun i hi => hx.init i (by omega))
  unfold srandom
  generalize (List.range 623).foldl seedTurn (set st.mt 0 (w &&& 0xffffffff)) = a at h
  refine ⟨0, by simp, by simp, fun j hj => ?_⟩
  rw [Nat.zero_add]
  exact h j (by omega)

theorem random_at {s : BitVec 32} {x : Nat → BitVec 32} (hx : IsMT s x) {st : State} {k : Nat} (h : At x st k) :
    (random st).1 = z (MtSpec.temper (x k)) ∧ At x (random st).2 (k + 1) := by
  obtain ⟨b, hb, hm, ha⟩ := h
  unfold random
  by_cases hfull : st.mti ≥ 624
  · have e : st.mti = 624 := by omega
    simp only [if_pos hfull, if_neg (show ¬ st.mti = 624 + 1 by omega)]
    have ht := twist_eq x b hx.step _ ha
    refine ⟨?_, b + 624, by simp; omega, by simp, fun j hj => ht j hj⟩
    rw [ht 0 (by omega), temper_z, ← hb, e, Nat.add_zero]
  · simp only [if_neg hfull]
    refine ⟨?_, b, by simp; omega, by simp; omega, ha⟩
    rw [ha _ (by omega), temper_z, hb]

theorem after_at {s : BitVec 32} {x : Nat → BitVec 32} (hx : IsMT s x) {st : State} {k : Nat} (h : At x st k) (n : Nat) :
    At x (after st n) (k + n) := by
  induction n with
  | zero => exact h
  | succ n ih => exact (random_at hx ih).2

theorem output_at {s : BitVec 32} {x : Nat → BitVec 32} (hx : IsMT s x) {st : State} {k : Nat} (h : At x st k) (n : Nat) :
    output st n = z (MtSpec.temper (x (k + n))) := (random_at hx (after_at hx h n)).1

/-- the first call without a seed -/
theorem start_after (st : State) (h : st.mti = 624 + 1) : random st = random (srandom st 5489) := by
  unfold random
  simp only [h]
  simp [srandom]

theorem start_output (st : State) (h : st.mti = 624 + 1) (n : Nat) : output st n = output (srandom st 5489) n := by
  have ha : ∀ n, after st (n + 1) = after (srandom st 5489) (n + 1) := by
    intro n
    induction n with
    | zero => simp only [after]; rw [start_after st h]
    | succ n ih => rw [after, ih, ← after]
  unfold output
  cases n with
  | zero => simp only [after]; rw [start_after st h]
  | succ n => rw [ha]

end Verif.MtRandom
