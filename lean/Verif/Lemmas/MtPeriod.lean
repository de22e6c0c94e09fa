import Verif.Lemmas.MtRandom
import Mathlib.Data.BitVec
import Mathlib.Data.Finite.Prod
import Mathlib.Data.Fintype.Pi
import Mathlib.Data.Fintype.EquivFin
import Mathlib.Data.Fintype.Pigeonhole
/-! The generator has no transient: tempering and the recurrence can be inverted. -/

namespace Verif.MtRandom
open MtSpec (IsMT A)

instance : Finite (BitVec 32) := Finite.of_injective (fun x : BitVec 32 => x.toFin) fun a b h => by
  apply BitVec.eq_of_toNat_eq
  exact congrArg Fin.val h

theorem zero_of_ushr {d : BitVec 32} {k : Nat} (hk : 0 < k) (h : d = d >>> k) : d = 0 := by
  have hb : ∀ i, d.getLsbD i = d.getLsbD (k + i) := by
    intro i
    conv_lhs => rw [h]
    simp
  have : ∀ n i, 32 ≤ i + n → d.getLsbD i = false := by
    intro n
    induction n with
    | zero => intro i hi; exact BitVec.getLsbD_of_ge _ _ hi
    | succ n ih => intro i hi; rw [hb i]; exact ih _ (by omega)
  apply BitVec.eq_of_getLsbD_eq
  intro i _
  rw [this 32 i (by omega)]
  simp

theorem zero_of_shl {d m : BitVec 32} {k : Nat} (hk : 0 < k) (h : d = (d <<< k) &&& m) : d = 0 := by
  apply BitVec.eq_of_getLsbD_eq
  intro i
  induction i using Nat.strong_induction_on with
  | _ i ih =>
    intro hi
    rw [h]
    by_cases hik : i < k
    · simp [hi, hik]
    · have := ih (i - k) (by omega) (by omega)
      simp only [BitVec.getLsbD_and, BitVec.getLsbD_shiftLeft, this]
      simp

theorem xor_eq_zero' {a b : BitVec 32} (h : a ^^^ b = 0) : a = b := by
  apply BitVec.eq_of_getLsbD_eq
  intro i hi
  have := congrArg (fun w => BitVec.getLsbD w i) h
  simpa using this

theorem ushr_inj {k : Nat} (hk : 0 < k) : Function.Injective fun y : BitVec 32 => y ^^^ (y >>> k) := by
  intro a b h
  apply xor_eq_zero'
  apply zero_of_ushr hk
  apply BitVec.eq_of_getLsbD_eq
  intro i hi
  have := congrArg (fun w => BitVec.getLsbD w i) h
  simp at this
  simp
  revert this
  cases a.getLsbD i <;> cases b.getLsbD i <;> cases a.getLsbD (k + i) <;> cases b.getLsbD (k + i) <;> simp

theorem shl_inj {k : Nat} (hk : 0 < k) (m : BitVec 32) : Function.Injective fun y : BitVec 32 => y ^^^ ((y <<< k) &&& m) := by
  intro a b h
  apply xor_eq_zero'
  apply zero_of_shl hk (m := m)
  apply BitVec.eq_of_getLsbD_eq
  intro i hi
  have := congrArg (fun w => BitVec.getLsbD w i) h
  simp [hi] at this
  simp [hi]
  by_cases hik : i < k
  · simp [hik] at this ⊢
    exact this
  · simp [hik] at this ⊢
    revert this
    cases a[i] <;> cases b[i] <;> cases a[i - k] <;> cases b[i - k] <;> simp

theorem temper_injective : Function.Injective MtSpec.temper := by
  have h : MtSpec.temper = (fun y : BitVec 32 => y ^^^ (y >>> 18)) ∘ (fun y : BitVec 32 => y ^^^ ((y <<< 15) &&& 0xefc60000)) ∘
      (fun y : BitVec 32 => y ^^^ ((y <<< 7) &&& 0x9d2c5680)) ∘ (fun y : BitVec 32 => y ^^^ (y >>> 11)) := rfl
  rw [h]
  exact (ushr_inj (by omega)).comp ((shl_inj (by omega) _).comp ((shl_inj (by omega) _).comp (ushr_inj (by omega))))

theorem A_injective : Function.Injective A := by
  intro a b h
  have h0 : a.getLsbD 0 = b.getLsbD 0 := by
    have := congrArg (fun w => BitVec.getLsbD w 31) h
    simp only [A, BitVec.getLsbD_xor, BitVec.getLsbD_ushiftRight] at this
    rw [BitVec.getLsbD_of_ge a _ (by omega), BitVec.getLsbD_of_ge b _ (by omega)] at this
    revert this
    cases a.getLsbD 0 <;> cases b.getLsbD 0 <;> simp
  have hs : a >>> 1 = b >>> 1 := by
    simp only [A, h0] at h
    exact (BitVec.xor_left_inj _).1 h
  apply BitVec.eq_of_getLsbD_eq
  intro i hi
  cases i with
  | zero => exact h0
  | succ i =>
    have := congrArg (fun w => BitVec.getLsbD w i) hs
    simpa [Nat.add_comm 1 i] using this

theorem joined_top {a b a' b' : BitVec 32} (h : MtSpec.joined a b = MtSpec.joined a' b') : a.getLsbD 31 = a'.getLsbD 31 := by
  have := congrArg (fun w => BitVec.getLsbD w 31) h
  simpa [MtSpec.joined] using this

theorem joined_low {a b a' b' : BitVec 32} (h : MtSpec.joined a b = MtSpec.joined a' b') (i : Nat) (hi : i < 31) :
    b.getLsbD i = b'.getLsbD i := by
  have := congrArg (fun w => BitVec.getLsbD w i) h
  simp only [MtSpec.joined, BitVec.getLsbD_or, BitVec.getLsbD_and] at this
  have h1 : (0x80000000 : BitVec 32).getLsbD i = false := by interval_cases i <;> rfl
  have h2 : (0x7fffffff : BitVec 32).getLsbD i = true := by interval_cases i <;> rfl
  rw [h1, h2] at this
  simpa using this

/-- the recurrence -/
def Step (x : Nat → BitVec 32) : Prop := ∀ k, x (k + 624) = x (k + 397) ^^^ A (MtSpec.joined (x k) (x (k + 1)))

theorem step_joined {x y : Nat → BitVec 32} (hx : Step x) (hy : Step y) {k l : Nat} (h1 : x (k + 624) = y (l + 624))
    (h2 : x (k + 397) = y (l + 397)) : MtSpec.joined (x k) (x (k + 1)) = MtSpec.joined (y l) (y (l + 1)) := by
  have h := hx k
  have h' := hy l
  rw [h1, h', h2] at h
  exact (A_injective ((BitVec.xor_right_inj _).1 h)).symm

/-- one step back -/
theorem back_one {x y : Nat → BitVec 32} (hx : Step x) (hy : Step y) {k l : Nat}
    (h : ∀ j < 624, x (k + 2 + j) = y (l + 2 + j)) : x (k + 1) = y (l + 1) := by
  have e1 := step_joined hx hy (k := k + 1) (l := l + 1) (by have := h 623 (by omega); exact this)
    (by have := h 396 (by omega); exact this)
  have e0 := step_joined hx hy (k := k) (l := l) (by have := h 622 (by omega); exact this) (by have := h 395 (by omega); exact this)
  apply BitVec.eq_of_getLsbD_eq
  intro i hi
  by_cases h31 : i = 31
  · subst h31; exact joined_top e1
  · exact joined_low e0 i (by omega)

theorem back {x y : Nat → BitVec 32} (hx : Step x) (hy : Step y) (k l n : Nat) (h : ∀ j < 624, x (k + n + 1 + j) = y (l + n + 1 + j)) :
    ∀ j < 624, x (k + 1 + j) = y (l + 1 + j) := by
  induction n with
  | zero => exact h
  | succ n ih =>
    apply ih
    have h0 := back_one hx hy (k := k + n) (l := l + n) (fun j hj => by
      have := h j hj
      rwa [show k + (n + 1) + 1 = k + n + 2 by omega, show l + (n + 1) + 1 = l + n + 2 by omega] at this)
    intro j hj
    rcases Nat.eq_zero_or_pos j with rfl | hp
    · exact h0
    · have := h (j - 1) (by omega)
      rwa [show k + (n + 1) + 1 + (j - 1) = k + n + 1 + j by omega, show l + (n + 1) + 1 + (j - 1) = l + n + 1 + j by omega] at this

theorem forward {x y : Nat → BitVec 32} (hx : Step x) (hy : Step y) (k l : Nat) (h : ∀ j < 624, x (k + j) = y (l + j)) (n : Nat) :
    x (k + n) = y (l + n) := by
  induction n using Nat.strong_induction_on with
  | _ n ih =>
    by_cases hn : n < 624
    · exact h n hn
    · obtain ⟨m, rfl⟩ : ∃ m, n = m + 624 := ⟨n - 624, by omega⟩
      rw [show k + (m + 624) = (k + m) + 624 by omega, show l + (m + 624) = (l + m) + 624 by omega, hx, hy]
      have a := ih (m + 397) (by omega)
      have b := ih m (by omega)
      have c := ih (m + 1) (by omega)
      rw [show k + (m + 397) = k + m + 397 by omega, show l + (m + 397) = l + m + 397 by omega] at a
      rw [show k + (m + 1) = k + m + 1 by omega, show l + (m + 1) = l + m + 1 by omega] at c
      rw [a, b, c]

theorem back_all {x y : Nat → BitVec 32} (hx : Step x) (hy : Step y) (n : Nat) (h : ∀ j < 624, x (n + 1 + j) = y (n + 1 + j)) (k : Nat) :
    x (k + 1) = y (k + 1) := by
  have h1 := back hx hy 0 0 n (fun j hj => by simpa [Nat.zero_add] using h j hj)
  have := forward hx hy (0 + 1) (0 + 1) h1 k
  rwa [show 0 + 1 + k = k + 1 by omega] at this

theorem periodic {x : Nat → BitVec 32} (hx : Step x) : ∃ P, 0 < P ∧ ∀ k, x (k + 1 + P) = x (k + 1) := by
  obtain ⟨a, b, hab, e⟩ := Finite.exists_ne_map_eq_of_infinite fun k : Nat => fun j : Fin 624 => x (k + 1 + j)
  wlog hlt : a < b generalizing a b
  · exact this b a hab.symm e.symm (by omega)
  refine ⟨b - a, by omega, fun k => ?_⟩
  have hw : ∀ j < 624, x (0 + a + 1 + j) = x ((b - a) + a + 1 + j) := by
    intro j hj
    have := congrFun e ⟨j, hj⟩
    simp only at this
    rw [show 0 + a + 1 + j = a + 1 + j by omega, show (b - a) + a + 1 + j = b + 1 + j by omega]
    exact this
  have h1 := back hx hx 0 (b - a) a hw
  have := forward hx hx (0 + 1) (b - a + 1) h1 k
  rw [show k + 1 + (b - a) = b - a + 1 + k by omega, ← this]
  congr 1
  omega

theorem seed_injective {s s' : BitVec 32} {x y : Nat → BitVec 32} (hx : IsMT s x) (hy : IsMT s' y) (h : x 1 = y 1) : s = s' := by
  have a := hx.init 0 (by omega)
  have b := hy.init 0 (by omega)
  rw [hx.first] at a
  rw [hy.first] at b
  rw [a, b] at h
  have h := (BitVec.add_left_inj _).1 h
  have h := congrArg (fun w => 2520285293#32 * w) h
  simp only [← BitVec.mul_assoc] at h
  have e : 2520285293#32 * 1812433253#32 = 1#32 := by decide
  rw [e, BitVec.one_mul, BitVec.one_mul] at h
  exact ushr_inj (by omega) h

theorem not_zero {s : BitVec 32} {x : Nat → BitVec 32} (hx : IsMT s x) (N : Nat) : ∃ n, N ≤ n ∧ x n ≠ 0 := by
  by_contra hno
  have hz : ∀ n, N ≤ n → x n = 0 := fun n hn => by
    by_contra h; exact hno ⟨n, hn, h⟩
  have h0 : Step (fun _ => 0) := fun k => by simp [A, MtSpec.joined]
  have h := back_all hx.step h0 N (fun j _ => hz _ (by omega))
  have h1 := h 0
  have h2 := h 1
  have e := hx.init 1 (by omega)
  simp only [Nat.zero_add] at h1
  rw [h2, h1] at e
  revert e
  decide

end Verif.MtRandom
