import Mathlib.Data.Rat.Defs
import Mathlib.Algebra.Order.Field.Rat
/-!
The random numbers of the McStas components, `packages/legacycomponents/mcstas2/lib/random_numbers.cc` and `random_numbers.h` (the same code is
in `mcstas_compact/random.cc`), and the seeds, `packages/mcni/python/mcni/rng_seed.py` and `seeder.py`.

`unsigned long` has 64 bits.  An array is a function of the index; only the indices below 624 (31) are used.  `rand01()` and its relatives
are rational numbers (a word of 32 bits and its quotient by a power of two are exact as double; for the other quotients rounding is not
modelled).
-/

namespace Verif.MtRandom

/-- `unsigned long`, `random_numbers.h:22` -/
abbrev Word := BitVec 64

/-- `MATRIX_A`, `UPPER_MASK`, `LOWER_MASK`, `random_numbers.cc:183-185` -/
def matrixA : Word := 0x9908b0df
/-- `UPPER_MASK`, `random_numbers.cc:184` -/
def upperMask : Word := 0x80000000
/-- `LOWER_MASK`, `random_numbers.cc:185` -/
def lowerMask : Word := 0x7fffffff

/-- the static variables `mt` and `mti`, `random_numbers.cc:187-188` -/
structure State where
  mt : Nat → Word
  mti : Nat

/-- the static variables at the start of the program, `random_numbers.cc:187-188` -/
def State.start : State := ⟨fun _ => 0, 624 + 1⟩

/-- assignment to an element of `mt`, e.g. `random_numbers.cc:202` -/
def set (a : Nat → Word) (i : Nat) (w : Word) : Nat → Word := fun j => if j = i then w else a j

/-- one turn of the loop of `mt_srandom` with `mti` = i + 1, `random_numbers.cc:195-202` -/
def seedTurn (a : Nat → Word) (i : Nat) : Nat → Word :=
  let a := set a (i + 1) (1812433253#64 * (a i ^^^ (a i >>> 30)) + BitVec.ofNat 64 (i + 1))
  set a (i + 1) (a (i + 1) &&& 0xffffffff)

/-- `mt_srandom`, `random_numbers.cc:191-205` -/
def srandom (st : State) (s : Word) : State :=
  ⟨(List.range 623).foldl seedTurn (set st.mt 0 (s &&& 0xffffffff)), 624⟩

/-- `mag01[y & 0x1UL]`, `random_numbers.cc:240-241` -/
def mag01 (y : Word) : Word := if y &&& 1 = 0 then 0 else matrixA

/-- `y` of the loops, `random_numbers.cc:250, 254, 257` -/
def joined (a b : Word) : Word := (a &&& upperMask) ||| (b &&& lowerMask)

/-- first loop, `random_numbers.cc:249-252` -/
def twist1 (a : Nat → Word) (k : Nat) : Nat → Word :=
  let y := joined (a k) (a (k + 1))
  set a k (a (k + 397) ^^^ (y >>> 1) ^^^ mag01 y)

/-- second loop with `kk` = 227 + k, `random_numbers.cc:253-256` -/
def twist2 (a : Nat → Word) (k : Nat) : Nat → Word :=
  let kk := 227 + k
  let y := joined (a kk) (a (kk + 1))
  set a kk (a (kk - 227) ^^^ (y >>> 1) ^^^ mag01 y)

/-- the last element, `random_numbers.cc:257-258` -/
def twist3 (a : Nat → Word) : Nat → Word :=
  let y := joined (a 623) (a 0)
  set a 623 (a 396 ^^^ (y >>> 1) ^^^ mag01 y)

/-- `random_numbers.cc:249-258` -/
def twist (a : Nat → Word) : Nat → Word := twist3 ((List.range 396).foldl twist2 ((List.range 227).foldl twist1 a))

/-- tempering, `random_numbers.cc:266-269` -/
def temper (y : Word) : Word :=
  let y := y ^^^ (y >>> 11)
  let y := y ^^^ ((y <<< 7) &&& 0x9d2c5680)
  let y := y ^^^ ((y <<< 15) &&& 0xefc60000)
  y ^^^ (y >>> 18)

/-- `mt_random`, `random_numbers.cc:237-272` -/
def random (st : State) : Word × State :=
  let st := if st.mti ≥ 624 then
      let st := if st.mti = 624 + 1 then srandom st 5489 else st
      ⟨twist st.mt, 0⟩
    else st
  (temper (st.mt st.mti), { st with mti := st.mti + 1 })

/-- the state after `n` calls of `mt_random`, `random_numbers.cc:237-274` -/
def after (st : State) : Nat → State
  | 0 => st
  | n + 1 => (random (after st n)).2

/-- the result of call number `n` (from 0) of `mt_random`, `random_numbers.cc:237-274` -/
def output (st : State) (n : Nat) : Word := (random (after st n)).1

/-- `rand01()`, `random_numbers.h:47`, for the word of `random()` -/
def rand01 (w : Word) : ℚ := w.toNat / ((0xffffffff : ℚ) + 1)
/-- `randpm1()`, `random_numbers.h:48` -/
def randpm1 (w : Word) : ℚ := w.toNat / (((0xffffffff : ℚ) + 1) / 2) - 1
/-- `rand0max(max)`, `random_numbers.h:49` -/
def rand0max (max : ℚ) (w : Word) : ℚ := w.toNat / (((0xffffffff : ℚ) + 1) / max)
/-- `randminmax(min,max)`, `random_numbers.h:50` -/
def randminmax (min max : ℚ) (w : Word) : ℚ := rand0max (max - min) w + min

/-! ### seeds -/

/-- `usetimer`, `rng_seed.py:19-23`, for the time in microseconds `int(time.time()*1e6)` -/
def usetimer (us : Nat) : Nat := us % 2 ^ 16

/-- `usetimer_p`, `rng_seed.py:26-28`, the default strategy (lines 47, 51) -/
def usetimerP (us rank : Nat) : Nat := usetimer us + rank

/-- what `feed` gives to the functions that are registered, `seeder.py:22-29`: one seed for each, `times` are the times of the calls of
`rng_seed.seed` -/
def feed (times : List Nat) (rank : Nat) : List Nat := times.map (usetimerP · rank)

/-- `srandom` from python, `mcstas2bpmodule/wrap_random_numbers.cc:19-21`: the seed is an `unsigned int` -/
def pySrandom (st : State) (seed : BitVec 32) : State := srandom st (seed.setWidth 64)

/-! ### the old generator -/

/-- one turn of the loop of `mc_srandom`, `random_numbers.cc:114-122`: division and remainder of C, `long int` has 64 bits, so that nothing
overflows; the result is in the range of `int` -/
def schrage (s : ℤ) : ℤ :=
  let hi := s.tdiv 127773
  let lo := s.tmod 127773
  let test := 16807 * lo - 2836 * hi
  test + (if test < 0 then 2147483647 else 0)

/-- `state` after the first loop of `mc_srandom`, `random_numbers.cc:108-122`, by the index; the seed `x` is `unsigned int`, the conversion to
`int` is that of two's complement -/
def mcState (x : BitVec 32) : Nat → ℤ
  | 0 => (if x ≠ 0 then x else 1).toInt
  | i + 1 => schrage (mcState x i)

end Verif.MtRandom
