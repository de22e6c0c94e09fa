import Mathlib.Init
/-!
The generator MT19937 as a sequence of words of 32 bits (M. Matsumoto, T. Nishimura), without arrays and without blocks.
-/

namespace Verif.MtSpec

/-- multiplication by the matrix of the generator -/
def A (y : BitVec 32) : BitVec 32 := (y >>> 1) ^^^ (if y.getLsbD 0 then 0x9908b0df else 0)

/-- the highest bit of `a` and the 31 lower bits of `b` -/
def joined (a b : BitVec 32) : BitVec 32 := (a &&& 0x80000000) ||| (b &&& 0x7fffffff)

/-- `x` is the sequence for the seed `s` -/
structure IsMT (s : BitVec 32) (x : Nat → BitVec 32) : Prop where
  first : x 0 = s
  init : ∀ i, i + 1 < 624 → x (i + 1) = 1812433253#32 * (x i ^^^ (x i >>> 30)) + BitVec.ofNat 32 (i + 1)
  step : ∀ k, x (k + 624) = x (k + 397) ^^^ A (joined (x k) (x (k + 1)))

/-- the tempering -/
def temper (y : BitVec 32) : BitVec 32 :=
  let y := y ^^^ (y >>> 11)
  let y := y ^^^ ((y <<< 7) &&& 0x9d2c5680)
  let y := y ^^^ ((y <<< 15) &&& 0xefc60000)
  y ^^^ (y >>> 18)

end Verif.MtSpec
