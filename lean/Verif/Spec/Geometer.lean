import Verif.Model.Geometer
import Verif.Spec.Frames
/-!
Specification of absolute placement: derivations along the reference chain.
-/

namespace Verif.Geometer
open Verif.Frames
variable {N F : Type} [CommRing F]

/-- `r` is what the reference `to` of element `e` means: the named element, or the element
just before the first occurrence of `e` in the sequence. -/
def Refers (seq : Option (List N)) (e : N) : Ref N → N → Prop
  | .elem n, r => r = n
  | .previous, r => ∃ l1 l2, seq = some (l1 ++ r :: e :: l2) ∧ e ∉ l1 ++ [r]

/-- `HasOri reg seq e m`: the axes of `e` in the instrument frame are given by `m`. -/
inductive HasOri (toM : V3 F → M3 F) (reg : N → Option (Coord (V3 F) N × Coord (Ori F) N))
    (seq : Option (List N)) : N → M3 F → Prop
  | absolute {e p o} : reg e = some (p, .absolute o) → HasOri toM reg seq e (o.matrix toM)
  | relative {e p v tgt r m m'} : reg e = some (p, .relative v tgt) → Refers seq e tgt r →
      HasOri toM reg seq r m →
      (∀ x, labVec m' x = labVec m (labVec (v.matrix toM) x)) → HasOri toM reg seq e m'

/-- `HasPos reg seq e p`: the origin of `e` in the instrument frame is `p`. -/
inductive HasPos (toM : V3 F → M3 F) (reg : N → Option (Coord (V3 F) N × Coord (Ori F) N))
    (seq : Option (List N)) : N → V3 F → Prop
  | absolute {e p o} : reg e = some (.absolute p, o) → HasPos toM reg seq e p
  | relative {e v tgt o r p m} : reg e = some (.relative v tgt, o) → Refers seq e tgt r →
      HasPos toM reg seq r p → HasOri toM reg seq r m → HasPos toM reg seq e (labPos p m v)

end Verif.Geometer
