/-! Specification of the idf/Neutron file layout. -/

namespace Verif.Idf

/-- Specification: the file consists of a 1100 byte header, 80 bytes for each of
the records `rs` (ten 8-byte little-endian words), then `t` further bytes. -/
def HoldsRecords (f : List UInt8) (rs : List (List UInt64)) (t : Nat) : Prop :=
  f.length = 1100 + 80 * rs.length + t ∧ (∀ r ∈ rs, r.length = 10) ∧
  ∀ i j k r w, rs[i]? = some r → r[j]? = some w → k < 8 →
    f[1100 + 80 * i + 8 * j + k]? = some (UInt8.ofNat (w.toNat / 256 ^ k % 256))

end Verif.Idf
