import Verif.Model.StorageFiles
/-!
Byte level of the idf/Neutron file format:
`packages/mcni/python/mcni/neutron_storage/idfneutron.py`, `idf_usenumpy.py` and
the conversions in `neutron_storage/__init__.py:128-197`.

Bytes are `UInt8`, a double is its 64 bit pattern (`UInt64`); numpy and `struct`
are modelled for little-endian machines, as the comment in
`idf_usenumpy.py:15-17` demands.
-/

namespace Verif.Idf
open Verif.Storage

/-- `struct.pack` of a non-negative integer in `k` little-endian bytes (formats
`<i`, `<q` of `idfneutron.py:35-39`).  Simplification: negative and overflowing
integers do not occur and are not modelled. -/
def leBytes : Nat → Nat → List UInt8
  | 0, _ => []
  | k + 1, n => UInt8.ofNat (n % 256) :: leBytes k (n / 256)

/-- `struct.unpack` of little-endian bytes (formats `<i`, `<q` of
`idfneutron.py:35-39`; only non-negative values). -/
def leNat : List UInt8 → Nat
  | [] => 0
  | b :: bs => b.toNat + 256 * leNat bs

/-- `struct.pack` format `<ks` (`idfneutron.py:35-38`): truncate or pad with zero
bytes. -/
def packS (k : Nat) (s : List UInt8) : List UInt8 :=
  s.take k ++ List.replicate (k - s.length) 0

/-- `bytes.strip(b'\x00')` as used in `idf_usenumpy.py:98-99`: zero bytes are
removed at both ends. -/
def stripZeros (s : List UInt8) : List UInt8 :=
  ((s.dropWhile (· == 0)).reverse.dropWhile (· == 0)).reverse

/-- `titlesize`, `idfneutron.py:11`. -/
def titlesize : Nat := 64
/-- `versionsize`, `idfneutron.py:12`. -/
def versionsize : Nat := 4
/-- `commentsize`, `idfneutron.py:13`. -/
def commentsize : Nat := 1024
/-- `nsize`, `idfneutron.py:14`. -/
def nsize : Nat := 8
/-- `ndblsperneutron`, `idfneutron.py:5`. -/
def ndbls : Nat := 10
/-- `nbytesperdbl`, `idfneutron.py:8`. -/
def nbytes : Nat := 8
/-- `neutronsize`, `idfneutron.py:15`. -/
def neutronsize : Nat := ndbls * nbytes
/-- `headersize = calcsize('<64si1024sq')`, `idfneutron.py:35-39` (`<` means no
alignment padding). -/
def headersize : Nat := titlesize + versionsize + commentsize + nsize
/-- `version`, `idfneutron.py:19`. -/
def version : Nat := 1
/-- `filetype = 'Neutron'` in ascii, `idfneutron.py:2`. -/
def filetype : List UInt8 := [78, 101, 117, 116, 114, 111, 110]

/-- `filesize`, `idfneutron.py:43-46`. -/
def filesize (n : Nat) : Nat := headersize + n * ndbls * nbytes

/-- `pack(headerfmtstr, filetype, version, comment, N)`, `idf_usenumpy.py:108-112`. -/
def packHeader (ft : List UInt8) (ver : Nat) (comment : List UInt8) (N : Nat) : List UInt8 :=
  packS titlesize ft ++ leBytes versionsize ver ++ packS commentsize comment ++ leBytes nsize N

/-- the four header fields of `unpack`, `idf_usenumpy.py:91` -/
structure Header where
  filetype : List UInt8
  version : Nat
  comment : List UInt8
  N : Nat

/-- `unpack(headerfmtstr, f[:headersize])`, `idf_usenumpy.py:91`: the slice must
have exactly `headersize` bytes (`struct.error` otherwise). -/
def unpackHeader (f : List UInt8) : Except Err Header :=
  let h := f.take headersize
  if h.length ≠ headersize then .error .valueError
  else .ok {
    filetype := h.take titlesize
    version := leNat ((h.drop titlesize).take versionsize)
    comment := (h.drop (titlesize + versionsize)).take commentsize
    N := leNat ((h.drop (titlesize + versionsize + commentsize)).take nsize) }

/-- cut a list in `m` pieces of length `k` (element loop of numpy `fromstring`
and of `.shape = -1, 10`, `idf_usenumpy.py:77-78,92-93`) -/
def chunkN {α} (k : Nat) : Nat → List α → List (List α)
  | 0, _ => []
  | m + 1, l => l.take k :: chunkN k m (l.drop k)

/-- one double of `numpy.ndarray.tostring`, `idf_usenumpy.py:115,124` -/
def encodeDbl (w : UInt64) : List UInt8 := leBytes nbytes w.toNat

/-- one double of `numpy.fromstring(s, numpy.double)`, `idf_usenumpy.py:77,92` -/
def decodeDbl (bs : List UInt8) : UInt64 := UInt64.ofNat (leNat bs)

/-- `ndarray.tostring()`, `idf_usenumpy.py:115,124` -/
def tostring (ws : List UInt64) : List UInt8 := ws.flatMap encodeDbl

/-- `numpy.fromstring(s, numpy.double)`, `idf_usenumpy.py:77,92`: the length must
be a multiple of the element size. -/
def fromstring (s : List UInt8) : Except Err (List UInt64) :=
  if s.length % nbytes ≠ 0 then .error .valueError
  else .ok ((chunkN nbytes (s.length / nbytes) s).map decodeDbl)

/-- `neutrons.shape = -1, ndblsperneutron`, `idf_usenumpy.py:78,93` -/
def reshape (ws : List UInt64) : Except Err (List (List UInt64)) :=
  if ws.length % ndbls ≠ 0 then .error .valueError
  else .ok (chunkN ndbls (ws.length / ndbls) ws)

/-- `count`, `idf_usenumpy.py:40-46` (Python floor division) -/
def count (f : List UInt8) : Int := ((f.length : Int) - headersize) / (neutronsize : Int)

/-- `read` with given `start` and `n`, `idf_usenumpy.py:67-80`; `none` stands for
Python's `None`.  `stream.seek` beyond the end of a file is allowed and yields
an empty read. -/
def readWindow (f : List UInt8) (start n : Int) : Except Err (Option (List (List UInt64))) :=
  if n = 0 then .ok none
  else if start ≥ 0 ∧ n > 0 then
    let s := (f.drop (headersize + neutronsize * start.toNat)).take (n.toNat * neutronsize)
    (fromstring s).bind fun ws => (reshape ws).bind fun rows => .ok (some rows)
  else .error .assertionError

/-- `read` without `start` and `n`, `idf_usenumpy.py:63-80`. -/
def readDefault (f : List UInt8) : Except Err (Option (List (List UInt64))) :=
  readWindow f 0 (count f)

/-- `readall`, `idf_usenumpy.py:83-100`. -/
def readall (f : List UInt8) : Except Err (List UInt8 × Nat × List UInt8 × List (List UInt64)) :=
  (unpackHeader f).bind fun h =>
  (fromstring (f.drop headersize)).bind fun ws =>
  (reshape ws).bind fun rows =>
  .ok (stripZeros h.filetype, h.version, stripZeros h.comment, rows)

/-- The argument of `write`: a numpy array of doubles which is either flat or of
shape `(n, 10)`; `len` is the first dimension (`idf_usenumpy.py:103-118`). -/
inductive NpArr where
  | flat (ws : List UInt64)
  | rows (rs : List (List UInt64))

/-- `len(arr)`, used in `idf_usenumpy.py:111` -/
def NpArr.len : NpArr → Nat
  | .flat ws => ws.length
  | .rows rs => rs.length

/-- the memory of the array in C order (`tostring`, `idf_usenumpy.py:115`) -/
def NpArr.data : NpArr → List UInt64
  | .flat ws => ws
  | .rows rs => rs.flatten

/-- `write(neutrons, filename, comment)`, `idf_usenumpy.py:103-118`: the file
content and the caller's array afterwards (line 114 assigns to its shape).
Simplification: the comment is given as its ascii bytes. -/
def write (neutrons : NpArr) (comment : List UInt8) : List UInt8 × NpArr :=
  let header := packHeader filetype version comment neutrons.len
  let neutrons' := NpArr.flat neutrons.data
  (header ++ tostring neutrons'.data, neutrons')

/-- `append`, `idf_usenumpy.py:121-126` -/
def append (f : List UInt8) (neutrons : NpArr) : List UInt8 := f ++ tostring neutrons.data

/-- `checkformat`, `idf_usenumpy.py:27-37`: line 35 refers to the undefined name
`f` on every call. -/
def checkformat (_f : List UInt8) : Except Err Bool := .error .nameError

/-- `event_toCevent`, `packages/mcni/lib/neutron/event_cevent_conversion.h:40-55`
(the order of the members is that of `cEvent.h`). -/
def toWords (n : Neutron UInt64) : List UInt64 :=
  [n.x, n.y, n.z, n.vx, n.vy, n.vz, n.s1, n.s2, n.t, n.p]

/-- `event_fromCevent`, `packages/mcni/lib/neutron/event_cevent_conversion.h:23-38`;
`none` if the row does not have ten entries. -/
def fromWords : List UInt64 → Option (Neutron UInt64)
  | [x, y, z, vx, vy, vz, s1, s2, t, p] => some ⟨x, y, z, vx, vy, vz, s1, s2, t, p⟩
  | _ => none

/-- `neutrons_as_npyarr`, `neutron_storage/__init__.py:188-197`: the array is
created flat, `numpy.zeros(n*ndblsperneutron)`. -/
def neutronsAsNpyarr (ns : List (Neutron UInt64)) : NpArr := .flat (ns.flatMap toWords)

/-- `dump`, `neutron_storage/__init__.py:128-139` -/
def dumpFile (ns : List (Neutron UInt64)) : List UInt8 := (write (neutronsAsNpyarr ns) []).1

/-- `readneutrons_asnpyarr`, `neutron_storage/__init__.py:153-159` -/
def readneutronsAsNpyarr (f : List UInt8) : Except Err (List (List UInt64)) :=
  (readall f).bind fun r =>
    if r.1 = filetype ∧ r.2.1 = version then .ok r.2.2.2 else .error .assertionError

/-- `load`, `neutron_storage/__init__.py:142-150` with `neutrons_from_npyarr`
`162-185` (fresh buffer of the same length) -/
def load (f : List UInt8) : Except Err (List (Neutron UInt64)) :=
  (readneutronsAsNpyarr f).bind fun rows =>
    match rows.mapM fromWords with
    | some ns => .ok ns
    | none => .error .assertionError

end Verif.Idf
