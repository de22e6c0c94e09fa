import Verif.Model.Peaks
import Verif.Model.Powder
import Verif.Model.Sources
import Verif.Model.Facility
import Mathlib.Data.List.Sort
/-!
Text files with reflections and densities of states: `parsers/laz.py`, `parsers/lau.py` and `powder.py` in
`packages/mccomponents/python/mccomponents/sample/diffraction`, and `read_dos.py` in
`packages/mccomponents/python/mccomponents/sample/phonon`.

Texts are lists of characters.  Only the newline character ends a line.  Real numbers instead of doubles.  The built-ins `int` and
`float` of python and the external class `Lattice` are parameters (`Env`).
-/

namespace Verif.DataFiles
open Facility
noncomputable section
open Classical

/-- a text (no counterpart: `str` in `laz.py:29`) -/
abbrev Text := List Char

/-- `int` and `float` (`laz.py:109, 113`), and `Lattice(a, b, c, alpha, beta, gamma)` (`laz.py:155`) -/
structure Env where
  int : Text → Except Err ℤ
  float : Text → Except Err ℝ
  lattice : ℝ → ℝ → ℝ → ℝ → ℝ → ℝ → Peaks.Lat

/-! ### texts -/

/-- the parts of a text between white space, empty ones included, for `str.split()` in `laz.py:38` -/
def splitWs : Text → List Text
  | [] => [[]]
  | d :: s => if d.isWhitespace then [] :: splitWs s else
    match splitWs s with
    | [] => [[d]]
    | p :: ps => (d :: p) :: ps

/-- `str.split()`, `laz.py:38, 106` -/
def words (s : Text) : List Text := (splitWs s).filter fun w => !w.isEmpty

/-- `re.sub` with `COMMENT`, `laz.py:26, 94-95`: from `#` to the end of the line, the newline included; a comment that no newline
follows stays.  The flag is on inside of a comment. -/
def skip : Bool → Text → Text
  | _, [] => []
  | true, c :: s => skip (decide (c ≠ '\n')) s
  | false, c :: s => if c = '#' ∧ '\n' ∈ s then skip true s else c :: skip false s

/-- `re.sub(p, '', text)`, `laz.py:94-95`, `lau.py:59-60` -/
def removeComments (s : Text) : Text := skip false s

/-- `str.lower` for ASCII letters, `laz.py:41` -/
def lower (s : Text) : Text := s.map Char.toLower

/-- `l[i]` of a list for a constant, e.g. `laz.py:42`, 100 -/
def item (l : List Text) (i : ℕ) : Except Err Text :=
  match l[i]? with
  | some w => .ok w
  | none => .error .indexError

/-- `row[i]`, `laz.py:109-117`; a negative index counts from the end -/
def pyItem (l : List Text) (i : ℤ) : Except Err Text :=
  if 0 ≤ i then item l i.toNat
  else if 0 ≤ l.length + i then item l (l.length + i).toNat
  else .error .indexError

/-! ### the comments -/

/-- the dictionary of the comments, in the order of the insertions, `laz.py:35, 45` -/
abbrev Comments := List (Text × Text)

/-- the key of a comment, `laz.py:38-42`; `none` for a comment without words -/
def keyOf (l : Text) : Except Err (Option Text) :=
  match words l with
  | _ :: ky :: rest =>
    if ['a', 't', 'o', 'm'].isPrefixOf (lower ky) then
      match rest with
      | [] => .error .indexError
      | w :: _ => .ok (some (ky ++ '_' :: w))
    else .ok (some ky)
  | _ => .ok none

/-- one turn of the loop, `laz.py:36-47` -/
def addComment (d : Comments) (l : Text) : Except Err Comments :=
  if ['#'].isPrefixOf l then do
    match ← keyOf l with
    | none => .ok d
    | some ky => if (d.lookup ky).isSome then .error .runtimeError else .ok (d ++ [(ky, l)])
  else .ok d

/-- the loop, `laz.py:34-47`, `lau.py:25-39` -/
def readComments (text : Text) : Except Err Comments := (splitAll '\n' text).foldlM addComment []

/-- `comments[key]`, e.g. `laz.py:50` -/
def getComment (d : Comments) (key : Text) : Except Err Text :=
  match d.lookup key with
  | some l => .ok l
  | none => .error .keyError

/-- `getLattice`, `laz.py:143-156`, `lau.py:82-95` -/
def getLattice (env : Env) (l : Text) : Except Err Peaks.Lat := do
  let par := words (l.filter fun c => decide (c ≠ '#'))
  let a ← env.float (← item par 1)
  let b ← env.float (← item par 2)
  let c ← env.float (← item par 3)
  let al ← env.float (← item par 4)
  let be ← env.float (← item par 5)
  let ga ← env.float (← item par 6)
  .ok (env.lattice a b c al be ga)

/-- keys that start with a prefix, `laz.py:66, 89` -/
def having (pre : Text) (d : Comments) : Comments := d.filter fun x => pre.isPrefixOf x.1

/-- the column of a comment, `laz.py:100` -/
def columnOf (env : Env) (x : Text × Text) : Except Err (Text × ℤ) := do
  let n ← env.int (← item (words x.2) 2)
  .ok (x.1, n - 1)

/-- `col_idx`, `laz.py:97-100`, `lau.py:51-55` -/
def columns (env : Env) (d : Comments) : Except Err (List (Text × ℤ)) :=
  (having "column".toList d).mapM (columnOf env)

/-- `row[col_idx[key]]`, `laz.py:109` -/
def field (cols : List (Text × ℤ)) (row : List Text) (key : String) : Except Err Text :=
  match cols.lookup key.toList with
  | none => .error .keyError
  | some i => pyItem row i

/-- the rows with data, `laz.py:94-106`, `lau.py:59-67` -/
def rows (text : Text) : List (List Text) :=
  ((splitAll '\n' (removeComments text)).map words).filter fun r => !r.isEmpty

/-! ### laz -/

/-- a peak, `powder.py:70-90`, with the attributes given in `laz.py:120-125` -/
structure Peak where
  (q F2 : ℝ)
  mult : ℤ
  (width dw : ℝ)

/-- a row, `laz.py:109-125` -/
def lazRow (env : Env) (cols : List (Text × ℤ)) (L : Peaks.Lat) (width dw : ℝ) (row : List Text) : Except Err Peak := do
  let h ← env.int (← field cols row "column_h")
  let k ← env.int (← field cols row "column_k")
  let l ← env.int (← field cols row "column_l")
  let F2 ← if (cols.lookup "column_F2".toList).isSome then do env.float (← field cols row "column_F2")
    else do
      let F ← env.float (← field cols row "column_F")
      .ok (F * F)
  let mult ← env.int (← field cols row "column_j")
  .ok ⟨Peaks.lazQ L ⟨h, k, l⟩, F2, mult, width, dw⟩

/-- `getPeaks`, `laz.py:84-131` -/
def getPeaks (env : Env) (text : Text) (d : Comments) (L : Peaks.Lat) (width dw : ℝ) : Except Err (List Peak) := do
  let cols ← columns env d
  let ps ← (rows text).mapM (lazRow env cols L width dw)
  .ok (ps.insertionSort fun a b => a.q ≤ b.q)

/-- one cross section: the name of the attribute and the value, `laz.py:70-78` -/
def crossSection (env : Env) (nb : ℤ) (x : Text × Text) : Except Err (Text × ℝ) :=
  match words (x.2.drop 2) with
  | [] => .error .indexError
  | [_] => .error .indexError
  | name :: value :: rest =>
    let comment := (rest.intersperse [' ']).flatten
    if comment.drop (comment.length - 6) = "[barn]".toList then do
      let v ← env.float value
      .ok (name.drop 6, v * nb)
    else .error .assertionError

/-- `getCrossSections`, `laz.py:56-81` -/
def getCrossSections (env : Env) (d : Comments) : Except Err (List (Text × ℝ)) := do
  let l ← getComment d "nb_atoms".toList
  let nb ← env.int (← item (words l) 2)
  let sigma := having "sigma".toList d
  if sigma.length = 3 then sigma.mapM (crossSection env nb) else .error .assertionError

/-- what `parse` gives, `laz.py:49-53` -/
structure Laz where
  lattice : Peaks.Lat
  peaks : List Peak
  xs : List (Text × ℝ)

/-- `parse`, `laz.py:29-53` -/
def parseLaz (env : Env) (text : Text) (width dw : ℝ) : Except Err Laz := do
  let d ← readComments text
  let L ← getLattice env (← getComment d "CELL".toList)
  let ps ← getPeaks env text d L width dw
  let xs ← getCrossSections env d
  .ok ⟨L, ps, xs⟩

/-! ### lau -/

/-- `HKL`, `singlecrystal.py:14-25` -/
structure Hkl where
  hkl : V3 ℝ
  F2 : ℝ

/-- a row, `lau.py:67-76` -/
def lauRow (env : Env) (cols : List (Text × ℤ)) (row : List Text) : Except Err Hkl := do
  let h ← env.float (← field cols row "column_h")
  let k ← env.float (← field cols row "column_k")
  let l ← env.float (← field cols row "column_l")
  let F2 ← env.float (← field cols row "column_F2")
  .ok ⟨⟨h, k, l⟩, F2⟩

/-- `parse`, `lau.py:20-43` with `getHKLs`, lines 46-79 -/
def parseLau (env : Env) (text : Text) : Except Err (Peaks.Lat × List Hkl) := do
  let d ← readComments text
  let L ← getLattice env (← getComment d "CELL".toList)
  let cols ← columns env d
  let hs ← (rows text).mapM (lauRow env cols)
  .ok (L, hs)

/-! ### the cross section of a powder -/

/-- the loop of `total_scattering_cross_section`, `powder.py:57-66`, for the wave number `k`, the wave length `l` and the volume of the
unit cell (`q` not 0) -/
def sumXs (k l ucvol : ℝ) (peaks : List Powder.Peak) : ℝ :=
  peaks.foldl (fun sigma p => if p.q > 2 * k then sigma
    else sigma + l ^ 3 / ucvol / 4 / (p.q / 2 / k) * p.F2 * p.mult) 0

/-- `total_scattering_cross_section`, `powder.py:29-67`; `none` for a negative energy -/
def totalXs (Ei ucvol : ℝ) (peaks : List Powder.Peak) : Option ℝ := do
  let k ← Sources.e2k Ei
  some (sumXs k (Real.pi * 2 / k) ucvol peaks)

/-! ### densities of states -/

/-- the lines of a density of states file: the numbers and the comments, `read_dos.py:30-45`.  Lines that are not numbers are skipped. -/
def dosLine (env : Env) (acc : List (List ℝ) × List Text) (line : Text) : List (List ℝ) × List Text :=
  match strip line with
  | [] => acc
  | c :: s =>
    if c = '#' then (acc.1, acc.2 ++ [s])
    else match (words (c :: s)).mapM env.float with
      | .ok r => (acc.1 ++ [r], acc.2)
      | .error _ => acc

/-- does the text occur, `desc.find(u) != -1` in `read_dos.py:61` -/
def contains (u s : Text) : Bool := (cut u s).isSome

/-- the unit named by a comment, `read_dos.py:58-65`; the inner `none`: no unit -/
def unitOf (c : Text) : Except Err (Option String) :=
  match words c with
  | [] => .error .indexError
  | desc :: _ => .ok (if contains "meV".toList desc then some "meV" else if contains "TeraHz".toList desc then some "TeraHz" else none)

/-- the loop over the comments, `read_dos.py:56-67` -/
def findUnit : List Text → Option String → Except Err (Option String)
  | [], x => .ok x
  | c :: cs, x => do
    match ← unitOf c with
    | some u => .ok (some u)
    | none => findUnit cs x

/-- `hertz2mev`, `idf/units.py:17-24`, for the value of meV in joule -/
def hertz2mev (meV : ℝ) : ℝ := 1.05457148e-34 / meV

/-- `np.array(data).T[:2]` and the squared errors, `read_dos.py:47-52`: all rows must be of the same length (numpy refuses others since
version 1.24) -/
def transposed (data : List (List ℝ)) : Except Err (List ℝ × List ℝ × Option (List ℝ)) :=
  match data with
  | [] => .error .valueError
  | r :: rs =>
    if rs.all (fun r' => r'.length = r.length) ∧ 2 ≤ r.length then
      .ok (data.map (·.getD 0 0), data.map (·.getD 1 0), if 2 < r.length then some (data.map fun x => x.getD 2 0 ^ 2) else none)
    else .error .valueError

/-- `doshist_fromascii`, `read_dos.py:25-78`: energies in meV, values, squared errors -/
def dosFromAscii (env : Env) (meV : ℝ) (text : Text) (xunit : Option String) : Except Err (List ℝ × List ℝ × Option (List ℝ)) := do
  let (data, comments) := (splitAll '\n' text).foldl (dosLine env) ([], [])
  let (E, I, err) ← transposed data
  let u ← findUnit comments xunit
  if u = some "meV" then .ok (E, I, err)
  else if u = some "TeraHz" then .ok (E.map (· * (2 * Real.pi * 1e12 * hertz2mev meV)), I, err)
  else .error .notImplemented

end
end Verif.DataFiles
