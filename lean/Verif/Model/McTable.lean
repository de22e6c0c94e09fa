import Verif.Model.Kinem
import Mathlib.Algebra.Order.Floor.Ring
/-!
Tables of the McStas components, `packages/legacycomponents/mcstas2/lib/share/read_table-lib.cc`: statistics, values between the rows, and the
change to even steps.  (Not modelled: reading from files.)

Real numbers instead of doubles.
-/

namespace Verif.McTable
open Kinem
noncomputable section
open Classical

/-- `t_Table`, `read_table-lib.h:127-146`; `linear`: the field `method` is "linear" (else "nearest").  The data are a function of the index;
only the indices below `rows * columns` belong to the table, which is not empty if there are such. -/
structure Table where
  (rows columns : Nat)
  (data : Nat → ℝ)
  (minX maxX stepX : ℝ)
  (monotonic constantStep linear : Bool)

/-- `FLT_MAX`, used in `read_table-lib.cc:846-847` -/
def fltMax : ℝ := 3.40282347e38
/-- `READ_TABLE_STEPTOL`, `read_table-lib.h:87` -/
def stepTol : ℝ := 0.02

/-- a table as it is after the data were read and before the statistics: the fields of `Table_Init`, `read_table-lib.cc:798-810` -/
def Table.raw (rows columns : Nat) (data : Nat → ℝ) : Table := ⟨rows, columns, data, 0, 0, 0, false, false, true⟩

/-- `Table_Index`, `read_table-lib.cc:594-615` -/
def Table.index (t : Table) (i j : ℤ) : ℝ :=
  let i := if i < 0 then 0 else i
  let j := if j < 0 then 0 else j
  let k := if t.columns = 1 ∨ t.rows = 1 then i + j
    else
      let i := if i ≥ t.rows then (t.rows : ℤ) - 1 else i
      let j := if j ≥ t.columns then (t.columns : ℤ) - 1 else j
      i * t.columns + j
  let k := if k ≥ t.rows * t.columns then (t.rows * t.columns : ℤ) - 1 else if k < 0 then 0 else k
  if t.rows * t.columns = 0 then 0 else t.data k.toNat

/-- the value of the first column or vector in `Table_Stat`, `read_table-lib.cc:854-855` -/
def Table.first (t : Table) (i : Nat) : ℝ := if t.rows ≠ 1 then t.index i 0 else t.index 0 i

/-- `mc_rt_diff` in `Table_Stat`, `read_table-lib.cc:865-867` and 877-879 -/
def Table.diff (t : Table) (i : Nat) : ℝ := t.index (i + 1) 0 - t.first i

/-- one turn of the loop over the steps, `read_table-lib.cc:863-872` -/
def Table.stepTurn (t : Table) (s : ℝ × Bool) (i : Nat) : ℝ × Bool :=
  (if |t.diff i| < |s.1| then t.diff i else s.1, if (t.maxX - t.minX) * t.diff i < 0 ∧ s.2 = true then false else s.2)

/-- the test of one step, `read_table-lib.cc:880-881` -/
def even (step diff : ℝ) : Prop := |step| * (1 - stepTol) < |diff| ∧ |diff| < |step| * (1 + stepTol)

/-- `Table_Stat`, `read_table-lib.cc:833-891` -/
def Table.stat (t : Table) : Table :=
  if t.rows = 0 ∨ t.columns = 0 then t
  else
    let n := if t.rows ≠ 1 then t.rows else t.columns
    let minX := (List.range n).foldl (fun m i => if t.first i < m then t.first i else m) fltMax
    let maxX := (List.range n).foldl (fun m i => if t.first i > m then t.first i else m) (-fltMax)
    let s := if n > 1 then (List.range (n - 1)).foldl t.stepTurn ((maxX - minX) / (n - 1), true) else (0, true)
    let constantStep := if n > 1 ∧ s.2 = true then (List.range (n - 1)).all fun i => decide (even s.1 (t.diff i)) else true
    { t with stepX := s.1, maxX := maxX, minX := minX, monotonic := s.2, constantStep := constantStep }

/-- `Table_Interp1d`, `read_table-lib.cc:1051-1060` -/
def interp (x x1 y1 x2 y2 : ℝ) : ℝ :=
  if x2 = x1 then (y1 + y2) / 2
  else if y1 = y2 then y1
  else y1 + (y2 - y1) / (x2 - x1) * (x - x1)

/-- `Table_Interp1d_nearest`, `read_table-lib.cc:1067-1073` -/
def interpNearest (x x1 y1 x2 y2 : ℝ) : ℝ := if |x - x1| < |x - x2| then y1 else y2

/-- the loop of `Table_Value`, `read_table-lib.cc:666-671`: `turns` turns are left; the result is the index and the two places, `none` as long
as they are not initialised -/
def Table.search (t : Table) (X : ℝ) : (turns index : Nat) → Option (ℝ × ℝ) → Nat × Option (ℝ × ℝ)
  | 0, i, o => (i, o)
  | turns + 1, i, _ =>
    let X2 := t.index i 0
    let X1 := t.index ((i : ℤ) - 1) 0
    if X1 ≤ X ∧ X < X2 then (i, some (X1, X2)) else t.search X turns (i + 1) (some (X1, X2))

/-- `Table_Value`, `read_table-lib.cc:655-688`.  `none`: the result depends on variables that are not initialised, or on the conversion of a
number that is not finite to an integer. -/
def Table.value (t : Table) (X : ℝ) (j : ℤ) : Option ℝ :=
  if X > t.maxX then some (t.index ((t.rows : ℤ) - 1) j)
  else if X < t.minX then some (t.index 0 j)
  else do
    let (i, X1, X2) ← if t.constantStep = false then
        let (i, o) := t.search X (t.rows - 2) 1 none
        o.map fun x => ((i : ℤ), x.1, x.2)
      else (divD (X - t.minX) (t.maxX - t.minX)).map fun a =>
        let i : ℤ := ⌊a * (t.rows : ℝ)⌋
        (i, t.index i 0, t.index (i + 1) 0)
    let Y2 := t.index i j
    let Y1 := t.index (i - 1) j
    if t.linear then some (interp X X1 Y1 X2 Y2) else some (interpNearest X X1 Y1 X2 Y2)

/-- `Table_Rebin`, `read_table-lib.cc:543-582`; `none`: a value is not defined.  Simplified: no row if the length is negative. -/
def Table.rebin (t : Table) : Option Table :=
  if t.rows * t.columns = 0 ∨ t.stepX = 0 then some t
  else
    let t := t.stat
    if t.constantStep then some t
    else
      let n := ⌈|t.maxX - t.minX| / t.stepX⌉.toNat
      let at' := fun i : Nat => t.minX + i * t.stepX
      if ∃ i j : Nat, i < n ∧ 1 ≤ j ∧ j < t.columns ∧ t.value (at' i) j = none then none
      else some { t with rows := n,
                         data := fun k => if k % t.columns = 0 then at' (k / t.columns)
                           else (t.value (at' (k / t.columns)) ((k % t.columns : Nat) : ℤ)).getD 0 }

end
end Verif.McTable
