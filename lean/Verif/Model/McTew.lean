import Verif.Model.McMonitors
/-!
The monitor of position and time, energy or wavelength,
`packages/legacycomponents/mcstas2/share/McStas-Components/monitors/PSD_TEW_monitor.comp`; lines without a file are lines of it.

Real numbers instead of doubles; something that is not a number, or infinite, is `none`.  The conversion of such a thing to an
integer is undefined behaviour.  The numbers of channels are natural numbers.  The constants `V2K` and `VS2E` are arguments.  Not
modelled: `format="McStas"` after the check of the keyword, the messages, the rounding of the numbers in the file.
-/

namespace Verif.McTew
open McStas McMon Kinem
noncomputable section
open Classical

/-- the keyword `type`, lines 87, 155-161 -/
inductive Kind where
  | time | energy | wavelength

/-- lines 87-90: another keyword is an exception -/
def kindOf (s : String) : Except Err Kind :=
  if s = "time" then .ok .time
  else if s = "energy" then .ok .energy
  else if s = "wavelength" then .ok .wavelength
  else .error .cppException

/-- the variables of `DECLARE`, lines 74-77, with the numbers of channels -/
structure Tew where
  kind : Kind
  (xmin xmax dx ymin ymax dy bmin bmax db : ℝ)
  (nx ny nb : Nat)

/-- `INITIALIZE`, lines 83-145; the arrays are `Hist.zero` -/
def Tew.new (type format : String) (xwidth yheight bmin bmax deltab : ℝ) (nx ny nb : Nat) : Except Err Tew := do
  let kind ← kindOf type
  if format ≠ "table" ∧ format ≠ "McStas" then .error .cppException
  else if xwidth ≤ 0 ∨ yheight < 0 then .error .cppException
  else if bmin ≥ bmax ∧ bmax > 0 then .error .cppException
  else
    let (lo, hi, db) := if bmax ≠ 0 then (bmin, bmax, (bmax - bmin) / nb) else (0, nb * deltab + 0, deltab)
    .ok { kind := kind, xmin := -xwidth / 2, xmax := -(-xwidth / 2), dx := xwidth / nx,
          ymin := -yheight / 2, ymax := -(-yheight / 2), dy := yheight / ny, bmin := lo, bmax := hi, db := db,
          nx := nx, ny := ny, nb := nb }

/-- `bb`, lines 155-163 -/
def Tew.value (m : Tew) (V2K VS2E : ℝ) (e : Event ℝ) : Option ℝ :=
  match m.kind with
  | .time => some (e.t * 1e3)
  | .energy => some (VS2E * (e.v.x * e.v.x + e.v.y * e.v.y + e.v.z * e.v.z))
  | .wavelength => divD (2 * Real.pi / V2K) (√(e.v.x * e.v.x + e.v.y * e.v.y + e.v.z * e.v.z))

/-- the position in the arrays, `element_3Darr`, lines 55-58 -/
def flat (ny nb : Nat) (i j k : ℤ) : ℤ := i * ny * nb + j * nb + k

/-- the numbers of the channels, lines 170-181 -/
def Tew.index (m : Tew) (bb : ℝ) (e : Event ℝ) : Option ℤ := do
  let i ← divD (e.r.x - m.xmin) m.dx
  let j ← divD (e.r.y - m.ymin) m.dy
  let k ← divD (bb - m.bmin) m.db
  some (flat m.ny m.nb (clamp ⌊i⌋ m.nx) (clamp ⌊j⌋ m.ny) (clamp ⌊k⌋ m.nb))

/-- `TRACE`, lines 149-189.  A wavelength that is infinite is not in the range. -/
def Tew.trace (m : Tew) (V2K VS2E : ℝ) (G : Gravity) (h : Hist) (e : Event ℝ) : Except Err (Hist × Event ℝ) :=
  match m.value V2K VS2E e with
  | none => .ok (h, e)
  | some bb =>
    if bb ≥ m.bmin ∧ bb ≤ m.bmax then
      match boxIntersect e.r e.v ⟨m.xmax - m.xmin, m.ymax - m.ymin, 1e-4⟩ with
      | none => .ok (h, e)
      | some (t0, _) =>
        let e := propDt G t0 e
        if e.p < 0 then .ok (h, e)
        else match m.index bb e with
          | none => .error .undefinedBehaviour
          | some n => (h.add n e.p).map (·, e)
    else .ok (h, e)

/-! ### the table -/

/-- `b_multiplier`, lines 196-204 -/
def Kind.multiplier : Kind → ℝ
  | .time => 0.1
  | .energy => 0.1
  | .wavelength => 1e-4

/-- the intensity in the table, line 304 -/
def Tew.density (m : Tew) (c : Cell) : Option ℝ := do
  let x ← divD c.p m.dx
  let x ← divD x m.dy
  let x ← divD x m.db
  some (x * m.kind.multiplier)

/-- `mcget_run_num`, `packages/legacycomponents/mcstas2/lib/misc_macros.h:31` -/
def runNum : ℝ := 1

/-- the relative error in the table, lines 297-303; the first argument is `mcget_run_num()`, line 248 -/
def stdv (run : ℝ) (c : Cell) : Option ℝ := do
  let one ← divD 1 run
  let s ← if c.p2 > 0 then (do let a ← divD c.p2 c.p; let b ← divD a c.p; some (b - one)) else some 0
  some (if s > 1 then 1 else if s < 0 then 0 else √s)

/-- `N`, `I` and `ERR` after the loop, lines 249-260 -/
def total (h : Hist) : Cell :=
  (List.range h.size).foldl (fun s i => ⟨s.N + (h.cell i).N, s.p + (h.cell i).p, s.p2 + (h.cell i).p2⟩) ⟨0, 0, 0⟩

/-- the error of the total intensity, `I*ERR`, lines 261-264 and 272; a root of a negative number is not a number -/
def totalErr (run : ℝ) (c : Cell) : Option ℝ := do
  let one ← divD 1 run
  let err ← if c.p > 0 then (if c.p2 / c.p / c.p - one < 0 then none else some (√(c.p2 / c.p / c.p - one))) else some c.p2
  some (c.p * err)

/-- the edges of the channels in the head of the table, lines 287-289 -/
def Tew.edges (m : Tew) : List ℝ := (List.range (m.nb + 1)).map fun k : ℕ => m.bmin + k * m.db

end
end Verif.McTew
