import Verif.Model.McTew
/-!
The histogram that is made from a monitor of position and time, energy or wavelength:
`packages/legacycomponents/mcstas2/python/mcstas2/components/_proxies/monitors/PSD_TEW_monitor.save.py`; lines without a file are lines
of it. The monitor itself is that of C315.

Real numbers instead of doubles.
-/

namespace Verif.TewSave
open McMon
noncomputable section
open Classical

/-- the settings of the monitor that are read, lines 28-43 -/
structure Core where
  (xwidth yheight bmin bmax deltab : ℝ)
  (nx ny nb : Nat)

/-- a python division, lines 34, 35, 40 -/
def quot (a b : ℝ) : Except Err ℝ := if b = 0 then .error .zeroDivision else .ok (a / b)

/-- `arange(start, stop, step)`, lines 51-53, as in numpy: as many numbers as the quotient rounded up -/
def arange (start stop step : ℝ) : Except Err (List ℝ) := do
  let n ← quot (stop - start) step
  return (List.range ⌈n⌉.toNat).map fun i : ℕ => start + i * step

/-- an axis `axis(name, boundaries = arange(lo, hi + d/10, d))`, lines 51-53 -/
def boundaries (lo hi d : ℝ) : Except Err (List ℝ) := arange lo (hi + d / 10) d

/-- the range of the third axis: `bmin`, `bmax` and `db`, lines 37-44 -/
def Core.range (c : Core) : Except Err (ℝ × ℝ × ℝ) :=
  if c.bmax ≠ 0 then do return (c.bmin, c.bmax, ← quot (c.bmax - c.bmin) c.nb)
  else .ok (0, c.nb * c.deltab + 0, c.deltab)

/-- a histogram with three axes, lines 55-57 -/
structure Histogram where
  (x y b : List ℝ)
  (I E2 : ℕ → ℕ → ℕ → ℝ)

/-- `arr.shape = nx, ny, nb`, lines 30, 48: the last number is the fastest -/
def reshape (ny nb : Nat) (a : ℕ → ℝ) (i j k : ℕ) : ℝ := a ((i * ny + j) * nb + k)

/-- `get_histogram`, lines 24-58. Simplification: the histogram refuses arrays that do not fit its axes with a `ValueError` -/
def getHistogram (c : Core) (h : Hist) : Except Err Histogram := do
  let xmin := -c.xwidth / 2
  let xmax := c.xwidth / 2
  let ymin := -c.yheight / 2
  let ymax := c.yheight / 2
  let dx ← quot (xmax - xmin) c.nx
  let dy ← quot (ymax - ymin) c.ny
  let (bmin, bmax, db) ← c.range
  let x ← boundaries xmin xmax dx
  let y ← boundaries ymin ymax dy
  let b ← boundaries bmin bmax db
  if x.length ≠ c.nx + 1 ∨ y.length ≠ c.ny + 1 ∨ b.length ≠ c.nb + 1 then throw .valueError
  return ⟨x, y, b, reshape c.ny c.nb fun n => (h.cell n).p, reshape c.ny c.nb fun n => (h.cell n).p2⟩

end
end Verif.TewSave
