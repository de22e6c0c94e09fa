import Verif.Model.McConst
import Mathlib.Analysis.SpecialFunctions.Trigonometric.Arctan
import Mathlib.Analysis.SpecialFunctions.Trigonometric.Inverse
/-!
The moderators of the second target station:
`packages/legacycomponents/mcstas2/share/McStas-Components/sources/STS_Source.comp`.

Real numbers instead of doubles.  Modelled are the places, the directions and the factor of the weight; the energy and the time are found
as in `SNS_source_r1.comp` (`SnsSource`).  The square root of a negative number and the arc sine of a number above 1 are not numbers in the code; the
theorems exclude them.
-/

namespace Verif.StsSource
noncomputable section
open Classical

/-- parameters, `STS_Source.comp:67-69` -/
structure Par where
  (radius xwidth yheight dist focus_xw focus_yh PPower Frequency MOffangle : ℝ)
  dmode : Bool

/-- numbers in the head of the file, `STS_Source.comp:124-152` -/
structure File where
  (PPower0 Frequency0 MRadius0 MOffangle0 PHeight PWidth TRadius : ℝ)

/-- the angle between the normal of the moderator and the beam, `STS_Source.comp:370-373, 389-392` -/
def offangle (c : Par) (f : File) : ℝ := if c.MOffangle ≠ f.MOffangle0 ∧ c.MOffangle > -1000 then c.MOffangle else f.MOffangle0

/-- the same in radians, `STS_Source.comp:374, 397, 458` -/
def off (c : Par) (f : File) : ℝ := Real.pi / 180 * offangle c f

/-- the radius that is used, `STS_Source.comp:363-366` -/
def radius (c : Par) (f : File) : ℝ := if c.radius > f.TRadius ∨ c.radius ≤ 0 then f.TRadius else c.radius

/-- the width that is used, `STS_Source.comp:381-384` -/
def xwidth (c : Par) (f : File) : ℝ := if c.xwidth > f.PWidth ∨ c.xwidth ≤ 0 then f.PWidth else c.xwidth

/-- the height that is used, `STS_Source.comp:385-388` -/
def yheight (c : Par) (f : File) : ℝ := if c.yheight > f.PHeight ∨ c.yheight ≤ 0 then f.PHeight else c.yheight

/-- `srcArea/Anorm`, `STS_Source.comp:362-367, 380-396, 410` -/
def share (c : Par) (f : File) : ℝ :=
  if f.TRadius ≠ 0 then Real.pi * radius c f * radius c f / (Real.pi * f.TRadius * f.TRadius)
  else xwidth c f * yheight c f / (f.PWidth * f.PHeight)

/-- `p_in`, `STS_Source.comp:358, 410-416` -/
def p_in (c : Par) (f : File) : ℝ :=
  c.focus_xw * c.focus_yh / (c.dist * c.dist) * share c f * (if c.PPower ≠ 0 then c.PPower / f.PPower0 else 1) *
    (if c.Frequency ≠ 0 then f.Frequency0 / c.Frequency else 1)

/-- `cylz`, `STS_Source.comp:397` -/
def cylz (c : Par) (f : File) : ℝ := -f.MRadius0 * Real.cos (off c f)

/-- `cylx`, `STS_Source.comp:398` -/
def cylx (c : Par) (f : File) : ℝ := -f.MRadius0 * Real.sin (off c f)

/-- the angle from the middle to an edge, `STS_Source.comp:399-402` -/
def cylphi (c : Par) (f : File) (edge : ℝ) : ℝ :=
  let arg := Real.sqrt (f.MRadius0 * f.MRadius0 - (edge - cylx c f) ^ 2) + cylz c f
  2 * Real.arcsin (Real.sqrt (arg * arg + xwidth c f * xwidth c f / 4) / 2 / f.MRadius0)

/-- `cylphi1`, `STS_Source.comp:399-400` -/
def cylphi1 (c : Par) (f : File) : ℝ := cylphi c f (xwidth c f / 2)

/-- `cylphi2`, `STS_Source.comp:401-402` -/
def cylphi2 (c : Par) (f : File) : ℝ := cylphi c f (-xwidth c f / 2)

/-- the place where the neutron starts, `STS_Source.comp:444-462`; two random numbers are used -/
def place (c : Par) (f : File) (u1 u2 : ℝ) : V3 ℝ :=
  if f.TRadius ≠ 0 then
    let chi := 2 * Real.pi * u1
    let r := Real.sqrt u2 * radius c f
    ⟨r * Real.cos chi, r * Real.sin chi, Real.tan (off c f) * (r * Real.cos chi)⟩
  else if c.dmode then
    let x := (u2 - 0.5) * xwidth c f
    ⟨x, (u1 - 0.5) * yheight c f, Real.sqrt (f.MRadius0 * f.MRadius0 - (x - cylx c f) ^ 2) + cylz c f⟩
  else
    let ang := -cylphi1 c f + u2 * (cylphi1 c f + cylphi2 c f) + off c f
    ⟨cylx c f + f.MRadius0 * Real.sin ang, (u1 - 0.5) * yheight c f, cylz c f + f.MRadius0 * Real.cos ang⟩

/-- `hdivmin`, `hdivmax`, or `vdivmin`, `vdivmax`, for the width (height) of the window and a coordinate of the place, `STS_Source.comp:465-468` -/
def div (window dist x : ℝ) : ℝ × ℝ := (Real.arctan (-(window / 2 + x) / dist), Real.arctan ((window / 2 - x) / dist))

/-- `theta` and `phi`, `STS_Source.comp:465-471` -/
def angles (c : Par) (r : V3 ℝ) (u3 u4 : ℝ) : ℝ × ℝ :=
  let h := div c.focus_xw c.dist r.x
  let v := div c.focus_yh c.dist r.y
  (h.1 + (h.2 - h.1) * u3, v.1 + (v.2 - v.1) * u4)

/-- the velocity, `STS_Source.comp:502-504` -/
def velocity (v theta phi : ℝ) : V3 ℝ := ⟨v * Real.cos phi * Real.sin theta, v * Real.sin phi, v * Real.cos phi * Real.cos theta⟩

end
end Verif.StsSource
