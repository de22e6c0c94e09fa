import Verif.Model.McGuide
import Verif.Model.Detector
import Mathlib.Analysis.SpecialFunctions.Trigonometric.Arctan
import Mathlib.Analysis.SpecialFunctions.Trigonometric.Inverse
/-!
The curved guide `packages/legacycomponents/mcstas2/share/McStas-Components/optics/Bender.comp`.

Real numbers instead of doubles; `exit` is `cppException`; `none`: not a number.
-/

namespace Verif.McBend
open McStas Kinem McGuide Detector
noncomputable section
open Classical

/-- the parameters of one kind of mirrors, `Bender.comp:96`: `R0a, Qca, alphaa, ma, Wa` and the same for `i` and `s` -/
structure Coat where
  (R0 Qc alpha m W : ℝ)

/-- `Bender.comp:96`; `a`: concave walls, `i`: convex walls, `s`: top and bottom -/
structure Bender where
  (w h r Win k d : ℝ)
  (a i s : Coat)
  (l : ℝ)

/-- `bd_sgn`, `Bender.comp:118-124` -/
def sgn (x : ℝ) : ℝ := if 0 ≤ x then 1 else -1

/-- `fmod` of C, used in `Bender.comp:217, 278` -/
def fmodC (x y : ℝ) : ℝ := x - truncInt (x / y) * y

/-- `acos`, used in `Bender.comp:188, 206` -/
def acosD (x : ℝ) : Option ℝ := if x < -1 ∨ 1 < x then none else some (Real.arccos x)

/-- `mWin`, `Bender.comp:146-147` -/
def Bender.mWin (c : Bender) : ℝ := if c.l ≠ 0 ∧ c.r ≠ 0 then c.l / c.r else c.Win

/-- `bk`, `Bender.comp:148` -/
def Bender.bk (c : Bender) : ℝ := (c.w + c.d) / c.k

/-- `INITIALIZE`, `Bender.comp:135-144` -/
def Bender.check (c : Bender) : Except Err Unit :=
  if c.r < 0 then .error .cppException
  else if c.k * c.d > c.w then .error .cppException
  else if c.w * c.h * c.r * c.Win * c.k = 0 then .error .cppException
  else .ok ()

/-- the argument of the edge and the reflectivity, `Bender.comp:191-197, 208-212, 266-270` -/
def Coat.look (c : Coat) (Q : ℝ) : ℝ × ℝ :=
  if Q ≤ c.Qc then (0, c.R0)
  else
    let arg := (Q - c.m * c.Qc) / c.W
    (arg, 0.5 * c.R0 * (1 - Real.tanh arg) * (1 - c.alpha * (Q - c.Qc)))

/-- what is found in the plane of the bend, `Bender.comp:157-159` -/
structure Plane where
  (aus b Ta arga argi aeuref innref : ℝ)
  (numa numi : ℤ)

/-- the reflections in the plane, `Bender.comp:182-232, 244-248`; `b` is `R-dab`, `ww` is `bk-d` -/
def Bender.plane (c : Bender) (R ab ww vx vz vpl : ℝ) : Option Plane :=
  if vz = 0 ∨ R = 0 then none
  else
    let ein := Real.arctan (vx / vz)
    let dab := R - Real.cos ein * (R - ab)
    match acosD ((R - dab) / R) with
    | none => none
    | some aeu =>
      let (arga, aeuref) := c.a.look (2 * V2K * vpl * Real.sin aeu)
      let inner := if dab > ww then
          (if R - ww = 0 then none
          else match acosD ((R - dab) / (R - ww)) with
            | none => none
            | some inn =>
              let (argi, innref) := c.i.look (2 * V2K * vpl * Real.sin inn)
              some (inn, argi, innref))
        else some (0, 0, 1)
      match inner with
      | none => none
      | some (inn, argi, innref) =>
        let zyk := 2 * (aeu - inn)
        if zyk = 0 then none
        else
          let s := c.mWin + ein + aeu - inn * (1 + sgn ein)
          let out := fmodC s zyk - zyk / 2
          let aus := out + inn * sgn out
          let numa := truncInt (s / zyk)
          let numi := if aus * ein < 0 then (if aus - ein > 0 then numa + 1 else numa - 1) else numa
          let Ta := (2 * numa * (Real.tan aeu - Real.tan inn) + Real.tan aus - Real.tan ein - Real.tan inn * (sgn aus - sgn ein)) * (R - dab) / vpl
          some ⟨aus, R - dab, Ta, arga, argi, aeuref, innref, numa, numi⟩

/-- the reflections at top and bottom, `Bender.comp:262-291`; the loop of lines 285-287 is a power -/
def Bender.vertical (c : Bender) (Ta : ℝ) (e : Event ℝ) : Event ℝ :=
  if e.v.y ≠ 0 then
    let (arg, ref) := c.s.look (2 * V2K * |e.v.y|)
    let einzei := c.h / 2 / |e.v.y| + e.r.y / e.v.y
    let zykzei := c.h / |e.v.y|
    let num := truncInt ((Ta + einzei) / zykzei)
    let auszei := fmodC (Ta + einzei) zykzei
    if num > 0 ∧ arg > 10 then absorb e
    else
      let vy := e.v.y * (-1) ^ num.toNat
      { e with p := e.p * ref ^ num.toNat, v := ⟨e.v.x, vy, e.v.z⟩, r := ⟨e.r.x, auszei * vy - vy * c.h / |vy| / 2, e.r.z⟩ }
  else e

/-- `TRACE`, `Bender.comp:163-298`; the loops of lines 239-242 are powers -/
def bender (c : Bender) (G : Gravity) (e : Event ℝ) : Option (Event ℝ) :=
  let e := propZ0 G e
  if |e.r.x| < c.w / 2 ∧ |e.r.y| < c.h / 2 then
    let dru := ⌊(c.w / 2 - e.r.x) / c.bk⌋ * c.bk
    let ab := c.w / 2 - e.r.x - dru
    let R := c.r - dru
    if ab < c.bk - c.d then
      let vpl := √(e.v.x * e.v.x + e.v.z * e.v.z)
      match c.plane R ab (c.bk - c.d) e.v.x e.v.z vpl with
      | none => none
      | some q =>
        if (q.numa > 0 ∧ q.arga > 10) ∨ (q.numi > 0 ∧ q.argi > 10) then some (absorb e)
        else
          let ab := R - q.b / Real.cos q.aus
          some (c.vertical q.Ta
            { e with
              p := e.p * q.aeuref ^ q.numa.toNat * q.innref ^ q.numi.toNat
              t := e.t + q.Ta
              r := ⟨c.w / 2 - ab - dru, e.r.y, c.r * c.mWin⟩
              v := ⟨Real.sin q.aus * vpl, e.v.y, Real.cos q.aus * vpl⟩ })
    else some (absorb e)
  else some (absorb e)

end
end Verif.McBend
