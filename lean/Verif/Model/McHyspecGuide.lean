import Verif.Model.McGuide
import Mathlib.Analysis.SpecialFunctions.Trigonometric.Arctan
/-!
The curved guide of HYSPEC, `packages/legacycomponents/mcstas2/share/McStas-Components/optics/HYSPEC_Guide_curved.comp`.

Conventions as in `Verif.Model.McGuide`; the parameters `psi_out`, `xout`, `zout` are not used by the code.
-/

namespace Verif.McHyspec
open McStas Kinem McGuide
noncomputable section
open Classical

/-- the parameters of `HYSPEC_Guide_curved.comp:50-51` -/
structure Guide where
  (w h l R0 Qc alpha ml mr mb mt W nseg R dseg : ℝ)

/-- a segment as a straight guide, `HYSPEC_Guide_curved.comp:63-70`; the lines 82-114 are `Guide.comp:129-162` -/
def Guide.segment (g : Guide) (m : ℝ) : McGuide.Guide := ⟨g.w, g.h, g.w, g.h, g.l, ⟨g.R0, g.Qc, g.alpha, m, g.W, none⟩⟩

/-- the coating of a mirror, `HYSPEC_Guide_curved.comp:125, 133, 141, 149`; the mirror is recognised by its normal (as numbered in
lines 95-114) -/
def Guide.coat (g : Guide) (w : Wall) : ℝ :=
  if w.n.x > 0 then g.ml else if w.n.x < 0 then g.mr else if w.n.y > 0 then g.mb else g.mt

/-- what happens in a segment: `none`: the trace does not end, or not a number; `true`: the neutron was absorbed and the trace is left.
The loop `HYSPEC_Guide_curved.comp:80-165`; the reflectivity, lines 152-163, is that of `Guide.comp:197-212`.  Simplified: with `vz` = 0 and no
mirror ahead the flight has an infinite time, here `none`. -/
def Guide.loop (g : Guide) (G : Gravity) : Nat → Event ℝ → Option (Bool × Event ℝ)
  | 0, _ => none
  | fuel + 1, e =>
    match (g.segment 0).next e with
    | none => if e.v.z = 0 then none else some (false, propDt G ((g.l - e.r.z) / e.v.z) e)
    | some (t1, w) =>
      let e := propDt G t1 e
      let (q, v) := bounce w e.v
      let e := { e with v := v }
      match (g.segment (g.coat w)).coat.weight q with
      | none => some (true, absorb e)
      | some weight => loop g G fuel { e with p := e.p * weight }

/-- a segment, `HYSPEC_Guide_curved.comp:76-165` -/
def Guide.pass (g : Guide) (G : Gravity) (fuel : Nat) (e : Event ℝ) : Option (Bool × Event ℝ) :=
  let e := propZ0 G e
  let whalf := 0.5 * g.w
  let hhalf := 0.5 * g.h
  if e.r.x ≤ -whalf ∨ e.r.x ≥ whalf ∨ e.r.y ≤ -hhalf ∨ e.r.y ≥ hhalf then some (true, absorb e) else g.loop G fuel e

/-- `alf`, `HYSPEC_Guide_curved.comp:71` -/
def Guide.alf (g : Guide) : ℝ := 2 * Real.arctan (0.5 * (g.l + g.dseg) / g.R)

/-- into the frame of the next segment, `HYSPEC_Guide_curved.comp:167-174` -/
def Guide.turn (g : Guide) (e : Event ℝ) : Event ℝ :=
  let ca := Real.cos g.alf
  let sa := Real.sin g.alf
  { e with
    r := ⟨(-e.r.z + g.l + 0.5 * g.dseg) * sa + e.r.x * ca, e.r.y, (e.r.z - g.l - 0.5 * g.dseg) * ca + e.r.x * sa - 0.5 * g.dseg⟩
    v := ⟨-e.v.z * sa + e.v.x * ca, e.v.y, e.v.z * ca + e.v.x * sa⟩ }

/-- the loop over the segments, `HYSPEC_Guide_curved.comp:74-175`; the number of turns that are left and `iseg` -/
def Guide.segments (g : Guide) (G : Gravity) (fuel : Nat) : Nat → ℝ → Event ℝ → Option (Bool × Event ℝ)
  | 0, _, e => some (false, e)
  | n + 1, iseg, e =>
    match g.pass G fuel e with
    | none => none
    | some (true, e) => some (true, e)
    | some (false, e) => if iseg = g.nseg then some (false, e) else segments g G fuel n (iseg + 1) (g.turn e)

/-- `HYSPEC_Guide_curved.comp:54-190` -/
def Guide.trace (g : Guide) (G : Gravity) (fuel : Nat) (e : Event ℝ) : Option (Event ℝ) :=
  match g.segments G fuel ⌈g.nseg⌉₊ 1 e with
  | none => none
  | some (true, e) => some e
  | some (false, e) => some { e with r := ⟨e.r.x, e.r.y, e.r.z + (g.nseg - 1) * (g.l + g.dseg)⟩ }

end
end Verif.McHyspec
