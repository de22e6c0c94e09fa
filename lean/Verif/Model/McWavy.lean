import Verif.Model.McGuide
/-!
The guide with waviness, `packages/legacycomponents/mcstas2/share/McStas-Components/optics/Guide_wavy.comp`.

Conventions as in `Verif.Model.McGuide`.
-/

namespace Verif.McWavy
open McStas Kinem McGuide
noncomputable section
open Classical

/-- the parameters of `Guide_wavy.comp:60-66` -/
structure Wavy where
  (w1 h1 w2 h2 l R0 Qc alpha1 m1 W1 alpha2 m2 W2 alpha3 m3 W3 alpha4 m4 W4 wavyZ wavyXY : ℝ)

/-- `eta_z`, `Guide_wavy.comp:81` -/
def Wavy.etaZ (g : Wavy) : ℝ := g.wavyZ / √(8 * Real.log 2)
/-- `eta_xy`, `Guide_wavy.comp:82` -/
def Wavy.etaXY (g : Wavy) : ℝ := g.wavyXY / √(8 * Real.log 2)

/-- `DEG2RAD`, `lib/phys_constants.h:17-20` -/
def DEG2RAD : ℝ := Real.pi / 180

/-- the four mirrors in the order of the tests, `Guide_wavy.comp:76-78, 117-126` -/
def Wavy.walls (g : Wavy) : List Wall :=
  let fh := 0.5 * (g.w2 - g.w1)
  let fv := 0.5 * (g.h2 - g.h1)
  let whalf := 0.5 * g.w1
  let hhalf := 0.5 * g.h1
  [⟨⟨-g.l, 0, fh⟩, whalf * g.l⟩, ⟨⟨g.l, 0, fh⟩, whalf * g.l⟩, ⟨⟨0, -g.l, fv⟩, hhalf * g.l⟩, ⟨⟨0, g.l, fv⟩, hhalf * g.l⟩]

/-- the time to the exit, `Guide_wavy.comp:128`; as in `Guide.toExit` -/
def Wavy.toExit (g : Wavy) (e : Event ℝ) : EReal :=
  if e.v.z = 0 then (if e.r.z < g.l then ⊤ else ⊥) else (((g.l - e.r.z) / e.v.z : ℝ) : EReal)

/-- time and mirror of the next reflection, `Guide_wavy.comp:128-157`; the tests are those of `Guide.comp` -/
def Wavy.next (g : Wavy) (e : Event ℝ) : Option (ℝ × Wall) := (g.walls.foldl (nearer e) (g.toExit e, none)).2

/-- coating and rotated normal of the mirror, `Guide_wavy.comp:197-242`; the mirror is recognised by its normal -/
def Wavy.case (g : Wavy) (w : Wall) (dz dxy : ℝ) : Coating × V3 ℝ :=
  let fh := 0.5 * (g.w2 - g.w1)
  let fv := 0.5 * (g.h2 - g.h1)
  if w.n.x < 0 then (⟨g.R0, g.Qc, g.alpha1, g.m1, g.W1, none⟩, ⟨-g.l + fh * dz, g.l * dxy, fh - g.l * dz⟩)
  else if w.n.x > 0 then (⟨g.R0, g.Qc, g.alpha2, g.m2, g.W2, none⟩, ⟨g.l + fh * dz, -g.l * dxy, fh + g.l * dz⟩)
  else if w.n.y < 0 then (⟨g.R0, g.Qc, g.alpha3, g.m3, g.W3, none⟩, ⟨g.l * dxy, -g.l + fv * dz, fv - g.l * dz⟩)
  else (⟨g.R0, g.Qc, g.alpha4, g.m4, g.W4, none⟩, ⟨-g.l * dxy, g.l + fv * dz, fv + g.l * dz⟩)

/-- the momentum transfer and the change of the velocity for the rotated normal, `Guide_wavy.comp:201-208, 212-219, 223-230, 234-241` -/
def kick (n v : V3 ℝ) : ℝ × V3 ℝ :=
  let normN2 := n.dot n
  let vdotn := v.dot n
  (2 * V2K * |vdotn| / √normN2, (-2 * vdotn / normN2) • n)

/-- the loop of `Guide_wavy.comp:114-263`; `none`: more turns than `fuel`.  `rnd`: the random numbers of the turns; the reflectivity is that of
`Guide.comp:197-212` -/
def Wavy.loop (g : Wavy) (G : Gravity) : Nat → (ℕ → ℝ × ℝ) → Event ℝ → Option (Event ℝ)
  | 0, _, _ => none
  | fuel + 1, rnd, e =>
    match g.next e with
    | none => some e
    | some (tmin, w) =>
      let e := propDt G tmin e
      let dz := DEG2RAD * g.etaZ * (rnd 0).1
      let dxy := DEG2RAD * g.etaXY * (rnd 0).2
      let (c, n) := g.case w dz dxy
      let (q, dv) := kick n e.v
      match c.weight q with
      | none => some (absorb e)
      | some weight => loop g G fuel (fun i => rnd (i + 1)) { e with p := e.p * weight, v := e.v + dv }

/-- `Guide_wavy.comp:92-264` -/
def Wavy.trace (g : Wavy) (G : Gravity) (fuel : Nat) (rnd : ℕ → ℝ × ℝ) (e : Event ℝ) : Option (Event ℝ) :=
  let e := propZ0 G e
  let whalf := 0.5 * g.w1
  let hhalf := 0.5 * g.h1
  if e.r.x ≤ -whalf ∨ e.r.x ≥ whalf ∨ e.r.y ≤ -hhalf ∨ e.r.y ≥ hhalf then some (absorb e) else g.loop G fuel rnd e

end
end Verif.McWavy
