import Verif.Model.McConst
/-!
Samples of McStas, `packages/legacycomponents/mcstas2/share/McStas-Components/samples/*.comp` (the components cited below are in this
directory).

Real numbers instead of doubles; `exit` is `cppException`.  Simplified: something that is not a number, or infinite, is `undefinedBehaviour`.
`ROT_A_CURRENT_COMP` is the identity (`lib/geometry.h:42`).  Random numbers of [0,1) are arguments.
-/

namespace Verif.McSample
open McStas Kinem McGuide McConst
noncomputable section
open Classical

/-- a value that may be not a number (no counterpart: the doubles of `V_sample.comp:182-304` carry it along) -/
def num {α : Type} (o : Option α) : Except Err α := match o with
  | none => .error .undefinedBehaviour
  | some a => .ok a

/-! ### V_sample -/

/-- parameters of `V_sample.comp:86-89` -/
structure VPar where
  (radius_i radius_o h focus_r pack frac f_QE gamma target_x target_y target_z focus_xw focus_yh focus_aw focus_ah : ℝ)
  (xwidth yheight zthick sig_a sig_i V0 : ℝ)
  target_index : ℤ

/-- `StructVarsV`, `V_sample.comp:98-110`, without copies of parameters -/
structure VVars where
  (my_s my_a_v : ℝ)
  isrect : Bool
  (aw ah xw yh : ℝ)
  t : V3 ℝ

/-- `V_sample.comp:122-179` -/
def VPar.init (c : VPar) : Except Err VVars := do
  let isrect ← if c.xwidth = 0 ∨ c.yheight = 0 ∨ c.zthick = 0 then
      (if c.radius_o = 0 ∨ c.h = 0 then .error .cppException else .ok false)
    else .ok true
  let rho ← num (divD c.pack c.V0)
  .ok ⟨rho * 100 * c.sig_i, rho * 100 * c.sig_a, isrect, Real.pi / 180 * c.focus_aw, Real.pi / 180 * c.focus_ah, c.focus_xw, c.focus_yh,
    if c.target_index ≠ 0 then 0 else ⟨c.target_x, c.target_y, c.target_z⟩⟩

/-- entry and exit of the whole sample, `V_sample.comp:196-199` and 261, 274; the inner `none`: no intersection -/
def VPar.outer (c : VPar) (s : VVars) (r v : V3 ℝ) : Except Err (Option (ℝ × ℝ)) :=
  if s.isrect then .ok (boxIntersect r v ⟨c.xwidth, c.yheight, c.zthick⟩)
  else (num (cylinderIntersect r v c.radius_o c.h)).map fun o => o.map (·.2)

/-- entry and exit of the hole, `V_sample.comp:204-208` -/
def VPar.hole (c : VPar) (s : VVars) (r v : V3 ℝ) (t3 : ℝ) : Except Err (ℝ × ℝ) :=
  if s.isrect then .ok (t3, t3)
  else if c.radius_i = 0 then .ok (t3, t3)
  else (num (cylinderIntersect r v c.radius_i c.h)).map fun o => match o with
    | none => (t3, t3)
    | some x => x.2

/-- the vector to the target, `V_sample.comp:191, 226-230` -/
def VVars.aim (s : VVars) (r : V3 ℝ) : V3 ℝ :=
  if s.t.x ≠ 0 ∨ s.t.y ≠ 0 ∨ s.t.z ≠ 0 then ⟨s.t.x - r.x, s.t.y - r.y, s.t.z - r.z⟩ else ⟨0, 0, 1⟩

/-- the direction and the solid angle, `V_sample.comp:231-239` -/
def VPar.direction (c : VPar) (s : VVars) (aim : V3 ℝ) (u1 u2 : ℝ) : Except Err (V3 ℝ × ℝ) :=
  if s.aw ≠ 0 ∧ s.ah ≠ 0 then targetAngular aim s.aw s.ah M3.one u1 u2
  else if s.xw ≠ 0 ∧ s.yh ≠ 0 then num (targetRect aim s.xw s.yh M3.one u1 u2)
  else num (targetCircle aim c.focus_r u1 u2)

/-- the energy transfer, `V_sample.comp:246` -/
def quasi (gamma u : ℝ) : ℝ := gamma * Real.tan (Real.pi / 2 * (2 * u - 1))

/-- the speed after scattering, `V_sample.comp:242-254`; `none`: absorbed -/
def VPar.speed (c : VPar) (v uq ue : ℝ) : Option ℝ :=
  if uq < c.f_QE then
    let E := VS2E * v * v + quasi c.gamma ue
    if E ≤ 0 then none else some (SE2V * √E)
  else some v

/-- the time in the material after scattering, `V_sample.comp:260-281` -/
def VPar.leave (c : VPar) (s : VVars) (r v : V3 ℝ) : Except Err ℝ := do
  match ← c.outer s r v with
  | none => .error .cppException
  | some (_, t3) =>
    if s.isrect then .ok t3
    else match ← num (cylinderIntersect r v c.radius_i c.h) with
      | none => .ok t3
      | some (_, t1, t2) => if t2 > 0 then .ok (t3 - (t2 - t1)) else .ok t3

/-- `my_a`, `V_sample.comp:189, 215` -/
def VVars.absorption (s : VVars) (v : ℝ) : ℝ := if v ≠ 0 then s.my_a_v * (2200 / v) else 0

/-- the scattering, `V_sample.comp:218-297`, for `t0`, `t1`, `t2`, `t3` -/
def VPar.scatter (c : VPar) (s : VVars) (G : Gravity) (t0 t1 t2 t3 : ℝ) (e : Event ℝ) (ud u1 u2 uq ue : ℝ) : Except Err (Event ℝ) := do
  let dt0 := t1 - t0
  let dt1 := t2 - t1
  let dt2 := t3 - t2
  let v := √(e.v.x * e.v.x + e.v.y * e.v.y + e.v.z * e.v.z)
  let l_full := v * (dt0 + dt2)
  let my_a := s.absorption v
  let dt := ud * (dt0 + dt2)
  let l_i := v * dt
  let dt := if dt > dt0 then dt + dt1 else dt
  let e := propDt G (dt + t0) e
  let (d, solid) ← c.direction s (s.aim e.r) u1 u2
  let d := norm d
  match c.speed v uq ue with
  | none => .ok (absorb { e with v := d })
  | some vf => do
    let e := { e with v := (⟨d.x * vf, d.y * vf, d.z * vf⟩ : V3 ℝ) }
    let l_o := vf * (← c.leave s e.r e.v)
    let ratio ← num (divD vf v)
    let inverse ← num (divD v vf)
    let p := e.p * (ratio * l_full * s.my_s * Real.exp (-my_a * (l_i + inverse * l_o) - s.my_s * l_i))
    let p ← num (divD p (← num (divD (4 * Real.pi) solid)))
    let p ← num (divD p c.frac)
    .ok { e with p := p }

/-- `V_sample.comp:182-304`; `ub` decides between scattering and transmission -/
def VPar.trace (c : VPar) (s : VVars) (G : Gravity) (e : Event ℝ) (ub ud u1 u2 uq ue : ℝ) : Except Err (Event ℝ) := do
  match ← c.outer s e.r e.v with
  | none => .ok e
  | some (t0, t3) =>
    if t0 < 0 then .ok (absorb e)
    else do
      let (t1, t2) ← c.hole s e.r e.v t3
      if c.frac ≥ 1 ∨ ub < c.frac then c.scatter s G t0 t1 t2 t3 e ud u1 u2 uq ue
      else do
        let v := √(e.v.x * e.v.x + e.v.y * e.v.y + e.v.z * e.v.z)
        let l_full := v * ((t1 - t0) + (t3 - t2))
        let p := e.p * Real.exp (-(s.absorption v + s.my_s) * l_full)
        .ok { e with p := ← num (divD p (1 - c.frac)) }

/-! ### Sans_spheres -/

/-- parameters of `Sans_spheres.comp:59` (`qmax` is not used) -/
structure Sans where
  (R Phi Delta_rho sigma_a dist Rdet xwidth yheight zthick : ℝ)

/-- `Sans_spheres.comp:68-78`: `my_a_v`, `my_s_pre` -/
def Sans.init (c : Sans) : Except Err (ℝ × ℝ) :=
  if c.xwidth = 0 ∨ c.yheight = 0 ∨ c.zthick = 0 then .error .cppException
  else .ok (c.sigma_a * 2200 * 100, c.Phi * 4 * Real.pi * c.R * c.R * c.R / 3 * c.Delta_rho * c.Delta_rho)

/-- the form factor, `Sans_spheres.comp:113` -/
def formFactor (q R : ℝ) : Option ℝ :=
  divD (3 * (Real.sin (q * R) - q * R * Real.cos (q * R))) (q * R * q * R * q * R)

/-- the momentum transfer, `Sans_spheres.comp:108-111` -/
def transfer (vi v : V3 ℝ) : ℝ :=
  let qx := V2K * (vi.x - v.x)
  let qy := V2K * (vi.y - v.y)
  let qz := V2K * (vi.z - v.z)
  √(qx * qx + qy * qy + qz * qz)

/-- `Sans_spheres.comp:80-124`; if the box is not met from inside, only a message is printed (line 116) and the times are those of the way
in -/
def Sans.trace (c : Sans) (my_a_v my_s_pre : ℝ) (G : Gravity) (e : Event ℝ) (ud u1 u2 : ℝ) : Except Err (Event ℝ) := do
  match boxIntersect e.r e.v ⟨c.xwidth, c.yheight, c.zthick⟩ with
  | none => .ok e
  | some (t0, t1) =>
    if t0 < 0 then .ok (absorb e)
    else do
      let v := √(e.v.x * e.v.x + e.v.y * e.v.y + e.v.z * e.v.z)
      let l_full := v * (t1 - t0)
      let dt := ud * (t1 - t0) + t0
      let e := propDt G dt e
      let l := v * (dt - t0)
      let vi := e.v
      let (d, solid) ← num (targetCircle ⟨0, 0, c.dist⟩ c.Rdet u1 u2)
      let d := norm d
      let e := { e with v := (⟨d.x * v, d.y * v, d.z * v⟩ : V3 ℝ) }
      let f ← num (formFactor (transfer vi e.v) c.R)
      let t1 := match boxIntersect e.r e.v ⟨c.xwidth, c.yheight, c.zthick⟩ with
        | none => t1
        | some (_, t1) => t1
      let l_1 := v * t1
      let a ← num (divD (-my_a_v * (l + l_1)) v)
      .ok { e with p := e.p * (l_full * solid / (4 * Real.pi) * my_s_pre * f * f * Real.exp a) }

end
end Verif.McSample
