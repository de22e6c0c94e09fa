import Verif.Model.McGuide
/-!
The curved monochromator of McStas,
`packages/legacycomponents/mcstas2/share/McStas-Components/optics/Monochromator_curved.comp`.

Conventions as in `Verif.Model.McGuide`; the tables of reflectivity and transmission are functions of the wave number (they are read by
`read_table-lib`, see `Verif.Model.McTable`).  Messages are left out.
-/

namespace Verif.McCurved
open McStas Kinem McGuide
noncomputable section
open Classical

/-- the variables after `INITIALIZE`, `Monochromator_curved.comp:97-98, 138-147` -/
structure Curved where
  (NH NV W H gap RH RV r0 t0 Q rmsY rmsZ rmsMax : ℝ)
  (rTable tTable : Option (ℝ → ℝ))

/-- `INITIALIZE`, `Monochromator_curved.comp:149-209`; `exit` is `cppException` -/
def Curved.new (zwidth yheight gap NH NV mosaich mosaicv r0 t0 Q RV RH DM mosaic width height : ℝ) (rTable tTable : Option (ℝ → ℝ)) :
    Except Err Curved :=
  let rmsY := Real.pi / 10800 * (if mosaic ≠ 0 then mosaic else mosaich) / √(8 * Real.log 2)
  let rmsZ := if mosaic ≠ 0 then rmsY else Real.pi / 10800 * mosaicv / √(8 * Real.log 2)
  let rmsMax := if rmsY > rmsZ then rmsY else rmsZ
  let Q := if DM ≠ 0 then 2 * Real.pi / DM else Q
  if Q ≤ 0 then .error .cppException
  else if r0 < 0 then .error .cppException
  else if NH * NV = 0 then .error .cppException
  else
    let W := if width = 0 then zwidth else (width + gap) / NH - gap
    let H := if height = 0 then yheight else (height + gap) / NV - gap
    .ok ⟨NH, NV, W, H, gap, RH, RV, r0, t0, Q, rmsY, rmsZ, rmsMax, if r0 ≠ 0 then rTable else none, tTable⟩

/-- the same crystal with the given reflectivity as a flat one, because the lines `Monochromator_curved.comp:109-136, 283-295, 321-324, 383-384` are those of
`Monochromator_flat.comp`; the size is not used -/
def Curved.flat (c : Curved) (r0 : ℝ) : Mono := ⟨0, 0, 0, 0, r0, c.Q, c.rmsY, c.rmsZ, c.rmsMax⟩

/-- the reflectivity `my_r0`, `Monochromator_curved.comp:305-319` -/
def Curved.reflectivity (c : Curved) (k : ℝ) : ℝ :=
  let r := c.rTable.elim c.r0 (fun f => c.r0 * f k)
  let r := if r > 1 then 0.999 else r
  if r < 0 then 0 else r

/-- the transmission `my_t0`, `Monochromator_curved.comp:414-425` -/
def Curved.transmission (c : Curved) (k : ℝ) : ℝ :=
  let t := c.tTable.elim c.t0 (fun f => c.t0 * f k)
  if t > 1 then 0.999 else t

/-- the loop that reduces the width, at most 100 times, `Monochromator_curved.comp:361-372`: `mos_sample` and `width` -/
def Curved.narrow (c : Curved) (c1 a b : V3 ℝ) : Nat → ℝ → ℝ × ℝ
  | 0, s => (s, 5 * s)
  | n + 1, s =>
    let width := 5 * s
    let q := onCone c1 a b width
    let qy := q.y / c.rmsZ
    let qz := q.z / c.rmsY
    if qz * qz + qy * qy < (25 / (2 / 3)) * (q.x * q.x) then (s, width)
    else if n = 0 then (s * (2 / 3), width) else narrow c c1 a b n (s * (2 / 3))

/-- the factor of the weight, `Monochromator_curved.comp:373-387, 398-399, 404`; `none`: not finite -/
def Curved.factor (c : Curved) (c1 a b : V3 ℝ) (s width φ : ℝ) : Option ℝ := do
  let m := c.flat c.r0
  let total ← quadrature.foldlM (fun total xw => do some (total + xw.2 * (← m.atCone (onCone c1 a b (width * xw.1))))) 0
  let total := total * width
  divD (← m.atCone (onCone c1 a b φ)) (total * (← gaussD φ 0 s))

/-- the reflection, `Monochromator_curved.comp:332-404`: the new velocity and the factor of the weight -/
def Curved.reflect (c : Curved) (g k q0x theta : ℝ) (ki ku : V3 ℝ) : V3 ℝ × Option ℝ :=
  let b := (k * Real.sin (2 * theta)) • McStas.norm (ki.cross ⟨q0x, 0, 0⟩)
  let a := b.cross ku
  let c1 := (Real.cos (2 * theta) - 1) • ki
  let (s, width) := c.narrow c1 a b 100 (c.rmsMax / Real.cos theta)
  let φ := s * g
  (K2V • (ki + onCone c1 a b φ), c.factor c1 a b s width φ)

/-- the choice to reflect, `Monochromator_curved.comp:277-326`; the inner `none`: transmit; the outer: not a number -/
def Curved.choose (c : Curved) (u g : ℝ) (v : V3 ℝ) : Option (Option (V3 ℝ × Option ℝ)) := do
  let ki := V2K • v
  let ratio ← divD (-2 * ki.x) c.Q
  let k := √(ki.x * ki.x + ki.y * ki.y + ki.z * ki.z)
  let ku := (1 / k) • ki
  let order := monoOrder c.Q k ratio
  if order > 0 then
    let q0 := order * c.Q
    let q0x := if ratio < 0 then -q0 else q0
    let theta ← Powder.asinD (q0 / (2 * k))
    let delta := Real.arcsin |ku.x| - theta
    match (c.flat |c.reflectivity k|).peak ki.y ki.z delta with
    | none => some none
    | some pr => if u ≤ pr then some (some (c.reflect g k q0x theta ki ku)) else some none
  else some none

/-- a neutron on a slab, in the frame of the slab, `Monochromator_curved.comp:277-428`: absorbed?, the neutron and the factor of the weight -/
def Curved.slab (c : Curved) (u g : ℝ) (e : Event ℝ) : Option (Bool × Event ℝ × Option ℝ) := do
  match ← c.choose u g e.v with
  | some (v, f) => some (false, { e with v := v }, f)
  | none =>
    let ki := V2K • e.v
    let t := c.transmission √(ki.x * ki.x + ki.y * ki.y + ki.z * ki.z)
    if t > 0 then some (false, e, some t) else some (true, absorb e, some 1)

/-- half of the width (`zmax`) and of the height (`ymax`), `Monochromator_curved.comp:234-237` -/
def Curved.zmax (c : Curved) : ℝ := (c.NH * (c.W + c.gap) - c.gap) / 2
/-- `Monochromator_curved.comp:236-237` -/
def Curved.ymax (c : Curved) : ℝ := (c.NV * (c.H + c.gap) - c.gap) / 2

/-- column and row, `Monochromator_curved.comp:247-248` -/
def Curved.cell (c : Curved) (y z : ℝ) : ℤ × ℤ := (⌈(z - -c.zmax) / (c.W + c.gap)⌉, ⌈(y - -c.ymax) / (c.H + c.gap)⌉)

/-- `tilth`, `Monochromator_curved.comp:249-250`; `none`: not a number -/
def Curved.tiltH (c : Curved) (col : ℤ) : Option ℝ :=
  if c.RH ≠ 0 then Powder.asinD ((col - (c.NH + 1) / 2) * (c.W + c.gap) / c.RH) else some 0

/-- `tiltv`, `Monochromator_curved.comp:251-252`; `none`: not a number -/
def Curved.tiltV (c : Curved) (row : ℤ) : Option ℝ :=
  if c.RV ≠ 0 then (Powder.asinD ((row - (c.NV + 1) / 2) * (c.H + c.gap) / c.RV)).map (- ·) else some 0

/-- both angles, `Monochromator_curved.comp:249-252` -/
def Curved.tilt (c : Curved) (col row : ℤ) : Option (ℝ × ℝ) := do
  let h ← c.tiltH col
  let v ← c.tiltV row
  some (h, v)

/-- the centre of a slab, `Monochromator_curved.comp:260-261` -/
def Curved.center (c : Curved) (col row : ℤ) : V3 ℝ :=
  ⟨0, -c.ymax + (row - 0.5) * (c.H + c.gap) - c.gap / 2, -c.zmax + (col - 0.5) * (c.W + c.gap) - c.gap / 2⟩

/-- into the frame of the slab, `Monochromator_curved.comp:262-268` -/
def toSlab (T : M3 ℝ) (a : V3 ℝ) (e : Event ℝ) : Event ℝ := { e with r := rotApply T (e.r - a), v := rotApply T e.v }

/-- back, `Monochromator_curved.comp:430-437` -/
def fromSlab (T : M3 ℝ) (a : V3 ℝ) (e : Event ℝ) : Event ℝ :=
  { e with r := rotApply (rotTranspose T) e.r + a, v := rotApply (rotTranspose T) e.v }

/-- `Monochromator_curved.comp:211-448`.  The result is the neutron without the change of its weight and the factor of the weight; the outer
`none`: not a number. -/
def Curved.trace (c : Curved) (G : Gravity) (u g : ℝ) (e : Event ℝ) : Option (Event ℝ × Option ℝ) :=
  if e.v.x ≠ 0 ∧ -e.r.x / e.v.x ≥ 0 ∧ c.r0 ≠ 0 then
    let e1 := propDt G (-e.r.x / e.v.x) e
    if e1.r.z > -c.zmax ∧ e1.r.z < c.zmax ∧ e1.r.y > -c.ymax ∧ e1.r.y < c.ymax then do
      let (col, row) := c.cell e1.r.y e1.r.z
      let (h, v) ← c.tilt col row
      let T := rotSet 0 h v
      let a := c.center col row
      let e2 := propX0 G (toSlab T a e)
      if |e2.r.z| ≤ c.W / 2 ∧ |e2.r.y| ≤ c.H / 2 then do
        let (gone, e3, f) ← c.slab u g e2
        some (if gone then e3 else fromSlab T a e3, f)
      else some (fromSlab T a e2, some 1)
    else some (e, some 1)
  else some (e, some 1)

end
end Verif.McCurved
