import Verif.Model.McSample
/-!
The powder sample with many lines, `packages/legacycomponents/mcstas2/share/McStas-Components/samples/PowderN.comp`; lines without a
file are lines of it.

Real numbers instead of doubles; `exit` is `cppException`.  Simplified: something that is not a number, or infinite, is
`undefinedBehaviour`.  `ROT_A_CURRENT_COMP` is the identity (`lib/geometry.h:42`).  Random numbers are arguments.  The table is
given by its columns; its header is not modelled, so the numbers of the header are arguments.
-/

namespace Verif.McPowderN
open McStas Kinem McSample
open McGuide (K2V V2K)
noncomputable section
open Classical

/-! ### the lines -/

/-- `line_data`, lines 178-185; `j` is the multiplicity -/
structure Line where
  (F2 q : ℝ)
  j : ℤ
  (DW w : ℝ)

/-- one row of the table, lines 291-333.  The columns are those of the format {j d F2 DW Dd inv2d q F}, `none` for a column that the
table has not; `Dd` and `DW` are the values of `info`.  The result is the line and the multiplicity before its conversion to an
integer; `none` for a row that is not valid. -/
def row (Dd DW : ℝ) (c : Fin 8 → Option ℝ) : Option (Line × ℝ) :=
  let j := (c 0).getD 0
  let d := (c 1).getD 0
  let F2 := (c 2).getD 0
  let DWf := (c 3).getD (if DW > 0 then DW else 0)
  let w := (c 4).getD (if Dd ≥ 0 then Dd else 0)
  let d := match c 5 with
    | some x => if x > 0 then 1 / x / 2 else 0
    | none => d
  let d := match c 6 with
    | some q => if q > 0 then 2 * Real.pi / q else 0
    | none => d
  let F2 := match c 7 with
    | some F => if F2 = 0 then F * F else F2
    | none => F2
  let j := if j > 0 then j else 0
  let q := if d > 0 then 2 * Real.pi / d else 0
  let DWf := if DWf > 0 then DWf else 1
  let w := if w > 0 then w else 0
  let F2 := if F2 ≥ 0 then F2 else 0
  if j = 0 ∨ q = 0 then none else some (⟨F2, q, ⌊j⌋, DWf, w⟩, j)

/-- the variables of the loop, lines 215-219: the lines so far (`list_count` of them), `q_count`, `j_count`, `F2_count`, `mult_count` -/
structure Loop where
  list : List Line
  (qc jc Fc : ℝ)
  mult : ℤ

/-- `for (index=list_count-mult_count; index<list_count; list[index++].j = 1)`, line 355 -/
def setOne (mult : ℤ) (l : List Line) : List Line :=
  l.mapIdx fun i x => if (l.length : ℤ) - mult ≤ i then { x with j := 1 } else x

/-- a valid row, lines 329-364.  `last`: the row is the last one of the table, `i == size-1`.  `before` and `behind` are what is found in
the memory at `list[-1].j` and behind the lines that are filled, which lines 350 and 351 read. -/
def Loop.step (before behind : ℤ) (last : Bool) (s : Loop) (x : Line × ℝ) : Loop :=
  let (x, j) := x
  let qc := if s.qc = 0 then x.q else s.qc
  let jc := if s.jc = 0 then j else s.jc
  let Fc := if s.Fc = 0 then x.F2 else s.Fc
  let same := |qc - x.q| < 0.0001 * |x.q| ∧ |Fc - x.F2| < 0.0001 * |x.F2| ∧ jc = j
  let mult := if same then s.mult + 1 else s.mult
  let list := s.list ++ [x]
  if ¬ same ∨ last then
    if last then
      if mult = x.j ∨ mult = behind then ⟨setOne mult list, x.q, j, x.F2, 1⟩ else ⟨list, qc, jc, Fc, mult⟩
    else
      let prev := (s.list.getLast?.map (·.j)).getD before
      if mult = prev then ⟨setOne mult s.list ++ [x], x.q, j, x.F2, 1⟩ else ⟨list, qc, jc, Fc, mult⟩
  else ⟨list, qc, jc, Fc, mult⟩

/-- the loop over the rows, lines 288-365; a row that is not valid is skipped -/
def readRows (before behind : ℤ) : Loop → List (Option (Line × ℝ)) → Loop
  | s, [] => s
  | s, none :: rows => readRows before behind s rows
  | s, some x :: rows => readRows before behind (s.step before behind (rows.isEmpty) x) rows

/-- `read_line_data`, lines 286-369, for the rows of a table -/
def readLines (before behind : ℤ) (rows : List (Option (Line × ℝ))) : List Line :=
  (readRows before behind ⟨[], 0, 0, 0, 0⟩ rows).list

/-! ### INITIALIZE -/

/-- parameters of the sample, lines 135-139, after the reading of the table -/
structure Par where
  (radius radius_i yheight pack Vc sigma_abs sigma_inc frac tfrac xwidth zthick xwidth_i yheight_i zthick_i h density weight nb_atoms : ℝ)
  (concentric barns : Bool)

/-- a line with what is needed for tracing: `my_s_v2`, `q_v`, `w_v`, lines 467-476 -/
structure Peak where
  (s2 qv wv : ℝ)

/-- variables of `DECLARE`, lines 376-386, with the parameters used in `TRACE`; `sum` is `my_s_v2_sum` -/
structure Sample where
  isrect : Bool
  (radius radius_i xwidth yheight zthick xwidth_i yheight_i zthick_i : ℝ)
  concentric : Bool
  (frac tfrac : ℝ)
  peaks : List Peak
  (sum my_a_v my_inc : ℝ)

/-- `V_0`, lines 441-450 -/
def Par.volume (c : Par) : Except Err ℝ :=
  let V := if c.Vc = 0 ∧ c.nb_atoms > 0 ∧ c.weight > 0 ∧ c.density > 0
    then c.nb_atoms / (c.density / c.weight / 1e24 * 6.02214199e23) else c.Vc
  if V ≤ 0 then .error .cppException else .ok V

/-- `my_s_v2[i]`, lines 469-471 -/
def section2 (pack V0 Xf : ℝ) (l : Line) : ℝ :=
  4 * Real.pi * Real.pi * Real.pi * pack * (if l.DW ≠ 0 then l.DW else 1) / (V0 * V0 * V2K * V2K) * (l.j * l.F2 / l.q) * Xf

/-- `isrect`, lines 413-415 -/
def Par.rect (c : Par) (yheight : ℝ) : Except Err Bool :=
  if c.radius = 0 ∨ yheight = 0 then
    if c.xwidth = 0 ∨ yheight = 0 ∨ c.zthick = 0 then .error .cppException else .ok true
  else .ok false

/-- `INITIALIZE`, lines 388-491, with the lines of the table -/
def Par.init (c : Par) (lines : List Line) : Except Err Sample := do
  let yheight := if c.h ≠ 0 ∧ c.yheight = 0 then c.h else c.yheight
  let isrect ← c.rect yheight
  let yheight_i := if c.yheight_i = 0 then yheight else c.yheight_i
  if (isrect ∧ (c.zthick_i > c.zthick ∨ c.xwidth_i > c.xwidth ∨ yheight_i > yheight)) ∨ ((¬ isrect ∧ c.radius_i > c.radius) ∨ yheight_i > yheight)
  then .error .cppException
  else if c.frac + c.tfrac > 1 then .error .cppException
  else do
    let V0 ← c.volume
    let Xf : ℝ := if c.barns then 100 else 1
    .ok { isrect := isrect, radius := c.radius, radius_i := c.radius_i, xwidth := c.xwidth, yheight := yheight, zthick := c.zthick,
          xwidth_i := c.xwidth_i, yheight_i := yheight_i, zthick_i := c.zthick_i, concentric := c.concentric, frac := c.frac, tfrac := c.tfrac,
          peaks := lines.map fun l => ⟨section2 c.pack V0 Xf l, l.q * K2V, l.w⟩,
          sum := (lines.map (section2 c.pack V0 Xf)).sum,
          my_a_v := c.pack * c.sigma_abs / V0 * 2200 * 100, my_inc := c.pack * c.sigma_inc / V0 * 100 }

/-! ### TRACE -/

/-- the times at the outer walls, lines 502, 505, 628, 631, 684, 687 -/
def Sample.outer (c : Sample) (r v : V3 ℝ) : Except Err (Option (ℝ × ℝ)) :=
  if c.isrect then .ok (boxIntersect r v ⟨c.xwidth, c.yheight, c.zthick⟩)
  else (num (cylinderIntersect r v c.radius c.yheight)).map fun o => o.map (·.2)

/-- the times at the hollow, lines 503, 506, 629, 632, 685, 688 -/
def Sample.inner (c : Sample) (r v : V3 ℝ) : Except Err (Option (ℝ × ℝ)) :=
  if c.isrect then .ok (boxIntersect r v ⟨c.xwidth_i, c.yheight_i, c.zthick_i⟩)
  else (num (cylinderIntersect r v c.radius_i c.yheight_i)).map fun o => o.map (·.2)

/-- `t0`, `t1`, `t2`, `t3` of lines 494, 512-532 -/
structure Times where
  (t0 t1 t2 t3 : ℝ)

/-- lines 530-532 and 652-654, 708-710 -/
def Times.clip (t : Times) : Times :=
  ⟨if t.t0 < 0 then 0 else t.t0, if t.t1 < 0 then 0 else t.t1, if t.t2 < 0 then 0 else t.t2, t.t3⟩

/-- lines 512-532 -/
def Sample.enter (c : Sample) (o : ℝ × ℝ) (i : Option (ℝ × ℝ)) : Times :=
  if c.concentric then
    let t1 := match i with
      | none => (o.2 + o.1) / 2
      | some i => i.1
    Times.clip ⟨o.1, t1, t1, t1⟩
  else match i with
    | none => Times.clip ⟨o.1, (o.2 + o.1) / 2, (o.2 + o.1) / 2, o.2⟩
    | some i => Times.clip ⟨o.1, i.1, i.2, o.2⟩

/-- lines 641-654 and 697-710 -/
def Sample.exit (c : Sample) (o : ℝ × ℝ) (i : Option (ℝ × ℝ)) : Times :=
  match i with
  | none => Times.clip ⟨o.1, (o.2 + o.1) / 2, (o.2 + o.1) / 2, o.2⟩
  | some i => if c.concentric then Times.clip ⟨o.1, i.1, i.1, i.1⟩ else Times.clip ⟨o.1, i.1, i.2, o.2⟩

/-- the way to the exit of the sample, `l_1`, lines 627-657 and 683-713; the inner `none`: the sample is not hit, the neutron is absorbed -/
def Sample.way (c : Sample) (v : ℝ) (e : Event ℝ) : Except Err (Option ℝ) := do
  let o ← c.outer e.r e.v
  let i ← c.inner e.r e.v
  match o with
  | none => .ok none
  | some o =>
    let t := c.exit o i
    .ok (some (v * (t.t3 - t.t2 + t.t1 - t.t0)))

/-- the time from the entry to the point of scattering, lines 520, 526, 540-544 -/
def Sample.point (c : Sample) (t : Times) (ud : ℝ) : ℝ :=
  let dt := if c.concentric then -1 * ud else 2 * ud - 1
  if dt < 0 then |dt| * (t.t1 - t.t0) else dt * (t.t3 - t.t2) + (t.t2 - t.t0)

/-- `my_s`, line 546 -/
def Sample.scat (c : Sample) (v : ℝ) : ℝ := c.sum / (v * v) + c.my_inc

/-- the angle on the cone, lines 586-607: the new `d_phi`, `alpha` and `alpha0` -/
def cone (d_phi theta ua : ℝ) : Except Err (ℝ × ℝ × ℝ) :=
  if d_phi ≠ 0 then
    match divD (Real.sin (d_phi * (Real.pi / 180) / 2)) (Real.sin (2 * theta)) with
    | none => if Real.sin (d_phi * (Real.pi / 180) / 2) = 0 then .error .undefinedBehaviour else .ok (0, 0, Real.pi * (2 * ua - 1))
    | some arg =>
      if arg < -1 ∨ arg > 1 then .ok (0, 0, Real.pi * (2 * ua - 1))
      else
        let alpha := |2 * Real.arcsin arg|
        let alpha0 := 2 * ua * alpha
        .ok (d_phi, alpha, if alpha0 > alpha then Real.pi + (alpha0 - 1.5 * alpha) else alpha0 - 0.5 * alpha)
  else .ok (0, 0, Real.pi * (2 * ua - 1))

/-- the new velocity, lines 612-624 -/
def braggOut (v : V3 ℝ) (theta alpha0 : ℝ) : V3 ℝ :=
  let n := V3.cross v ⟨1, 0, 0⟩
  let n : V3 ℝ := if n.x = 0 ∧ n.y = 0 ∧ n.z = 0 then ⟨0, 1, 0⟩ else n
  rotate (rotate v (2 * theta) n) alpha0 v

/-- coherent scattering at the point where the neutron is, lines 569-666: the neutron and `d_phi`.  `l` is the way in the sample before,
`xi` a random number of the normal distribution. -/
def Sample.coherent (c : Sample) (d_phi v l l_full : ℝ) (e : Event ℝ) (ul xi ua : ℝ) : Except Err (Event ℝ × ℝ) := do
  if c.peaks.length = 0 then .ok (e, d_phi)
  else do
    let k := if c.peaks.length > 1 then ⌊c.peaks.length * ul⌋₊ else 0
    match c.peaks[k]? with
    | none => .error .undefinedBehaviour
    | some pk =>
      let arg ← num (divD (if pk.wv ≠ 0 then pk.qv * (1 + pk.wv * xi) else pk.qv) (2 * v))
      let my_s_n := pk.s2 / (v * v)
      if |arg| > 1 then .ok (absorb e, d_phi)
      else do
        let theta := Real.arcsin arg
        let (d_phi, alpha, alpha0) ← cone d_phi theta ua
        let e := { e with v := braggOut e.v theta alpha0 }
        match ← c.way v e with
        | none => .ok (absorb e, d_phi)
        | some l_1 => do
          let w ← num (divD (c.peaks.length * l_full * my_s_n * Real.exp (-(c.my_a_v / v + c.scat v) * (l + l_1))) (1 - (c.frac + c.tfrac)))
          let w := if d_phi ≠ 0 then w * (alpha / Real.pi) else w
          .ok ({ e with p := e.p * w }, d_phi)

/-- incoherent scattering at the point where the neutron is, lines 667-718 -/
def Sample.incoherent (c : Sample) (d_phi v l l_full : ℝ) (e : Event ℝ) (u1 u2 : ℝ) : Except Err (Event ℝ) := do
  let (d, solid) ← if d_phi ≠ 0 then targetAngular ⟨0, 0, 1⟩ (2 * Real.pi) (d_phi * (Real.pi / 180)) M3.one u1 u2
    else num (targetCircle ⟨0, 0, 1⟩ 0 u1 u2)
  let f ← num (divD v (√(d.x * d.x + d.y * d.y + d.z * d.z)))
  let e := { e with v := (⟨d.x * f, d.y * f, d.z * f⟩ : V3 ℝ) }
  match ← c.way v e with
  | none => .ok (absorb e)
  | some l_1 => do
    let w ← num (divD (l_full * c.my_inc * Real.exp (-(c.my_a_v / v + c.scat v) * (l + l_1))) c.frac)
    .ok { e with p := e.p * (w * (solid / (4 * Real.pi))) }

/-- `TRACE`, lines 494-726: the neutron and the new value of `d_phi`, which is a member of the component.  `ut` chooses between
transmission and the two kinds of scattering. -/
def Sample.trace (c : Sample) (G : Gravity) (d_phi : ℝ) (e : Event ℝ) (ud ut ul xi ua u1 u2 : ℝ) : Except Err (Event ℝ × ℝ) := do
  let o ← c.outer e.r e.v
  let i ← c.inner e.r e.v
  match o with
  | none => .ok (e, d_phi)
  | some o =>
    if o.2 > 0 then do
      let t := c.enter o i
      let v := √(e.v.x * e.v.x + e.v.y * e.v.y + e.v.z * e.v.z)
      let l_full := v * (t.t3 - t.t2 + t.t1 - t.t0)
      if t.t3 < 0 then .ok (e, d_phi)
      else
        let dt := c.point t ud
        if ut < c.tfrac then do
          let e := propDt G t.t3 e
          let w ← num (divD (Real.exp (-(c.my_a_v / v + c.scat v) * l_full)) c.tfrac)
          .ok ({ e with p := e.p * w }, d_phi)
        else if ut < c.tfrac + c.frac then do
          let e ← c.incoherent d_phi v (v * dt) l_full (propDt G (dt + t.t0) e) u1 u2
          .ok (e, d_phi)
        else c.coherent d_phi v (v * dt) l_full (propDt G (dt + t.t0) e) ul xi ua
    else .ok (e, d_phi)

end
end Verif.McPowderN
