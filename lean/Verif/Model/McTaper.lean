import Verif.Model.McOptics2
/-!
The guide with curved walls, `packages/legacycomponents/mcstas2/share/McStas-Components/optics/Guide_tapering.comp` (lines without a file are of it).

Real numbers instead of doubles; `exit` is `cppException`; what is not a number, and what is written or read beyond an array, is
`undefinedBehaviour`.  The messages are not modelled.
-/

namespace Verif.McTaper
open McStas Kinem McGuide
noncomputable section
open Classical

/-- the parameters apart from `option`, line 81 -/
structure Par where
  (w1 h1 l linw loutw linh louth R0 Qcx Qcy alphax alphay W mx my segno curvature curvature_v : ℝ)

/-- a segment: height and width at its entrance and exit, `h1_in`, `h2_out`, `w1_in`, `w2_out` of lines 147-150 -/
structure Seg where
  (h1 h2 w1 w2 : ℝ)

/-- the file of `option`, lines 239-274: its lines, `none` for those with less than four characters (with the end of the line), and whether
the last one ends with the end of a line.  Simplified: lines of at most 127 characters with four numbers; the first three may be anything. -/
structure File where
  lines : List (Option Seg)
  ended : Bool

/-- the values of `option`, lines 183, 205, 234, 282; `missing`: the file is not found; `other`: another text or none -/
inductive Opt where
  | elliptical | parabolical | straight | missing | other
  | file (f : File)

/-! ### the walls -/

/-- `a_ell_q`, lines 194-196, 359-361, for the size at the entrance (`h1` or `w1`) and the distances of the focal points -/
def ellA (s l lin lout : ℝ) : ℝ :=
  let s12 := s / 2
  let u1 := √(lin * lin + s12 * s12)
  let u2 := √(s12 * s12 + (l + lout) * (l + lout))
  (u1 + u2) / 2 * ((u1 + u2) / 2)

/-- `b_ell_q`, lines 197, 362 -/
def ellB (s l lin lout : ℝ) : ℝ :=
  let lb := l + lin + lout
  ellA s l lin lout - lb / 2 * (lb / 2)

/-- `h2`, lines 188-203; `w2`, lines 351-368 -/
def ellExit (s l lin lout : ℝ) : Option ℝ :=
  if lin = 0 ∧ lout = 0 then some s
  else do
    let lb := l + lin + lout
    let div1 ← divD ((lb / 2 - lout) * (lb / 2 - lout)) (ellA s l lin lout)
    let x ← sqrtD (ellB s l lin lout * (1 - div1))
    some (x * 2)

/-- the size between segment number `i` and the one before, lines 304-316, 411-423: `h1_in[i]`, `h2_out[i-1]`; at the end `h2` -/
def ellipse (s l lin lout : ℝ) (seg i : ℕ) : Option ℝ :=
  if i = 0 then some s
  else if i < seg then
    if lin = 0 ∧ lout = 0 ∨ ellB s l lin lout = 0 then some s
    else do
      let lb := l + lin + lout
      let mxi := (lb / 2 - lin) - l / seg * i
      let q ← divD (mxi * mxi) (ellA s l lin lout)
      let x ← sqrtD ((1 - q) * ellB s l lin lout)
      some (x * 2)
  else ellExit s l lin lout

/-- `p2_para`, lines 218-219, 226-227, 383-384, 391-392 -/
def paraP (s l lin lout : ℝ) : ℝ :=
  let s12 := s / 2
  if lin = 0 then (√((2 * lout + 2 * l) * (2 * lout + 2 * l) / 4 + s12 * s12) - (lout + l)) * 2
  else (√(2 * lin * (2 * lin) / 4 + s12 * s12) - lin) * 2

/-- `h2`, lines 206-233; `w2`, lines 370-398 -/
def paraExit (s l lin lout : ℝ) : Except Err ℝ :=
  if lin > 0 ∧ lout > 0 then .error .cppException
  else if lout = 0 ∧ lin = 0 then .ok s
  else
    let p := paraP s l lin lout
    match sqrtD (if lin = 0 then p * (lout + p / 4) else p * (l + lin + p / 4)) with
    | none => .error .undefinedBehaviour
    | some x => .ok (x * 2)

/-- the size between segment number `i` and the one before, lines 318-345, 425-452 -/
def parabola (s l lin lout : ℝ) (seg i : ℕ) : Option ℝ :=
  if i = 0 then some s
  else if lout = 0 ∧ lin = 0 then some s
  else
    let p := paraP s l lin lout
    if lin = 0 ∧ lout > 0 then (sqrtD ((p / 4 + lout + l / seg * (seg - i)) * p)).map (· * 2)
    else (sqrtD ((p / 4 + lin + l / seg * i) * p)).map (· * 2)

/-- all the sizes: `h1_in` and the last of `h2_out`, lines 302-346, 409-452 -/
def sizes (f : ℕ → Option ℝ) (seg : ℕ) : Except Err (List ℝ) :=
  match (List.range (seg + 1)).mapM f with
  | none => .error .undefinedBehaviour
  | some l => .ok l

/-- the segments between the sizes, lines 454-464 -/
def between : List ℝ → List ℝ → List Seg
  | h1 :: h2 :: hs, w1 :: w2 :: ws => ⟨h1, h2, w1, w2⟩ :: between (h2 :: hs) (w2 :: ws)
  | _, _ => []

/-- a size that is not positive ends the program, lines 294-301, 401-408 -/
def positive (x : ℝ) : Except Err Unit := if x ≤ 0 then .error .cppException else .ok ()

/-- `ellExit`, or the error if it is not a number, lines 188-203, 351-368 -/
def num (x : Option ℝ) : Except Err ℝ :=
  match x with
  | none => .error .undefinedBehaviour
  | some x => .ok x

/-- the number of turns of the loop over the file, lines 246-256: after a last line with an end the end of the file is not yet known -/
def File.turns (f : File) : ℕ := if f.ended ∨ f.lines = [] then f.lines.length + 1 else f.lines.length

/-- the lines of the segments, lines 261-273 -/
def rows : List (Option Seg) → Except Err (List Seg)
  | [] => .ok []
  | none :: _ => .error .cppException
  | some s :: ss => do .ok (s :: (← rows ss))

/-- the segments of a file, lines 234-281.  There is room for 800 lines and for `segno` segments (lines 139-154);
a line is written before its number is tested (lines 249-254). -/
def File.segs (f : File) (segno : ℝ) : Except Err (List Seg) :=
  if f.lines.length > 800 then .error .undefinedBehaviour
  else if f.turns > 800 then .error .cppException
  else do
    let ss ← rows ((f.lines.take (f.turns - 1)).drop 3)
    if ss = [] ∨ segno < ss.length then .error .undefinedBehaviour else .ok ss

/-- the guide after `INITIALIZE`, lines 101-119: the segments, their length, the angles between them and the other parameters -/
structure Guide where
  segs : List Seg
  (lseg rotation_h rotation_v w1 h1 : ℝ)
  (R0 Qcx Qcy alphax alphay W mx my : ℝ)

/-- the end of `INITIALIZE`, lines 453-467, for segments of the length `lseg`; `w1`, `h1` are set by the file -/
def Par.done (c : Par) (ss : List Seg) (lseg w1 h1 : ℝ) : Guide :=
  { segs := ss, lseg := lseg, w1 := w1, h1 := h1
    rotation_h := if c.curvature ≠ 0 ∧ c.l ≠ 0 ∧ c.segno ≠ 0 then c.l / c.curvature / c.segno else 0
    rotation_v := if c.curvature_v ≠ 0 ∧ c.l ≠ 0 ∧ c.segno ≠ 0 then c.l / c.curvature_v / c.segno else 0
    R0 := c.R0, Qcx := c.Qcx, Qcy := c.Qcy, alphax := c.alphax, alphay := c.alphay, W := c.W, mx := c.mx, my := c.my }

/-- the walls for the words of `option`, lines 172-452.  `seg` is `segno` without what is behind the point; without a segment the arrays are
used beyond their ends. -/
def Par.walls (c : Par) (exit : ℝ → ℝ → ℝ → ℝ → Except Err ℝ) (at' : ℝ → ℝ → ℝ → ℝ → ℕ → ℕ → Option ℝ) : Except Err Guide := do
  let seg := ⌊c.segno⌋₊
  if seg = 0 then .error .undefinedBehaviour
  else do
    positive (← exit c.h1 c.l c.linh c.louth)
    let hs ← sizes (at' c.h1 c.l c.linh c.louth seg) seg
    positive (← exit c.w1 c.l c.linw c.loutw)
    let ws ← sizes (at' c.w1 c.l c.linw c.loutw seg) seg
    .ok (c.done (between hs ws) (c.l / seg) c.w1 c.h1)

/-- `INITIALIZE`, lines 121-468 -/
def Par.init (c : Par) (o : Opt) : Except Err Guide :=
  if c.W ≤ 0 then .error .cppException
  else if c.l ≤ 0 then .error .cppException
  else match o with
    | .elliptical => c.walls (fun s l lin lout => num (ellExit s l lin lout)) ellipse
    | .parabolical => c.walls paraExit parabola
    | .straight => c.walls (fun s _ _ _ => .ok s) (fun s _ _ _ _ _ => some s)
    | .missing => .error .cppException
    | .other => .error .cppException
    | .file f => do
      let ss ← f.segs c.segno
      match ss.head?, ss.getLast? with
      | some a, some b => do
        positive b.h2
        positive b.w2
        .ok (c.done ss (c.l / ss.length) a.w1 a.h1)
      | _, _ => .error .undefinedBehaviour

/-! ### TRACE -/

/-- a segment as a straight guide: `ww`, `hh`, `whalf`, `hhalf` of lines 454-464; the lines 508-540 are `Guide.comp:129-162` for `z-zr`,
and the lines 546-576 are `Guide.comp:165-195`.  The coating is not used. -/
def Guide.tube (g : Guide) (s : Seg) : McGuide.Guide := ⟨s.w1, s.h1, s.w2, s.h2, g.lseg, ⟨0, 0, 0, 0, 0, none⟩⟩

/-- the reflectivity of a mirror, lines 585-598.  Simplified: a mirror at the side is known by its normal (the length of a segment is not 0);
`w1/w1_in` is 0 in the model for `w1_in` = 0, where no neutron can be. -/
def Guide.coat (g : Guide) (s : Seg) (w : Wall) : McOptB.Reflec :=
  if w.n.x ≠ 0 then ⟨g.R0, g.Qcx, g.alphax, if g.mx > 0 then g.mx else |g.mx * g.w1 / s.w1|, g.W⟩
  else ⟨g.R0, g.Qcy, g.alphay, if g.my > 0 then g.my else |g.my * g.h1 / s.h1|, g.W⟩

/-- mirrors that absorb all neutrons, line 578 -/
def Guide.black (g : Guide) (w : Wall) : Prop := (w.n.x ≠ 0 ∧ g.mx = 0) ∨ (w.n.x = 0 ∧ g.my = 0)

/-- the loop of the reflections, lines 505-608; `none`: more turns than `fuel`; `true`: the neutron was absorbed and `TRACE` is left.
Simplified: `hadj` is left out, as `w1c` is `w1_in`: `edge` and `hadj` are 0.  With gravity the code takes the velocity before the flight. -/
def Guide.loop (g : Guide) (G : Gravity) (s : Seg) (zr : ℝ) : Nat → Event ℝ → Option (Bool × Event ℝ)
  | 0, _ => none
  | fuel + 1, e =>
    match (g.tube s).next { e with r := ⟨e.r.x, e.r.y, e.r.z - zr⟩ } with
    | none => some (false, e)
    | some (t1, w) =>
      let e := propDt G t1 e
      let (q, v) := bounce w e.v
      let e := { e with v := v }
      if g.black w then some (true, absorb e)
      else
        let ref := McOptB.stdReflec (g.coat s w) q
        if ref > 0 then loop g G s zr fuel { e with p := e.p * ref } else some (true, absorb e)

/-- the rotation behind a segment, lines 611-621: only the velocity is turned -/
def Guide.turn (g : Guide) (e : Event ℝ) : Event ℝ :=
  let e := if g.rotation_h ≠ 0 then { e with v := rotate e.v (-g.rotation_h) ⟨0, 1, 0⟩ } else e
  if g.rotation_v ≠ 0 then { e with v := rotate e.v (-g.rotation_v) ⟨1, 0, 0⟩ } else e

/-- the entrance of a segment, lines 493-494 -/
def Seg.outside (s : Seg) (e : Event ℝ) : Prop :=
  e.r.x ≤ s.w1 / -2 ∨ e.r.x ≥ s.w1 / 2 ∨ e.r.y ≤ -(0.5 * s.h1) ∨ e.r.y ≥ 0.5 * s.h1

/-- the loop over the segments, lines 487-622, from number `ii`; `none`: not a number, or more reflections than `fuel` -/
def Guide.segments (g : Guide) (G : Gravity) (fuel : Nat) : List Seg → ℕ → Event ℝ → Option (Bool × Event ℝ)
  | [], _, e => some (false, e)
  | s :: ss, ii, e => do
    let zr := ii * g.lseg
    let ts ← divD (zr - e.r.z) e.v.z
    let e := propDt G ts e
    if s.outside e then some (true, absorb e)
    else
      match g.loop G s zr fuel e with
      | none => none
      | some (true, e) => some (true, e)
      | some (false, e) => segments g G fuel ss (ii + 1) (g.turn e)

/-- `TRACE`, lines 470-624 -/
def Guide.trace (g : Guide) (G : Gravity) (fuel : Nat) (e : Event ℝ) : Option (Event ℝ) :=
  (g.segments G fuel g.segs 0 (propZ0 G e)).map (·.2)

end
end Verif.McTaper
