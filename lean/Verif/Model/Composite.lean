import Verif.Model.Homog
import Mathlib.Analysis.SpecialFunctions.Trigonometric.Basic
/-!
The composite scatterer,
`packages/mccomposite/lib/mccomposite/CompositeNeutronScatterer_Impl.cc`, and its wrappers
`CompositeNeutronScatterer.cc`, `AbstractNeutronScatterer.cc`.

The constituents are any objects with a shape and the three methods the composite calls, over a
common state `S` (random numbers, recorded events).  Positions and orientations come from
`Geometer.icc`, which is a map from the constituents.
-/

namespace Verif.Composite
open Solid Flight Homog
noncomputable section
open Classical

/-- a constituent: its shape, its place in the composite (`m_geometer.getPosition` and
`getOrientation`, `Geometer.icc`), and the virtual methods of `AbstractNeutronScatterer.h:64-75`
that the composite calls -/
structure Elem (S : Type) where
  shape : Shape
  pos : V3 ℝ
  rot : M3 ℝ
  interact1 : S → Ev → Except Err (S × Ev × IType)
  interactM : S → Ev → Except Err (S × List Ev × IType)
  atten : Ev → V3 ℝ → Except Err ℝ

/-- data members of the composite, `CompositeNeutronScatterer_Impl.h:54-66` -/
structure Comp (S : Type) where
  shape : Shape
  elems : List (Elem S)
  maxAmong : Nat
  maxPath : Nat
  minP : ℝ

variable {S : Type}

/-- `global2local`, `CompositeNeutronScatterer_Impl.cc:50-62,96-106` -/
def Elem.toLocal (e : Elem S) (ev : Ev) : Ev :=
  { ev with r := e.rot.transpose.mulVec (ev.r - e.pos), v := e.rot.transpose.mulVec ev.v }

/-- `local2global`, `CompositeNeutronScatterer_Impl.cc:69-78,109-119` -/
def Elem.toGlobal (e : Elem S) (ev : Ev) : Ev :=
  { ev with r := e.rot.mulVec ev.r + e.pos, v := e.rot.mulVec ev.v }

/-- `m_shapes`: every shape is rotated, then moved, `CompositeNeutronScatterer_Impl.cc:146-166` -/
def Comp.shapes (c : Comp S) : List Shape :=
  c.elems.map fun e => .translation (.rotation e.shape e.rot) e.pos

/-- `calculate_attenuation`, `CompositeNeutronScatterer_Impl.cc:178-202`: the start is converted to
the frame of the constituent, the end point is not -/
def Comp.atten (c : Comp S) (ev : Ev) (endp : V3 ℝ) : Except Err ℝ :=
  c.elems.foldlM (fun ret e => do
    let a ← e.atten (e.toLocal ev) endp
    .ok (ret * a)) 1

/-- neutrons of low probability, `CompositeNeutronScatterer_Impl.cc:238,347` -/
def Comp.low (c : Comp S) (ev : Ev) : Prop := 0 ≤ ev.p ∧ ev.p < c.minP

/-- the loop over the new neutrons of an interaction, `CompositeNeutronScatterer_Impl.cc:275-287`:
those that go to the out-list and those to be scattered again -/
def sortNew (tol : ℝ) (s : Shape) : List Ev → Except Err (List Ev × List Ev)
  | [] => .ok ([], [])
  | e :: es => do
    let loc ← locate tol s e.r
    let (out, again) ← sortNew tol s es
    if loc ≠ .inside then .ok (e :: out, again) else .ok (out, e :: again)

/-- the body of the loop over the neutrons to be scattered,
`CompositeNeutronScatterer_Impl.cc:232-289`: what is added to the out-list and to
`to_be_scattered2` -/
def Comp.step (c : Comp S) (tol par : ℝ) (s : S) (ev : Ev) : Except Err (S × List Ev × List Ev) := do
  if c.low ev then .ok (s, [], [])
  else
    let hit ← find1stHit tol par c.shapes ev.r ev.v
    match hit.bind (c.elems[·]?) with
    | none => .ok (s, [ev], [])
    | some e => do
      let (s', new, itype) ← e.interactM s (e.toLocal ev)
      if itype = .absorption then .ok (s', [], [])
      else
        let (out, again) ← sortNew tol c.shape (new.map e.toGlobal)
        .ok (s', out, again)

/-- the loop over the neutrons to be scattered, `CompositeNeutronScatterer_Impl.cc:230-289` -/
def Comp.stepAll (c : Comp S) (tol par : ℝ) : S → List Ev → Except Err (S × List Ev × List Ev)
  | s, [] => .ok (s, [], [])
  | s, ev :: evs => do
    let (s1, out1, again1) ← c.step tol par s ev
    let (s2, out2, again2) ← c.stepAll tol par s1 evs
    .ok (s2, out1 ++ out2, again1 ++ again2)

/-- the `while` loop of `interactM_path1`, `CompositeNeutronScatterer_Impl.cc:226-295`: out-list and
left-over neutrons -/
def Comp.pathLoop (c : Comp S) (tol par : ℝ) : Nat → S → List Ev → Except Err (S × List Ev × List Ev)
  | 0, s, l => .ok (s, [], l)
  | _ + 1, s, [] => .ok (s, [], [])
  | n + 1, s, ev :: evs => do
    let (s1, out1, again) ← c.stepAll tol par s (ev :: evs)
    let (s2, out2, left) ← c.pathLoop tol par n s1 again
    .ok (s2, out1 ++ out2, left)

/-- the loop over the left-over neutrons, `CompositeNeutronScatterer_Impl.cc:299-309` -/
def Comp.leftPath (c : Comp S) (tol par : ℝ) : List Ev → Except Err (List Ev)
  | [] => .ok []
  | save :: l => do
    let ev ← toExit tol par c.shape save
    let a ← c.atten save ev.r
    let rest ← c.leftPath tol par l
    .ok ({ ev with p := ev.p * a } :: rest)

/-- `interactM_path1`, `CompositeNeutronScatterer_Impl.cc:205-314`.  The neutrons are those appended
to `evts`.  The returned interaction type is ignored by `scatterM`
(it depends on what `evts` contained before, 312), and the wrapper
`CompositeNeutronScatterer.cc:80-85` does not pass it on; it is left out. -/
def Comp.interactM (c : Comp S) (tol par : ℝ) (s : S) (ev : Ev) : Except Err (S × List Ev) := do
  let loc ← locate tol c.shape ev.r
  if loc = .outside then
    let ev1 ← toIncident tol par c.shape ev
    let (s', out, left) ← c.pathLoop tol par c.maxPath s [ev1]
    let l ← c.leftPath tol par left
    .ok (s', out ++ l)
  else
    let (s', out, left) ← c.pathLoop tol par c.maxPath s [ev]
    let l ← c.leftPath tol par left
    .ok (s', out ++ l)

/-- `CompositeNeutronScatterer_Impl.cc:366-375`: if `scattered2` has one neutron that has nearly the
probability of `ev`, it is moved a little.  A quotient by 0 is not a number or infinite, hence not
less than 1e-5. -/
def nudge (ev : Ev) : List Ev → List Ev
  | [ev2] =>
    if ev.p ≠ 0 ∧ |ev2.p - ev.p| / ev.p < 1 / 10 ^ 5 then [propagate ev2 (1 / 10 ^ 7)] else [ev2]
  | l => l

/-- the loop over the neutrons bounced among scatterers, `CompositeNeutronScatterer_Impl.cc:341-379`:
the neutrons added to `evts`, and `scattered2`, whose value before is `acc` -/
def Comp.roundAll (c : Comp S) (tol par : ℝ) : S → List Ev → List Ev → Except Err (S × List Ev × List Ev)
  | s, acc, [] => .ok (s, [], acc)
  | s, acc, ev :: evs => do
    if c.low ev then c.roundAll tol par s acc evs
    else if ¬ isMoving ev then c.roundAll tol par s acc evs
    else
      let ex ← isExiting tol par c.shape ev
      if ex then
        let (s', out, acc') ← c.roundAll tol par s acc evs
        .ok (s', ev :: out, acc')
      else
        let (s1, new) ← c.interactM tol par s ev
        c.roundAll tol par s1 (nudge ev (acc ++ new)) evs

/-- the `while` loop of `scatterM`, `CompositeNeutronScatterer_Impl.cc:331-386` -/
def Comp.amongLoop (c : Comp S) (tol par : ℝ) : Nat → S → List Ev → Except Err (S × List Ev × List Ev)
  | 0, s, l => .ok (s, [], l)
  | _ + 1, s, [] => .ok (s, [], [])
  | n + 1, s, ev :: evs => do
    let (s1, out1, again) ← c.roundAll tol par s [] (ev :: evs)
    let (s2, out2, left) ← c.amongLoop tol par n s1 again
    .ok (s2, out1 ++ out2, left)

/-- the loop over the left-over neutrons, `CompositeNeutronScatterer_Impl.cc:390-400` -/
def Comp.leftOut (c : Comp S) (tol par : ℝ) : List Ev → Except Err (List Ev)
  | [] => .ok []
  | save :: l => do
    let ev ← propagateOut tol par c.shape save
    let a ← c.atten save ev.r
    let rest ← c.leftOut tol par l
    .ok ({ ev with p := ev.p * a } :: rest)

/-- `scatterM`, `CompositeNeutronScatterer_Impl.cc:317-403` -/
def Comp.scatterM (c : Comp S) (tol par : ℝ) (s : S) (ev : Ev) : Except Err (S × List Ev) := do
  let (s', out, left) ← c.amongLoop tol par c.maxAmong s [ev]
  let l ← c.leftOut tol par left
  .ok (s', out ++ l)

/-- the last part of `interact_path1`, `CompositeNeutronScatterer_Impl.cc:458-466`, for a neutron that
was scattered -/
def Comp.attenuateOut (c : Comp S) (tol par : ℝ) (save : Ev) : Except Err Ev := do
  let loc ← locate tol c.shape save.r
  if loc = .inside then
    let ev ← toExit tol par c.shape save
    let a ← c.atten save ev.r
    .ok { ev with p := ev.p * a }
  else
    let a ← c.atten save save.r
    .ok { save with p := save.p * a }

/-- `interact_path1`, `CompositeNeutronScatterer_Impl.cc:407-467`.  The recursion of line 451 is
bounded by the size of the stack, here `fuel`. -/
def Comp.interact1 (c : Comp S) (tol par : ℝ) : Nat → S → Ev → Except Err (S × Ev × IType)
  | 0, _, _ => .error .recursionError
  | fuel + 1, s, ev => do
    let hit ← find1stHit tol par c.shapes ev.r ev.v
    match hit.bind (c.elems[·]?) with
    | none => do
      let ev' ← toExit tol par c.shape ev
      .ok (s, ev', .none)
    | some e => do
      let (s', loc, itype) ← e.interact1 s (e.toLocal ev)
      match itype with
      | .absorption => .ok (s', { ev with p := -1 }, .absorption)
      | .none => do
        let w ← locate tol c.shape (e.toGlobal loc).r
        if w ≠ .inside then .ok (s', e.toGlobal loc, .none)
        else c.interact1 tol par fuel s' (e.toGlobal loc)
      | .scattering => do
        let ev' ← c.attenuateOut tol par (e.toGlobal loc)
        .ok (s', ev', .scattering)

/-- the last part of `scatter`, `CompositeNeutronScatterer_Impl.cc:512-532`, for a neutron that was
scattered -/
def Comp.finish (c : Comp S) (tol par : ℝ) (save : Ev) : Except Err Ev := do
  let tofs ← intersect tol par c.shape save.r save.v
  match tofs with
  | [] => .ok save
  | _ :: _ =>
    let ev ← propagateOut tol par c.shape save
    let a ← c.atten save ev.r
    .ok { ev with p := ev.p * a }

/-- `scatter`, `CompositeNeutronScatterer_Impl.cc:470-533`; `fuel` bounds the two recursions -/
def Comp.scatter (c : Comp S) (tol par : ℝ) : Nat → S → Ev → Except Err (S × Ev)
  | 0, _, _ => .error .recursionError
  | fuel + 1, s, ev => do
    if ¬ isMoving ev then .ok (s, { ev with p := -1 })
    else
      let ex ← isExiting tol par c.shape ev
      if ex then .ok (s, ev)
      else
        let exu ← isExiting tol par (.union c.shapes) ev
        if exu then
          let ev' ← toExit tol par c.shape ev
          .ok (s, ev')
        else
          let (s1, ev1, itype) ← c.interact1 tol par (fuel + 1) s ev
          match itype with
          | .absorption => .ok (s1, ev1)
          | .none => do
            let ev2 ← toIncident tol par (.union c.shapes) ev1
            c.scatter tol par fuel s1 ev2
          | .scattering => do
            let ev2 ← c.finish tol par ev1
            .ok (s1, ev2)

/-- a homogeneous scatterer as a constituent of a composite,
`mccomponents/lib/homogeneous_scatterer/HomogeneousNeutronScatterer.h:29`; the random numbers are
taken from the state, two of them for each `interact_path1` (the code takes only one for a
transmitted neutron) -/
def ofHomog {K : Type} (tol par : ℝ) (h : Scat K) (pos : V3 ℝ) (rot : M3 ℝ) :
    Elem (K × Nat × (Nat → ℝ)) where
  shape := h.shape
  pos := pos
  rot := rot
  interact1 := fun s ev => do
    let (k, ev', i) ← interactPath1 tol par h (s.2.2 s.2.1) (s.2.2 (s.2.1 + 1)) s.1 ev
    .ok ((k, s.2.1 + 2, s.2.2), ev', i)
  interactM := fun s ev => do
    let (k, n, l, i) ← interactMPath1 tol par h s.2.2 s.1 s.2.1 ev
    .ok ((k, n, s.2.2), l, i)
  atten := fun ev endp => h.atten tol par ev endp

/-- a composite as a constituent of a composite.  `interact_path1` and `interactM_path1` of
`CompositeNeutronScatterer.cc:73-85` end without a `return`, which is undefined behaviour.
`calculate_attenuation` of `CompositeNeutronScatterer.h:83-84` is not `const` and does not override
the one of `AbstractNeutronScatterer.h:74-75`, which the composite calls and which returns 1
(`AbstractNeutronScatterer.cc:61-66`). -/
def ofComp (c : Comp S) (pos : V3 ℝ) (rot : M3 ℝ) : Elem S where
  shape := c.shape
  pos := pos
  rot := rot
  interact1 := fun _ _ => .error .undefinedBehaviour
  interactM := fun _ _ => .error .undefinedBehaviour
  atten := fun _ _ => .ok 1

/-- a scatterer on its own: `AbstractNeutronScatterer.cc:19-32,54-73` makes a composite of it with
an empty geometer (`Geometer.icc`: a missing entry is default constructed, i.e. the origin and the
identity).  The loop limits are those of `CompositeNeutronScatterer_Impl.cc:139-140`;
`min_neutron_probability` is not initialised, it is the arbitrary number `garbage`. -/
def standalone (e : Elem S) (garbage : ℝ) : Comp S where
  shape := e.shape
  elems := [{ e with pos := 0, rot := M3.one }]
  maxAmong := 5
  maxPath := 2
  minP := garbage

/-! ### overlap check -/

/-- a ray of the overlap check: `geometry/overlap.cc:30-39`, from five random numbers in [0,1] -/
def ray (b : BB) (u : Fin 5 → ℝ) : V3 ℝ × V3 ℝ :=
  let cosT := random (u 3) (-1) 1
  let sinT := √(1 - cosT * cosT)
  let phi := random (u 4) 0 (2 * Real.pi)
  (⟨random (u 0) (b.cx - b.sx / 2) (b.cx + b.sx / 2), random (u 1) (b.cy - b.sy / 2) (b.cy + b.sy / 2),
    random (u 2) (b.cz - b.sz / 2) (b.cz + b.sz / 2)⟩,
   ⟨sinT * Real.cos phi, sinT * Real.sin phi, cosT⟩)

/-- the loop over the intersections of a ray, `geometry/overlap.cc:45-53` -/
def anyNotOutside (tol : ℝ) (s2 : Shape) (p v : V3 ℝ) : List ℝ → Except Err Bool
  | [] => .ok false
  | t :: ts => do
    let l2 ← locate tol s2 (p + t • v)
    if l2 ≠ .outside then .ok true else anyNotOutside tol s2 p v ts

/-- `hasOverlap`, `geometry/overlap.cc:17-57`; the rays are made of the given random numbers -/
def hasOverlap (tol par : ℝ) (s1 s2 : Shape) (b : BB) : List (Fin 5 → ℝ) → Except Err Bool
  | [] => .ok false
  | u :: us => do
    let ds ← intersect tol par s1 (ray b u).1 (ray b u).2
    let r ← anyNotOutside tol s2 (ray b u).1 (ray b u).2 ds
    if r then .ok true else hasOverlap tol par s1 s2 b us

/-- the loop over `j` of `checkShapeOverlap`, `CompositeNeutronScatterer.cc:47-56`.  `us` are the
random numbers for the pairs `i`, `j`; the code uses 100 rays for each. -/
def overlapInner (tol par : ℝ) (us : Nat → Nat → List (Fin 5 → ℝ)) (i : Nat) (s : Shape) (b : BB) :
    Nat → List (Elem S) → Except Err Unit
  | _, [] => .ok ()
  | j, e :: l => do
    let o ← hasOverlap tol par s e.shape b (us i j)
    if o then .error .cppException else overlapInner tol par us i s b (j + 1) l

/-- the loop over `i` of `checkShapeOverlap`, `CompositeNeutronScatterer.cc:44-57` -/
def overlapOuter (tol par : ℝ) (us : Nat → Nat → List (Fin 5 → ℝ)) : Nat → List (Elem S) → Except Err Unit
  | _, [] => .ok ()
  | i, e :: l => do
    let b ← bbox e.shape
    overlapInner tol par us i e.shape b (i + 1) l
    overlapOuter tol par us (i + 1) l

/-- `checkShapeOverlap`, `CompositeNeutronScatterer.cc:39-58` -/
def Comp.checkShapeOverlap (c : Comp S) (tol par : ℝ) (us : Nat → Nat → List (Fin 5 → ℝ)) : Except Err Unit :=
  overlapOuter tol par us 0 c.elems

/-- the constructor, `CompositeNeutronScatterer.cc:23-31` -/
def construct (shape : Shape) (elems : List (Elem S)) : Comp S where
  shape := shape
  elems := elems
  maxAmong := 5
  maxPath := 1
  minP := 0

end
end Verif.Composite
