import Verif.Model.Solid
import Mathlib.Analysis.SpecialFunctions.Exp
/-!
Flights of neutrons to the surfaces of a shape and attenuation along a flight:
`packages/mccomposite/lib/mccomposite/neutron_propagation.h`, `neutron_propagation.cc` and
`calculate_attenuation` of `mccomponents/lib/homogeneous_scatterer/HomogeneousNeutronScatterer.cc`.

Real numbers instead of doubles.  `tol` is `geometry::tolerance`, `par` the constant 1e-10 of
the triangle intersector, as in `Verif.Model.Solid`.
-/

namespace Verif.Flight
open Solid
noncomputable section
open Classical

/-- a neutron event over the reals, `mcni/lib/neutron/Event.h:54-79` -/
abbrev Ev := Event ℝ

/-- `propagate`, `neutron_propagation.h:55-59` -/
def propagate (ev : Ev) (t : ℝ) : Ev := { ev with r := ev.r + t • ev.v, t := ev.t + t }

/-- `propagate_out`, `neutron_propagation.h:62-69`: to the last of all intersections -/
def propagateOut (tol par : ℝ) (s : Shape) (ev : Ev) : Except Err Ev := do
  let tofs ← intersect tol par s ev.r ev.v
  match tofs.getLast? with
  | none => .ok ev
  | some t => .ok (propagate ev t)

/-- the loop over the intersections for a start on the border, which looks at the middle of the
flight from the start to each of them: `neutron_propagation.cc:59-73`, `107-121` and `151-166`.
`stop` is the location of the middle point at which nothing is to be done (`none`), `go` the
one at which the intersection is taken. -/
def borderLoop (tol : ℝ) (stop go : Loc) (s : Shape) (ev : Ev) :
    List ℝ → Except Err (Option ℝ)
  | [] => .ok none
  | t :: ts => do
    let loc ← locate tol s (ev.r + (t * (1 / 2)) • ev.v)
    if loc = stop then .ok none
    else if loc = go then .ok (some t)
    else borderLoop tol stop go s ev ts

/-- `propagate_to_next_incident_surface`, `neutron_propagation.cc:79-124` -/
def toIncident (tol par : ℝ) (s : Shape) (ev : Ev) : Except Err Ev := do
  let loc ← locate tol s ev.r
  if loc = .inside then .error .cppException
  else
    let tofs ← forwardIntersect tol par s ev.r ev.v
    match tofs with
    | [] => .ok ev
    | t0 :: _ =>
      if loc = .outside then .ok (propagate ev t0)
      else
        match ← borderLoop tol .inside .outside s ev tofs with
        | none => .ok ev
        | some t => .ok (propagate ev t)

/-- the second part of `propagate_to_next_exiting_surface`, `neutron_propagation.cc:50-75`, for
a neutron that should be at the front surface -/
def exitFromFront (tol par : ℝ) (s : Shape) (ev1 : Ev) : Except Err Ev := do
  let tofs ← forwardIntersect tol par s ev1.r ev1.v
  let loc1 ← locate tol s ev1.r
  if loc1 ≠ .onborder then .error .cppException
  else
    match ← borderLoop tol .outside .inside s ev1 tofs with
    | none => .ok ev1
    | some t => .ok (propagate ev1 t)

/-- `propagate_to_next_exiting_surface`, `neutron_propagation.cc:21-76` -/
def toExit (tol par : ℝ) (s : Shape) (ev : Ev) : Except Err Ev := do
  let loc ← locate tol s ev.r
  if loc = .inside then
    let tofs ← forwardIntersect tol par s ev.r ev.v
    match tofs with
    | [] => .error .cppException
    | t :: _ => .ok (propagate ev t)
  else if loc = .outside then
    let ev1 ← toIncident tol par s ev
    exitFromFront tol par s ev1
  else exitFromFront tol par s ev

/-- `tof_before_exit`, `neutron_propagation.cc:126-169` -/
def tofBeforeExit (tol par : ℝ) (s : Shape) (ev : Ev) : Except Err ℝ := do
  let loc ← locate tol s ev.r
  if loc = .outside then .error .cppException
  else
    let tofs ← forwardIntersect tol par s ev.r ev.v
    match tofs with
    | [] => .error .cppException
    | t0 :: _ =>
      if loc = .inside then .ok t0
      else
        match ← borderLoop tol .outside .inside s ev tofs with
        | none => .ok 0
        | some t => .ok t

/-- the loop of `is_exiting`, `neutron_propagation.cc:193-203` -/
def exitLoop (tol : ℝ) (s : Shape) (ev : Ev) : ℝ → List ℝ → Except Err Bool
  | _, [] => .ok true
  | previous, now :: ts => do
    let loc ← locate tol s (ev.r + ((previous + now) / 2) • ev.v)
    if loc ≠ .onborder then .ok false else exitLoop tol s ev now ts

/-- `is_exiting`, `neutron_propagation.cc:172-204` -/
def isExiting (tol par : ℝ) (s : Shape) (ev : Ev) : Except Err Bool := do
  let loc ← locate tol s ev.r
  if loc = .inside then .ok false
  else
    let tofs ← forwardIntersect tol par s ev.r ev.v
    match tofs with
    | [] => .ok true
    | _ :: _ => if loc = .outside then .ok false else exitLoop tol s ev 0 tofs

/-- `is_moving`, `neutron_propagation.cc:206-210` -/
def isMoving (ev : Ev) : Bool := decide (length ev.v > 1 / 1000000)

/-- the loop of `calculate_attenuation`, `HomogeneousNeutronScatterer.cc:357-370`; `len` is the
value of `length` at the start of the loop body.  The `break` of line 368 is never reached
since `tof` is at most `tofmax` there. -/
def pathLoop (tol : ℝ) (s : Shape) (start vv : V3 ℝ) (v tofmax : ℝ) :
    ℝ → ℝ → List ℝ → Except Err ℝ
  | _, len, [] => .ok len
  | prev, len, t :: ts => do
    let tof := if t > tofmax then tofmax else t
    let middle := (tof + prev) / 2
    let loc ← locate tol s (start + middle • vv)
    let len' := if loc = .inside then len + (tof - prev) * v else len
    pathLoop tol s start vv v tofmax tof len' ts

/-- the part of `calculate_attenuation` that computes the length of the path inside the shape,
`HomogeneousNeutronScatterer.cc:348-370`.  For a neutron at rest there are no intersections, and
`tofmax`, which is not a number in the code, is not used. -/
def pathLength (tol par : ℝ) (s : Shape) (ev : Ev) (endp : V3 ℝ) : Except Err ℝ := do
  let v := length ev.v
  let tofs ← forwardIntersect tol par s ev.r ev.v
  let tofmax := length (endp - ev.r) / v
  pathLoop tol s ev.r ev.v v tofmax 0 0 tofs

/-- `HomogeneousNeutronScatterer::calculate_attenuation`,
`HomogeneousNeutronScatterer.cc:341-382`; `mu` and `sigma` are the values of `mu(ev)` and
`scattering_coefficient(ev) * packing_factor` (371-372). -/
def attenuation (tol par : ℝ) (s : Shape) (mu sigma : ℝ) (ev : Ev) (endp : V3 ℝ) :
    Except Err ℝ := do
  let len ← pathLength tol par s ev endp
  .ok (Real.exp (-(mu + sigma) * len))

end
end Verif.Flight
