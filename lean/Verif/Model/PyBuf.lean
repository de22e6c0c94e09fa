import Verif.Model.Base
import Verif.Model.Vec
import Mathlib.Data.Rat.Floor
/-!
Buffers of neutrons as they are seen from python: `packages/mcni/mcnibpmodule/wrap_neutron.cc`, `packages/mcni/mcnibpmodule/wrap_vector.h`,
`packages/mcni/python/mcni/bindings/boostpython/_patch_neutronevents_bp_interface.py`, `packages/mcni/lib/neutron/event_cevent_conversion.cc`.
-/

namespace Verif.PyBuf

/-- a `std::vector` of events, `packages/mcni/lib/neutron/EventBuffer.h:27-45`: the elements, and the number of elements for which there is memory -/
structure Vec (E : Type) where
  data : List E
  cap : Nat

/-- the buffers by their identity: `evts` and `newevts` in `wrap_neutron.cc:46-50` may be the same buffer -/
abbrev Heap (E : Type) := Nat → Vec E

variable {E : Type}

/-- `vector::resize(n, e)` as used in `wrap_neutron.cc:29-30, 42`, and whether the memory was moved. Simplified: the memory after a move is that of libstdc++. -/
def Vec.resize (v : Vec E) (n : Nat) (e : E) : Vec E × Bool :=
  let data := v.data.take n ++ List.replicate (n - v.data.length) e
  if n ≤ v.cap then (⟨data, v.cap⟩, false) else (⟨data, v.data.length + max v.data.length (n - v.data.length)⟩, true)

/-- `std::copy(eit1, eit2, evts.begin() + n)`, `wrap_neutron.cc:43` -/
def copyTo (l : List E) (n : Nat) (xs : List E) : List E := l.take n ++ xs ++ l.drop (n + xs.length)

/-- `Evts_append_events` and `Evts_append_events_it`, `wrap_neutron.cc:37-50`; `dflt` is an event made without arguments. An iterator beyond the end, or into memory that was moved, is undefined behaviour;
the assertion of line 40 ends the program. -/
def appendEvents (dflt : E) (h : Heap E) (self src i j : Nat) : Except Err (Heap E) :=
  if (h src).data.length < i ∨ (h src).data.length < j then .error .undefinedBehaviour
  else if j < i then .error .assertionError
  else
    let n := (h self).data.length
    let r := (h self).resize (n + j - i) dflt
    if self = src ∧ r.2 then .error .undefinedBehaviour
    else
      let from_ := if self = src then r.1.data else (h src).data
      let v : Vec E := ⟨copyTo r.1.data n ((from_.take j).drop i), r.1.cap⟩
      .ok fun k => if k = self then v else h k

/-- an argument of python, `_patch_neutronevents_bp_interface.py:33`: nothing, a python integer, or another number (a float or an integer of numpy). -/
inductive Arg where
  | none
  | int (i : Int)
  | number (q : ℚ)

/-- a python value that is passed as `size_t`, `wrap_neutron.cc:47`, `wrap_vector.h:45, 51`: boost python takes non-negative python integers only. Simplified: the exception OverflowError is written as
`valueError`, and numbers have no upper limit. -/
def toSize : Arg → Except Err Nat
  | .none => .error .typeError
  | .int i => if 0 ≤ i then .ok i.toNat else .error .valueError
  | .number _ => .error .typeError

/-- `int(_)`, `_patch_neutronevents_bp_interface.py:46` -/
def pyInt (q : ℚ) : Int := if 0 ≤ q then ⌊q⌋ else ⌈q⌉

/-- `if index is None: index = d`, `_patch_neutronevents_bp_interface.py:40-43` -/
def given (d : Nat) : Arg → Arg
  | .none => .int d
  | a => a

/-- `_patch_neutronevents_bp_interface.py:44-47` -/
def whole : Arg → Except Err Arg
  | .number q => if q = pyInt q then .ok (.int (pyInt q)) else .error .assertionError
  | a => .ok a

/-- `NEB_appendNeutrons`, `_patch_neutronevents_bp_interface.py:33-49` -/
def appendNeutrons (dflt : E) (h : Heap E) (self src : Nat) (start stop : Arg) : Except Err (Heap E) :=
  (whole (given (h src).data.length stop)).bind fun stop =>
    (toSize (given 0 start)).bind fun i => (toSize stop).bind fun j => appendEvents dflt h self src i j

/-- `v_getitem`, `wrap_vector.h:45-48`: a copy of the element; there is no check of the index -/
def getitem (l : List E) (a : Arg) : Except Err E :=
  (toSize a).bind fun i => match l[i]? with
    | some e => .ok e
    | none => .error .undefinedBehaviour

/-- `v_setitem`, `wrap_vector.h:51-54` -/
def setitem (l : List E) (a : Arg) (e : E) : Except Err (List E) :=
  (toSize a).bind fun i => if i < l.length then .ok (l.set i e) else .error .undefinedBehaviour

/-- the python statement `b[i].probability = p` (`wrap_vector.h:45-48`, `wrap_neutron.cc:81`): the element that line 45 returns by value is changed, and then it is forgotten. The result is the buffer. -/
def setAttrAt (l : List E) (a : Arg) (change : E → E) : Except Err (List E) :=
  (getitem l a).bind fun e => let _ := change e; .ok l

/-- the statements `n = b[i]; n.probability = p; b[i] = n` (`wrap_vector.h:45-54`) -/
def updateAt (l : List E) (a : Arg) (change : E → E) : Except Err (List E) :=
  (getitem l a).bind fun e => setitem l a (change e)

/-- the shape of an array that can be given to `from_npyarr`, `_patch_neutronevents_bp_interface.py:72-78`: `n` entries one after the other, or `n` rows of ten entries whose first entries are `stride`
entries apart (a view such as `a[::2]` has a stride of 20). Simplified: other shapes are not modelled. -/
inductive Shape where
  | flat (n : Nat)
  | rows (n : Nat) (stride : Int)

/-- an array of numpy, `_patch_neutronevents_bp_interface.py:95-108`: the memory around the address of its first entry, and its shape. Simplified: the entries are doubles. -/
structure Arr (F : Type) where
  mem : Int → Option F
  shape : Shape

variable {F : Type}

/-- `event_fromCevent`, `packages/mcni/lib/neutron/event_cevent_conversion.h:23-38`, with the order of the members in `packages/mcni/lib/neutron/cEvent.h:21-26`; `none` if there is no memory -/
def fromCevent (mem : Int → Option F) (a : Int) : Option (Event F) := do
  let x ← mem a
  let y ← mem (a + 1)
  let z ← mem (a + 2)
  let vx ← mem (a + 3)
  let vy ← mem (a + 4)
  let vz ← mem (a + 5)
  let s1 ← mem (a + 6)
  let s2 ← mem (a + 7)
  let t ← mem (a + 8)
  let p ← mem (a + 9)
  return ⟨⟨x, y, z⟩, ⟨vx, vy, vz⟩, s1, s2, t, p⟩

/-- `events_fromCevents`, `packages/mcni/lib/neutron/event_cevent_conversion.cc:27-34` -/
def fromCevents (events : List (Event F)) (mem : Int → Option F) (n : Nat) : Except Err (List (Event F)) :=
  let N := min events.length n
  match (List.range N).mapM fun (i : Nat) => fromCevent mem (10 * (i : Int)) with
  | some new => .ok (new ++ events.drop N)
  | none => .error .undefinedBehaviour

/-- `NEB_fromnpyarr`, `_patch_neutronevents_bp_interface.py:72-91`; `ev` is `neutron()` of line 85 -/
def fromNpyarr (ev : Event F) (buf : List (Event F)) (arr : Arr F) : Except Err (List (Event F)) :=
  match arr.shape with
  | .flat n =>
    if n % 10 = 0 then fromCevents (buf.take (n / 10) ++ List.replicate (n / 10 - buf.length) ev) arr.mem (n / 10)
    else .error .valueError
  | .rows n _ => fromCevents (buf.take n ++ List.replicate (n - buf.length) ev) arr.mem n

/-- `neutrons_from_npyarr`, `packages/mcni/python/mcni/neutron_storage/__init__.py:162-185`; `ev` is an event of a new buffer -/
def neutronsFromNpyarr (ev : Event F) (arr : Arr F) (neutrons : Option (List (Event F))) : Except Err (List (Event F)) :=
  match arr.shape with
  | .flat _ => .error .indexError
  | .rows n _ =>
    let buf := neutrons.getD (List.replicate n ev)
    fromCevents buf arr.mem (min n buf.length)

/-- `event_toCevent`, `packages/mcni/lib/neutron/event_cevent_conversion.h:40-55` -/
def toCevent (e : Event F) : List F := [e.r.x, e.r.y, e.r.z, e.v.x, e.v.y, e.v.z, e.s1, e.s2, e.t, e.p]

/-- `neutrons_as_npyarr` (`packages/mcni/python/mcni/neutron_storage/__init__.py:188-197`) with `events_toCevents` (`packages/mcni/lib/neutron/event_cevent_conversion.cc:36-43`) -/
def asNpyarr (l : List (Event F)) : Arr F :=
  ⟨fun a => if 0 ≤ a then (l.flatMap toCevent)[a.toNat]? else none, .flat (l.length * 10)⟩

/-- `NEB_tonpyarr`, `_patch_neutronevents_bp_interface.py:64-68` -/
def toNpyarr (l : List (Event F)) : Arr F := { asNpyarr l with shape := .rows l.length 10 }

end Verif.PyBuf
