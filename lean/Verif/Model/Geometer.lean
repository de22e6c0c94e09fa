import Verif.Model.Vec
import Verif.Model.Base
/-!
The geometer which allows placing components relative to others:
`packages/mcni/python/mcni/Geometer2.py`.
-/

namespace Verif.Geometer
variable {N F : Type}

/-- reference of a relative coordinate: the keyword `'previous'` or an element,
`Geometer2.py:33-43,155-164` -/
inductive Ref (N : Type) where
  | previous
  | elem (n : N)

/-- `AbsoluteCoord` / `RelativeCoord`, `Geometer2.py:27-64`; a `RelativeCoord`
always has a reference (otherwise the constructor raises, line 36-37). -/
inductive Coord (V N : Type) where
  | absolute (v : V)
  | relative (v : V) (tgt : Ref N)

/-- an orientation value: three angles or a matrix; `toMatrix`
(`mcstasRotations.py:57-115`) accepts both. -/
inductive Ori (F : Type) where
  | angles (a : V3 F)
  | mat (m : M3 F)

/-- `toMatrix(o)`, `mcstasRotations.py:103-115`; `toM` is the conversion of angles (modelled in
`Model/Frames.lean`, here any function). -/
def Ori.matrix (toM : V3 F → M3 F) : Ori F → M3 F
  | .angles a => toM a
  | .mat m => m

/-- The state of a geometer: `_registry`, `element_sequence`, `_abspos`, `_absori`,
`Geometer.py:20-26`, `Geometer2.py:92-105`. -/
structure Geo (N F : Type) where
  reg : N → Option (Coord (V3 F) N × Coord (Ori F) N)
  seq : Option (List N)
  abspos : N → Option (V3 F)
  absori : N → Option (Ori F)

/-- `Geometer.__init__`, `Geometer2.py:96-105`, with the attribute `element_sequence` set -/
def empty (seq : Option (List N)) : Geo N F :=
  { reg := fun _ => none, seq := seq, abspos := fun _ => none, absori := fun _ => none }

/-- dictionary assignment, `Geometer2.py:111,120` -/
def upd {V : Type} [DecidableEq N] (f : N → Option V) (e : N) (v : V) : N → Option V :=
  fun x => if x = e then some v else f x

variable [DecidableEq N]

/-- `register`, `Geometer.py:24-26` (not overridden in `Geometer2.py`: the caches are
left alone). -/
def register (g : Geo N F) (e : N) (pos : Coord (V3 F) N) (ori : Coord (Ori F) N) : Geo N F :=
  { g with reg := upd g.reg e (pos, ori) }

/-- `_findReference`, `Geometer2.py:155-164`; `list.index` raises `ValueError`. -/
def findReference (g : Geo N F) (ref : Ref N) (e : N) : Except Err N :=
  match ref with
  | .elem n => .ok n
  | .previous =>
    match g.seq with
    | none => .error .runtimeError
    | some seq =>
      match seq.findIdx? (fun x => decide (x = e)) with
      | none => .error .valueError
      | some 0 => .error .runtimeError
      | some (i + 1) => match seq[i]? with
        | some r => .ok r
        | none => .error .indexError

variable [Ring F] (toM : V3 F → M3 F)

/-- `orientation` with `_calcAbsOrientation`, `Geometer2.py:115-121,135-144`, and the
orientation part of `coordinate_system_transformers/mcstas.py:26-31`.  The recursion limit of the
interpreter is `fuel`; running out of it is `RecursionError`. -/
def orientation : Nat → Geo N F → N → Except Err (Ori F) × Geo N F
  | fuel, g, e =>
    match g.absori e with
    | some o => (.ok o, g)
    | none =>
      match fuel with
      | 0 => (.error .recursionError, g)
      | fuel + 1 =>
        match g.reg e with
        | none => (.error .keyError, g)
        | some (_, .absolute o) => (.ok o, { g with absori := upd g.absori e o })
        | some (_, .relative v tgt) =>
          match findReference g tgt e with
          | .error er => (.error er, g)
          | .ok ref =>
            match orientation fuel g ref with
            | (.error er, g') => (.error er, g')
            | (.ok o, g') =>
              let r := Ori.mat ((v.matrix toM).mul (o.matrix toM))
              (.ok r, { g' with absori := upd g'.absori e r })

/-- `position` with `_calcAbsPosition`, `Geometer2.py:108-112,124-132`, and the
position part of `coordinate_system_transformers/mcstas.py:26-31`. -/
def position : Nat → Geo N F → N → Except Err (V3 F) × Geo N F
  | fuel, g, e =>
    match g.abspos e with
    | some p => (.ok p, g)
    | none =>
      match fuel with
      | 0 => (.error .recursionError, g)
      | fuel + 1 =>
        match g.reg e with
        | none => (.error .keyError, g)
        | some (.absolute p, _) => (.ok p, { g with abspos := upd g.abspos e p })
        | some (.relative v tgt, _) =>
          match findReference g tgt e with
          | .error er => (.error er, g)
          | .ok ref =>
            match position fuel g ref with
            | (.error er, g') => (.error er, g')
            | (.ok refpos, g') =>
              match orientation toM fuel g' ref with
              | (.error er, g'') => (.error er, g'')
              | (.ok refori, g'') =>
                let r := refpos + (refori.matrix toM).transpose.mulVec v
                (.ok r, { g'' with abspos := upd g''.abspos e r })

/-- the public calls on a geometer, `Geometer2.py:24-26,108-121` -/
inductive Op (N F : Type) where
  | register (e : N) (pos : Coord (V3 F) N) (ori : Coord (Ori F) N)
  | position (e : N)
  | orientation (e : N)

/-- the state after a call, `Geometer2.py:24-26,108-121` -/
def Op.apply (fuel : Nat) (g : Geo N F) : Op N F → Geo N F
  | .register e p o => Geometer.register g e p o
  | .position e => (Geometer.position toM fuel g e).2
  | .orientation e => (Geometer.orientation toM fuel g e).2

/-- `Instrument._register`, `mcni/python/mcni/Instrument.py:78-92`: register, then ask for
position and orientation (these are stored on the component). -/
def instrumentRegister (fuel : Nat) (g : Geo N F) (e : N) (pos : V3 F) (ori : Ori F) (relativeTo : Option N) :
    Except Err (V3 F × Ori F) × Geo N F :=
  let g1 := match relativeTo with
    | some r => register g e (.relative pos (.elem r)) (.relative ori (.elem r))
    | none => register g e (.absolute pos) (.absolute ori)
  match position toM fuel g1 e with
  | (.error er, g2) => (.error er, g2)
  | (.ok p, g2) => match orientation toM fuel g2 e with
    | (.error er, g3) => (.error er, g3)
    | (.ok o, g3) => (.ok (p, o), g3)

end Verif.Geometer
