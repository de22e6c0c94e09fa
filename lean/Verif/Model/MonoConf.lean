import Verif.Model.Sources
/-!
The settings of the monochromatic source: `packages/mcni/python/mcni/pyre_components/MonochromaticSource.py`; lines without a
file are lines of it.

Real numbers instead of doubles.  A result that is not a number is `none`.
-/

namespace Verif.MonoConf
open Solid Flight Homog Kinem Sources
noncomputable section
open Classical

/-- the settings, lines 26-62 -/
structure Settings where
  energy : ℝ
  width_E : ℝ
  velocity : List ℝ
  position : List ℝ
  width : ℝ
  height : ℝ
  time : ℝ
  probability : ℝ

/-- three numbers, or the assertion fails, lines 72, 91 -/
def three : List ℝ → Except Err (V3 ℝ)
  | [x, y, z] => .ok ⟨x, y, z⟩
  | _ => .error .assertionError

/-- the velocity for an energy, lines 75-83: roots of negative numbers and divisions by zero of numpy raise nothing, they give
values that are not numbers (or infinite ones, which are not told apart here) -/
def scaled (energy : ℝ) (velocity : V3 ℝ) : Option (V3 ℝ) :=
  if energy = 0 then some velocity
  else do
    let v ← E2v energy
    let f ← divD v (length velocity)
    some (f • velocity)

/-- `_configure` and `_init`, lines 69-114: the source, if its velocity is a number. The spin is the one of
`mcni/bindings/boostpython/__init__.py:37` -/
def source (s : Settings) : Except Err (Option Mono) :=
  match three s.velocity with
  | .error e => .error e
  | .ok velocity =>
    if s.width_E < 0 then .error .valueError
    else match three s.position with
      | .error e => .error e
      | .ok position => .ok ((scaled s.energy velocity).map fun v =>
          ⟨⟨position, v, 0, 1, s.time, s.probability⟩, s.width, s.height, s.width_E⟩)

end

end Verif.MonoConf
