import Verif.Model.Flight
import Verif.Spec.Solid
import Mathlib.MeasureTheory.Measure.Lebesgue.Basic
/-!
Specification of flights: straight lines, path lengths as Lebesgue measure.
-/

namespace Verif.Flight
open Solid

/-- the neutron flew for a time `τ` along its straight line, and nothing else changed -/
def FliesFor (ev ev' : Ev) (τ : ℝ) : Prop :=
  ev'.r = at' ev.r ev.v τ ∧ ev'.t = ev.t + τ ∧ ev'.v = ev.v ∧ ev'.s1 = ev.s1 ∧ ev'.s2 = ev.s2 ∧
    ev'.p = ev.p

/-- the times up to `T` at which a path is in the shape -/
def timesIn (s : Shape) (p v : V3 ℝ) (T : ℝ) : Set ℝ :=
  {t | 0 < t ∧ t ≤ T ∧ Mem s (at' p v t)}

/-- the length of the part of the path that lies in the shape: speed times the (Lebesgue)
measure of the times at which the path is in the shape -/
noncomputable def lengthIn (s : Shape) (p v : V3 ℝ) (T : ℝ) : ℝ :=
  √(v.dot v) * (MeasureTheory.volume (timesIn s p v T)).toReal

/-- the shape fits in some box -/
def Bounded (s : Shape) : Prop :=
  ∃ R, ∀ q, Mem s q → |q.x| ≤ R ∧ |q.y| ≤ R ∧ |q.z| ≤ R

/-- not within the tolerance of the surface of any primitive the shape is made of -/
def Clear (tol : ℝ) (s : Shape) (q : V3 ℝ) : Prop :=
  ¬ ∃ f q', LeafAt s q f q' ∧ NearSurface tol f q'

/-- start, end or one of the given times between them -/
def Mark (T : ℝ) (ts : List ℝ) (t : ℝ) : Prop := t = 0 ∨ t = T ∨ (t ∈ ts ∧ 0 ≤ t ∧ t ≤ T)

/-- the middle of the flight between any two neighbouring marks is clear of the surfaces: the
path does not run along a surface and no two surfaces are within the tolerance along it -/
def ClearMiddles (tol : ℝ) (s : Shape) (p v : V3 ℝ) (T : ℝ) (ts : List ℝ) : Prop :=
  ∀ t0 t1, Mark T ts t0 → Mark T ts t1 → t0 < t1 → (∀ t ∈ ts, ¬ (t0 < t ∧ t < t1)) →
    Clear tol s (at' p v ((t0 + t1) / 2))

/-- the middle of the flight to the first of the given times ahead is clear of the surfaces -/
def ClearAhead (tol : ℝ) (s : Shape) (p v : V3 ℝ) (ts : List ℝ) : Prop :=
  ∀ t ∈ ts, 0 < t → (∀ u ∈ ts, ¬ (0 < u ∧ u < t)) → Clear tol s (at' p v (t / 2))

end Verif.Flight
