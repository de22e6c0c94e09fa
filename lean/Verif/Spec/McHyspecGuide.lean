import Verif.Model.McHyspecGuide
import Verif.Spec.McGuide
/-!
Specification for the curved guide of HYSPEC.
-/

namespace Verif.McHyspec
open McStas Kinem Flight Solid McGuide McMon
noncomputable section

/-- a straight piece is around the axis `z` from 0 to `l` -/
def Guide.Tube (g : Guide) (r : V3 ℝ) : Prop := |r.x| ≤ g.w / 2 ∧ |r.y| ≤ g.h / 2

/-- a point of a mirror, its inner normal and the number `m` of its coating -/
def Guide.Side (g : Guide) (n : V3 ℝ) (m : ℝ) (r : V3 ℝ) : Prop :=
  (r.x = -(g.w / 2) ∧ n = ⟨1, 0, 0⟩ ∧ m = g.ml) ∨ (r.x = g.w / 2 ∧ n = ⟨-1, 0, 0⟩ ∧ m = g.mr) ∨
  (r.y = -(g.h / 2) ∧ n = ⟨0, 1, 0⟩ ∧ m = g.mb) ∨ (r.y = g.h / 2 ∧ n = ⟨0, -1, 0⟩ ∧ m = g.mt)

/-- the neutron flies straight to a mirror and is mirrored there; `k`: the reflectivity for the momentum transfer, `none` if it does not reflect -/
def Guide.Meets (g : Guide) (e e' : Event ℝ) (k : Option ℝ) : Prop :=
  ∃ s n m, 0 ≤ s ∧ g.Side n m (flown Off e s).r ∧ n.dot e.v < 0 ∧
    (∀ τ, 0 ≤ τ → τ ≤ s → g.Tube (flown Off e τ).r ∧ (flown Off e τ).r.z < g.l) ∧ Mirrored n e.v e'.v ∧ e' = { flown Off e s with v := e'.v } ∧
    k = (⟨g.R0, g.Qc, g.alpha, m, g.W, none⟩ : Coating).R (V2K * length (e'.v - e.v))

/-- a reflection -/
def Guide.Step (g : Guide) (e e' : Event ℝ) : Prop := ∃ e1 k, g.Meets e e1 (some k) ∧ e' = { e1 with p := e1.p * k }

/-- the opening of a piece -/
def Guide.Open (g : Guide) (r : V3 ℝ) : Prop := |r.x| < g.w / 2 ∧ |r.y| < g.h / 2

/-- the neutron `a` in the opening of a piece passes it by reflections and is `b` at its end -/
def Guide.Leg (g : Guide) (a b : Event ℝ) : Prop :=
  g.Open a.r ∧ ∃ c s, Relation.ReflTransGen g.Step a c ∧ 0 ≤ s ∧ b = flown Off c s ∧ b.r.z = g.l ∧
    ∀ τ, 0 ≤ τ → τ ≤ s → g.Tube (flown Off c τ).r

/-- the neutron `a` at the entrance of a piece is stopped as `r`: outside of the opening, or where a mirror does not reflect -/
def Guide.Blocked (g : Guide) (a r : Event ℝ) : Prop :=
  (¬ g.Open a.r ∧ r = McOpt.stopped a) ∨ (g.Open a.r ∧ ∃ c e1, Relation.ReflTransGen g.Step a c ∧ g.Meets c e1 none ∧ r = McOpt.stopped e1)

/-- the neutron flies forward to the entrance of a piece -/
def Forward (e a : Event ℝ) : Prop := Comes Off e a ∧ 0 < e.v.z

/-- the turn of a piece against the one before it: the middles of the pieces are at distances `l + dseg` along the tangents of a circle with
the radius `R` -/
def Guide.angle (g : Guide) : ℝ := 2 * Real.arctan ((g.l + g.dseg) / (2 * g.R))

/-- a neutron in the frame of piece number `j`, seen from the frame of piece 0: the middles of the pieces are on a circle of radius `R`, each
is a tangent, and piece `j` is turned by `j` times the angle towards `x` -/
def Guide.seen (g : Guide) (j : ℕ) (e : Event ℝ) : Event ℝ :=
  let c := Real.cos (j * g.angle)
  let s := Real.sin (j * g.angle)
  { e with
    r := ⟨g.R * (1 - c) + e.r.x * c + (e.r.z - g.l / 2) * s, e.r.y, g.l / 2 + g.R * s - e.r.x * s + (e.r.z - g.l / 2) * c⟩
    v := ⟨e.v.x * c + e.v.z * s, e.v.y, -e.v.x * s + e.v.z * c⟩ }

/-- the same neutron in the frame of a piece and of the next one -/
def Guide.Same (g : Guide) (b b' : Event ℝ) : Prop := g.seen 0 b = g.seen 1 b'

/-- the neutron `e` passes `n` pieces and is `r` at the end of the last one, in the frame of the last one -/
inductive Guide.Travels (g : Guide) : ℕ → Event ℝ → Event ℝ → Prop
  | last {e a b} : Forward e a → g.Leg a b → Travels g 1 e b
  | more {n e a b b' r} : Forward e a → g.Leg a b → g.Same b b' → Travels g n b' r → Travels g (n + 1) e r

/-- the neutron `e` is stopped as `r` in one of `n` pieces -/
inductive Guide.Halts (g : Guide) : ℕ → Event ℝ → Event ℝ → Prop
  | here {n e a r} : Forward e a → g.Blocked a r → Halts g (n + 1) e r
  | later {n e a b b' r} : Forward e a → g.Leg a b → g.Same b b' → Halts g n b' r → Halts g (n + 1) e r

/-- the neutron `e` does not come to one of `n` entrances in forward flight -/
inductive Guide.Astray (g : Guide) : ℕ → Event ℝ → Prop
  | here {n e} : (¬ ∃ a, Forward e a) → Astray g (n + 1) e
  | later {n e a b b'} : Forward e a → g.Leg a b → g.Same b b' → Astray g n b' → Astray g (n + 1) e

end
end Verif.McHyspec
