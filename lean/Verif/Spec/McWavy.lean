import Verif.Model.McWavy
import Verif.Spec.McGuide
/-!
Specification for the guide with waviness.
-/

namespace Verif.McWavy
open McStas Kinem Flight Solid McGuide McMon
noncomputable section

/-- half of the width at the distance `z` from the entrance -/
def Wavy.halfW (g : Wavy) (z : ℝ) : ℝ := (g.w1 + (g.w2 - g.w1) * (z / g.l)) / 2
/-- half of the height at the distance `z` from the entrance -/
def Wavy.halfH (g : Wavy) (z : ℝ) : ℝ := (g.h1 + (g.h2 - g.h1) * (z / g.l)) / 2

/-- between the walls -/
def Wavy.Inside (g : Wavy) (r : V3 ℝ) : Prop := |r.x| ≤ g.halfW r.z ∧ |r.y| ≤ g.halfH r.z

/-- a point of a mirror, its inner normal and its coating; seen along the beam the axis `x` points to the left: 1 left, 2 right, 3 top, 4 bottom -/
def Wavy.Side (g : Wavy) (n : V3 ℝ) (c : Coating) (r : V3 ℝ) : Prop :=
  (r.x = g.halfW r.z ∧ n = ⟨-1, 0, (g.w2 - g.w1) / (2 * g.l)⟩ ∧ c = ⟨g.R0, g.Qc, g.alpha1, g.m1, g.W1, none⟩) ∨
  (r.x = -g.halfW r.z ∧ n = ⟨1, 0, (g.w2 - g.w1) / (2 * g.l)⟩ ∧ c = ⟨g.R0, g.Qc, g.alpha2, g.m2, g.W2, none⟩) ∨
  (r.y = g.halfH r.z ∧ n = ⟨0, -1, (g.h2 - g.h1) / (2 * g.l)⟩ ∧ c = ⟨g.R0, g.Qc, g.alpha3, g.m3, g.W3, none⟩) ∨
  (r.y = -g.halfH r.z ∧ n = ⟨0, 1, (g.h2 - g.h1) / (2 * g.l)⟩ ∧ c = ⟨g.R0, g.Qc, g.alpha4, g.m4, g.W4, none⟩)

/-- the normal `n` of a mirror is tilted: by `dz` in the direction of the beam and by `dxy` across it.  In a guide of constant size `n.z` is 0 and
the directions of the two shifts are orthogonal to the normal. -/
def Tilted (n : V3 ℝ) (dz dxy : ℝ) (n' : V3 ℝ) : Prop :=
  ∃ a b, n' = n + dz • a + dxy • b ∧ a.dot a = n.dot n ∧ |a.dot n| = 2 * |n.z| ∧ b.dot b = 1 ∧ b.dot n = 0 ∧ b.z = 0 ∧ a.dot b = 0

/-- the angle (in radian) with the full width at half maximum of `fwhm` degrees, for the normally distributed number `g` -/
def spread (fwhm g : ℝ) : ℝ := fwhm / (2 * √(2 * Real.log 2)) * (Real.pi / 180) * g

/-- the neutron flies straight to a mirror with the normal `n`, which is `n'` there; `v'` is the mirrored velocity and `k` the reflectivity, `none` if it
does not reflect -/
def Wavy.Meets (g : Wavy) (u : ℝ × ℝ) (e : Event ℝ) (s : ℝ) (n n' v' : V3 ℝ) (k : Option ℝ) : Prop :=
  ∃ c, 0 ≤ s ∧ g.Side n c (flown Off e s).r ∧ n.dot e.v < 0 ∧
    (∀ τ, 0 ≤ τ → τ ≤ s → g.Inside (flown Off e τ).r ∧ (flown Off e τ).r.z < g.l) ∧
    Tilted n (spread g.wavyZ u.1) (spread g.wavyXY u.2) n' ∧ (n' ≠ 0 → Mirrored n' e.v v') ∧ k = c.R (V2K * length (v' - e.v))

/-- the flight through the guide, with the random numbers of the reflections -/
inductive Wavy.Travels (g : Wavy) : (ℕ → ℝ × ℝ) → Event ℝ → Event ℝ → Prop
  | leaves {u e} : (e.v.z < 0 ∨ ∀ s, 0 ≤ s → (flown Off e s).r.z ≤ g.l → g.Inside (flown Off e s).r) → Travels g u e e
  | stops {u : ℕ → ℝ × ℝ} {e s n n' v'} : g.Meets (u 0) e s n n' v' none → Travels g u e (McOpt.stopped (flown Off e s))
  | step {u : ℕ → ℝ × ℝ} {e s n n' v' k r} : g.Meets (u 0) e s n n' v' (some k) →
      Travels g (fun i => u (i + 1)) { flown Off e s with v := v', p := e.p * k } r → Travels g u e r

end
end Verif.McWavy
