import Verif.Spec.MonoConf
import Verif.Lemmas.Sources
/-!
Lemmas about the settings of the monochromatic source.
-/

namespace Verif.MonoConf
open Spec Solid Flight Homog Kinem Sources

theorem three_ok {l : List ℝ} {v : V3 ℝ} (h : three l = .ok v) : l = [v.x, v.y, v.z] := by
  unfold three at h
  split at h
  · cases h
    rfl
  · cases h

theorem three_error {l : List ℝ} (h : l.length ≠ 3) : three l = .error .assertionError := by
  unfold three
  split
  · exact absurd rfl h
  · rfl

theorem meV_eq (v : V3 ℝ) : meV v = vsq2e * v.dot v := by
  unfold meV vsq2e V3.dot
  ring

theorem scaled_eq {E : ℝ} (hE : 0 < E) {v : V3 ℝ} (hv : v ≠ 0) :
    scaled E v = some ((√E * sqrte2v / length v) • v) := by
  unfold scaled
  rw [if_neg hE.ne', E2v_ok hE.le]
  simp only [Option.bind_eq_bind, Option.bind_some]
  rw [divD_ok (Kinem.length_pos hv).ne', Option.bind_some]

theorem meV_scaled {E : ℝ} (hE : 0 < E) {v : V3 ℝ} (hv : v ≠ 0) :
    meV ((√E * sqrte2v / length v) • v) = E := by
  have hl := Kinem.length_pos hv
  have e := energy_of_v (E2v_ok hE.le)
  have hd : ((√E * sqrte2v / length v) • v).dot ((√E * sqrte2v / length v) • v) =
      (√E * sqrte2v / length v) * (√E * sqrte2v / length v) * v.dot v := by
    change (_ * v.x) * (_ * v.x) + (_ * v.y) * (_ * v.y) + (_ * v.z) * (_ * v.z) = _
    unfold V3.dot
    ring
  rw [meV_eq, hd, ← length_mul_self]
  refine Eq.trans ?_ e
  field_simp

end Verif.MonoConf
