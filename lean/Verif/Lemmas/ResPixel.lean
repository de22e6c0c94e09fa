import Verif.Model.ResPixel
import Verif.Spec.ResPixel
import Verif.Lemmas.Homog
import Verif.Lemmas.Kinem
import Mathlib.Tactic.Linarith
import Mathlib.Tactic.Ring
import Mathlib.Tactic.FieldSimp
import Mathlib.Tactic.Positivity
import Mathlib.Tactic.NormNum
/-!
Lemmas for the helium-3 gas and the pixel of the resolution calculation.
-/

namespace Verif.ResPixel
open Solid Flight Kinem
open Classical

/-- the wavelength in ångström of the code times the speed -/
noncomputable def speed0 : ℝ := √(81.81 / vsq2e) / 1.798

theorem vsq2e_pos : 0 < vsq2e := by unfold vsq2e; norm_num

theorem absorption_eq (pressure : ℝ) {ev : Ev} (hv : ev.v ≠ 0) :
    absorption pressure ev =
      some (oneOverV (pressure * 2.414e20) 5333e-28 speed0 √(ev.v.dot ev.v)) := by
  have h2 : 0 < ev.v.dot ev.v := dot_self_pos hv
  have he : 0 < vsquare2E (ev.v.dot ev.v) := mul_pos h2 vsq2e_pos
  unfold absorption
  simp only [divD_ok he.ne', Option.bind_eq_bind, Option.bind_some]
  rw [sqrtD_ok (by positivity)]
  simp only [Option.bind_some]
  congr 1
  have : 81.81 / vsquare2E (ev.v.dot ev.v) = 81.81 / vsq2e / (ev.v.dot ev.v) := by
    unfold vsquare2E; field_simp
  rw [this, Real.sqrt_div (by have := vsq2e_pos; positivity)]
  unfold refAbsXS numberDensity oneOverV speed0
  rw [show (5333.0e-28 : ℝ) = 5333e-28 by norm_num]
  field_simp

theorem weigh_eq {tol par : ℝ} {s : Shape} {a : Ev} {τ : ℝ} (pressure mtof : ℝ)
    (ht : tofBeforeExit tol par s a = .ok τ) {mu : ℝ} (hmu : absorption pressure a = some mu) :
    weigh tol par s pressure mtof a =
      .ok { a with p := if mtof < a.t ∨ a.t + τ < mtof then epsilon
        else a.p * (mu * (τ * √(a.v.dot a.v)) *
          Real.exp (-mu * ((mtof - a.t) * √(a.v.dot a.v)))) } := by
  unfold weigh
  by_cases h1 : a.t > mtof
  · rw [if_pos h1, if_pos (Or.inl h1)]
  · rw [if_neg h1, ht]
    simp only [bind, Except.bind]
    by_cases h2 : a.t + τ < mtof
    · rw [if_pos h2, if_pos (Or.inr h2)]
    · rw [if_neg h2, if_neg (by rintro (h | h); exacts [h1 h, h2 h])]
      have : prob pressure a (mtof - a.t) τ = some (mu * (τ * √(a.v.dot a.v)) *
          Real.exp (-mu * ((mtof - a.t) * √(a.v.dot a.v)))) := by
        unfold prob
        rw [hmu]
        simp [scattering, length_eq]
      rw [this]

theorem Enters.flies {tol par : ℝ} {s : Shape} {ev a : Ev} (h : Enters tol par s ev a) :
    ∃ t, 0 ≤ t ∧ FliesFor ev a t := by
  obtain ⟨l, -, ⟨-, rfl⟩ | ⟨-, h2⟩⟩ := h
  · exact ⟨0, le_rfl, FliesFor.refl _⟩
  · exact toIncident_flies h2

theorem interact_eq {tol par : ℝ} {s : Shape} {ev a : Ev} {τ : ℝ} (pressure mtof : ℝ)
    (hin : Enters tol par s ev a) (ht : tofBeforeExit tol par s a = .ok τ) {mu : ℝ}
    (hmu : absorption pressure a = some mu) :
    interact tol par s pressure mtof ev =
      .ok (propagate { a with p := if mtof < a.t ∨ a.t + τ < mtof then epsilon
        else a.p * (mu * (τ * √(a.v.dot a.v)) *
          Real.exp (-mu * ((mtof - a.t) * √(a.v.dot a.v)))) } τ) := by
  have key : weigh tol par s pressure mtof a >>= toExit tol par s = .ok (propagate { a with p :=
      if mtof < a.t ∨ a.t + τ < mtof then epsilon
        else a.p * (mu * (τ * √(a.v.dot a.v)) *
          Real.exp (-mu * ((mtof - a.t) * √(a.v.dot a.v)))) } τ) := by
    rw [weigh_eq pressure mtof ht hmu]
    exact (tofBeforeExit_toExit ((Homog.tof_weight tol par s a _).trans ht)).2
  unfold interact
  obtain ⟨l, h1, ⟨rfl, rfl⟩ | ⟨h2, h3⟩⟩ := hin
  · rw [h1]
    simpa [bind, Except.bind] using key
  · rw [h1]
    simp only [bind, Except.bind, ne_eq, h2, not_false_eq_true, if_true, h3]
    simpa [bind, Except.bind] using key

theorem speed0_bounds : 2200 < speed0 ∧ speed0 < 2201 := by
  unfold speed0
  constructor
  · rw [lt_div_iff₀ (by norm_num)]
    apply Real.lt_sqrt_of_sq_lt
    unfold vsq2e; norm_num
  · rw [div_lt_iff₀ (by norm_num), Real.sqrt_lt' (by norm_num)]
    unfold vsq2e; norm_num

end Verif.ResPixel
