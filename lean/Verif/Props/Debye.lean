import Verif.Lemmas.Debye
/-!
Property theorems about the thermal motion of atoms: C306, C307, C308.
-/

namespace Verif.Debye
open Classical

/-! ### C306 the Debye function of order one -/

/-- **C306**, what holds: for a positive argument `phi1` is the Debye integral, too large by at most θ^2 exp (-35 / θ) / 17; up to four times the Debye
temperature the error is less than one part in a thousand. -/
theorem C306_partial (θ : ℝ) (hθ : 0 < θ) : ∃ v, phi1 θ = .ok v ∧ debye1 θ ≤ v ∧ v ≤ debye1 θ + θ ^ 2 * Real.exp (-35 / θ) / 17 ∧
    (θ ≤ 4 → v ≤ debye1 θ * (1 + 1 / 1000)) := by
  have hy : 0 ≤ 1 / θ := by positivity
  have h0 := tail_nonneg 2 (1 / θ)
  have h1 := tail2_le hy
  rw [show -35 * (1 / θ) = -35 / θ by ring] at h1
  have h2 : 2 * θ ^ 2 * tail 2 (1 / θ) ≤ θ ^ 2 * Real.exp (-35 / θ) / 17 := by
    calc _ ≤ 2 * θ ^ 2 * (Real.exp (-35 / θ) / 34) := by gcongr
      _ = _ := by ring
  refine ⟨_, phi1_eq hθ, ?_, by linarith, fun h4 => ?_⟩
  · have : 0 ≤ 2 * θ ^ 2 * tail 2 (1 / θ) := by positivity
    linarith
  · have hb := (debye1_bounds hθ).1
    have he : Real.exp (-35 / θ) ≤ 1 / 2000 := by
      have h8 : Real.exp (-35 / θ) ≤ Real.exp (-8) := by
        apply Real.exp_le_exp.2
        rw [div_le_iff₀ hθ]
        linarith
      refine h8.trans ?_
      rw [Real.exp_neg, one_div]
      apply inv_anti₀ (by norm_num)
      have e8 : Real.exp 8 = Real.exp 1 ^ 8 := by rw [← Real.exp_nat_mul]; norm_num
      rw [e8]
      have := Real.exp_one_gt_d9
      calc (2000 : ℝ) ≤ 2.7 ^ 8 := by norm_num
        _ ≤ _ := by gcongr; linarith
    have : θ ^ 2 * Real.exp (-35 / θ) / 17 ≤ 16 * (1 / 2000) / 17 := by
      have : θ ^ 2 ≤ 16 := by nlinarith
      gcongr
    linarith

/-- **C306** The integral has the right limits: it is at least 1/2 (motion at the temperature 0), and it differs from 2 θ (equipartition) by at most 1/2. -/
theorem C306_limits (θ : ℝ) (hθ : 0 < θ) : 1 / 2 ≤ debye1 θ ∧ 2 * θ ≤ debye1 θ ∧ debye1 θ ≤ 1 / 2 + 2 * θ := debye1_bounds hθ

/-- nickel at 300 K -/
example : (0 : ℝ) < 300 / 450 ∧ (300 / 450 : ℝ) ≤ 4 := by norm_num

/-- **C306** is false for high temperatures: at thirty times the Debye temperature the value is more than two percent too large, because the series is cut after
34 terms. -/
theorem C306_high_false : ¬ ∀ θ v : ℝ, 0 < θ → phi1 θ = .ok v → v ≤ debye1 θ * (1 + 2 / 100) := by
  intro H
  have h := H 30 _ (by norm_num) (phi1_eq (by norm_num))
  have h1 := tail2_ge
  have h2 := (debye1_bounds (θ := 30) (by norm_num)).2.2
  linarith

/-- **C306** is false for the temperature 0: the motion of the ground state is not computed, there is an exception. -/
theorem C306_zero_false : ¬ ∀ θ : ℝ, 0 ≤ θ → ∃ v, phi1 θ = .ok v ∧ |v - debye1 θ| ≤ 1 / 1000 + θ := by
  intro H
  obtain ⟨v, hv, -⟩ := H 0 le_rfl
  unfold phi1 at hv
  rw [if_pos rfl] at hv
  cases hv

/-! ### C307 the Debye function of order three -/

/-- **C307**, what holds: for a positive argument `phi3` is the Debye integral, too large by at most the first terms that are left out. -/
theorem C307_partial (θ : ℝ) (hθ : 0 < θ) : ∃ v, phi3 θ = .ok v ∧ debye3 θ ≤ v ∧
    v ≤ debye3 θ + 6 * θ ^ 2 * (1 / 2 + θ / 35 + (θ / 35) ^ 2) * Real.exp (-35 / θ) / 17 := by
  have hy : 0 ≤ 1 / θ := by positivity
  have h0 := tail_nonneg 2 (1 / θ)
  have h1 := tail2_le hy
  rw [show -35 * (1 / θ) = -35 / θ by ring] at h1
  have h3 := tail_le_tail 2 1 one_lt_two hy
  have h4 := tail_le_tail 2 2 one_lt_two hy
  have k3 := tail_nonneg 3 (1 / θ)
  have k4 := tail_nonneg 4 (1 / θ)
  refine ⟨_, phi3_eq hθ, ?_, ?_⟩
  · have : 0 ≤ 12 * θ ^ 2 * (1 / 2 * tail 2 (1 / θ) + θ * tail 3 (1 / θ) + θ ^ 2 * tail 4 (1 / θ)) := by positivity
    linarith
  · have : 12 * θ ^ 2 * (1 / 2 * tail 2 (1 / θ) + θ * tail 3 (1 / θ) + θ ^ 2 * tail 4 (1 / θ)) ≤
        6 * θ ^ 2 * (1 / 2 + θ / 35 + (θ / 35) ^ 2) * Real.exp (-35 / θ) / 17 := by
      calc _ ≤ 12 * θ ^ 2 * (1 / 2 * tail 2 (1 / θ) + θ * (tail 2 (1 / θ) / 35 ^ 1) + θ ^ 2 * (tail 2 (1 / θ) / 35 ^ 2)) := by gcongr
        _ = 12 * θ ^ 2 * (1 / 2 + θ / 35 + (θ / 35) ^ 2) * tail 2 (1 / θ) := by ring
        _ ≤ 12 * θ ^ 2 * (1 / 2 + θ / 35 + (θ / 35) ^ 2) * (Real.exp (-35 / θ) / 34) := by gcongr
        _ = _ := by ring
    linarith

/-- nickel at 300 K -/
example : (0 : ℝ) < 300 / 450 := by norm_num

/-- **C307** is false for high temperatures: at thirty times the Debye temperature the value is more than a tenth too large. -/
theorem C307_high_false : ¬ ∀ θ v : ℝ, 0 < θ → phi3 θ = .ok v → v ≤ debye3 θ * (1 + 1 / 10) := by
  intro H
  have h := H 30 _ (by norm_num) (phi3_eq (by norm_num))
  have h1 := tail2_ge
  have k3 := tail_nonneg 3 (1 / 30)
  have k4 := tail_nonneg 4 (1 / 30)
  have h2 : debye3 30 ≤ 1 / 4 + 20 := by
    unfold debye3
    have : ∫ x in (0 : ℝ)..1 / 30, x ^ 3 / (Real.exp x - 1) ≤ ∫ x in (0 : ℝ)..1 / 30, x ^ 2 := by
      have hi : IntervalIntegrable (fun x : ℝ => x ^ 2 * (x / (Real.exp x - 1))) MeasureTheory.volume 0 (1 / 30) :=
        (integrand_integrable (by norm_num)).continuousOn_mul (by fun_prop)
      have e : (fun x : ℝ => x ^ 3 / (Real.exp x - 1)) = fun x => x ^ 2 * (x / (Real.exp x - 1)) := by funext x; ring
      rw [e]
      refine intervalIntegral.integral_mono_on (by norm_num) hi (Continuous.intervalIntegrable (by fun_prop) _ _) fun x hx => ?_
      have := (integrand_bounds hx.1).2
      nlinarith [sq_nonneg x]
    rw [integral_pow] at this
    norm_num at this ⊢
    linarith
  linarith

/-! ### C308 the factor of thermal motion of an element -/

/-- **C308**, what holds: for an element given by its symbol, at a positive temperature up to four times the Debye temperature of the table, `B` is 8 π^2 times
the mean square displacement of the Debye model in square angstrom, to one part in a thousand. -/
theorem C308_partial (mass : String → Option ℝ) (element : String) (m TD T : ℝ) (hl : keepletters element = element) (hm : mass element = some m)
    (h0 : 0 < m) (hD : (element, TD) ∈ table) (hT : 0 < T) (h4 : T ≤ 4 * TD) :
    ∃ b, B mass element T = .ok b ∧
      8 * Real.pi ^ 2 * displacement (h / (2 * Real.pi)) kB (m * amu) TD T / (1e-10) ^ 2 ≤ b ∧
      b ≤ 8 * Real.pi ^ 2 * displacement (h / (2 * Real.pi)) kB (m * amu) TD T / (1e-10) ^ 2 * (1 + 1 / 1000) := by
  have hg : getDebyeTemp element = TD ∧ 0 < TD := by
    unfold getDebyeTemp getT
    revert hD
    simp only [table, List.mem_cons, Prod.mk.injEq, List.not_mem_nil]
    intro hD
    repeat' first
      | exact False.elim hD
      | (rcases hD with ⟨rfl, rfl⟩ | hD; exact ⟨by simp [List.lookup], by norm_num⟩)
  obtain ⟨hg, hD0⟩ := hg
  have hh : 0 < h := by norm_num [h]
  have hk : 0 < kB := by norm_num [kB]
  have ha : 0 < amu := by norm_num [amu]
  have hpi := Real.pi_pos
  have hth : theta element T = T / TD := by unfold theta; rw [hg, one_mul]
  have hpos : 0 < T / TD := by positivity
  obtain ⟨v, hv, h1, -, h3⟩ := C306_partial (T / TD) hpos
  have h3' := h3 (by rw [div_le_iff₀ hD0]; exact h4)
  rw [displacement_eq (by positivity) hk (by positivity) hD0 hT]
  have hb : B mass element T = .ok (3 * h * h * v / (m * amu * kB * TD) / AA / AA) := by
    unfold B
    rw [hl, hm, hth, hv, hg]
    rfl
  have e : ∀ x : ℝ, 8 * Real.pi ^ 2 * (3 * (h / (2 * Real.pi)) ^ 2 / (2 * (m * amu) * kB * TD) * x) / (1e-10) ^ 2 =
      3 * h * h * x / (m * amu * kB * TD) / AA / AA := by
    intro x
    unfold AA
    field_simp
    ring
  refine ⟨_, hb, ?_, ?_⟩
  · rw [e]
    have hAA : 0 < AA := by norm_num [AA]
    gcongr
  · rw [e]
    have hAA : 0 < AA := by norm_num [AA]
    calc _ ≤ 3 * h * h * (debye1 (T / TD) * (1 + 1 / 1000)) / (m * amu * kB * TD) / AA / AA := by gcongr
      _ = _ := by ring

/-- nickel at 300 K -/
example : keepletters "Ni" = "Ni" ∧ ("Ni", 450) ∈ table ∧ (0 : ℝ) < 58.6934 ∧ (300 : ℝ) ≤ 4 * 450 := by
  refine ⟨by rfl, by simp [table], by norm_num, by norm_num⟩

/-- **C308** is false for isotopes and ions: the mass is looked up without digits and signs, but the Debye temperature is not, so that iron-57 does not have the
Debye temperature of iron. -/
theorem C308_isotope_false : ¬ ∀ (mass : String → Option ℝ) (element : String) (m TD T : ℝ), mass (keepletters element) = some m →
    0 < m → (keepletters element, TD) ∈ table → 0 < T → theta element T = T / TD := by
  intro H
  have h := H (fun _ => some 56) "57Fe" 56 470 1 rfl (by norm_num) (by simp [table, show keepletters "57Fe" = "Fe" from rfl]) one_pos
  have e : getDebyeTemp "57Fe" = 1000 := by simp [getDebyeTemp, getT, table, List.lookup]
  unfold theta at h
  rw [e] at h
  norm_num at h

/-- **C308** is false for the temperature 0. -/
theorem C308_zero_false : ¬ ∀ (mass : String → Option ℝ) (element : String) (m T : ℝ), mass (keepletters element) = some m → 0 < m → 0 ≤ T →
    ∃ b, B mass element T = .ok b := by
  intro H
  obtain ⟨b, hb⟩ := H (fun _ => some 56) "Fe" 56 0 rfl (by norm_num) le_rfl
  unfold B theta phi1 at hb
  simp [bind, Except.bind] at hb

end Verif.Debye
