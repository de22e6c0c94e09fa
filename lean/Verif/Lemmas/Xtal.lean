import Verif.Spec.Xtal
import Verif.Lemmas.Phonon
import Verif.Lemmas.Powder
import Verif.Lemmas.Root
import Verif.Props.Root
/-!
Helper lemmas for coherent one-phonon scattering.
-/

namespace Verif.Xtal
open Solid Flight Homog Kinem Powder Dos

theorem energy_smul_unit {n : V3 ℝ} (hn : n.dot n = 1) (s : ℝ) : energy (s • n) = vsq2e * (s * s) := by
  rw [energy_smul, hn]; ring

theorem length_smul_unit {n : V3 ℝ} (hn : n.dot n = 1) {s : ℝ} (hs : 0 ≤ s) : length (s • n) = s := by
  rw [length_eq, show (s • n).dot (s • n) = s ^ 2 * n.dot n by
    simp only [V3.dot, V3.smul_x, V3.smul_y, V3.smul_z]; ring, hn, mul_one, Real.sqrt_sq hs]

theorem omegaMinus_eq {n : V3 ℝ} (hn : n.dot n = 1) (D : Phonons) (br : Nat) (v : V3 ℝ) (s : ℝ) :
    omegaMinus D br n v (length v) s = mismatch D br v (s • n) := by
  unfold omegaMinus mismatch
  have e1 : (⟨v2k * (v.x - s * n.x), v2k * (v.y - s * n.y), v2k * (v.z - s * n.z)⟩ : V3 ℝ) = wave v - wave (s • n) := by
    ext <;> simp only [wave, V3.sub_x, V3.sub_y, V3.sub_z, V3.smul_x, V3.smul_y, V3.smul_z] <;> ring
  simp only [e1, length_mul_self, energy_smul_unit hn]
  unfold vsquare2E energy
  rw [← mul_sub, abs_mul, abs_of_pos vsq2e_pos, mul_comm]

theorem solve_along {n : V3 ℝ} (hn : n.dot n = 1) (K : Single) (br : Nat) (v : V3 ℝ) :
    Root.solve (omegaMinus K.D br n v (length v)) K.xacc K.nSteps 0 (length v * 2) = speeds K br v n := by
  unfold speeds
  rw [← length_eq, mul_comm (2 : ℝ)]
  congr 1
  funext s
  exact omegaMinus_eq hn _ _ _ _

theorem mismatch_slope {n : V3 ℝ} (hn : n.dot n = 1) (D : Phonons) (br : Nat) (v : V3 ℝ) (d s : ℝ) :
    |omegaMinus D br n v (length v) (s + d) - omegaMinus D br n v (length v) (s - d)| / (2 * d) =
      slopeOf D br v n d s := by
  unfold slopeOf
  rw [omegaMinus_eq hn, omegaMinus_eq hn]

theorem pickVf_some {K : Single} {br : Nat} {n v : V3 ℝ} (hn : n.dot n = 1) {u : ℝ} {vf : V3 ℝ} {w : ℝ}
    (h : pickVf K br n v (length v) u = some (some (vf, w))) :
    ∃ s ∈ speeds K br v n, vf = s • n := by
  unfold pickVf at h
  simp only [solve_along hn] at h
  split at h
  · cases h
  · next hl =>
    rw [Option.bind_eq_bind, Option.bind_eq_some_iff] at h
    obtain ⟨d, hd, h⟩ := h
    rw [Phonon.normalize_unit hn] at hd
    cases hd
    simp only [Option.bind_eq_bind, Option.bind_eq_some_iff, Option.some.injEq, Prod.mk.injEq] at h
    obtain ⟨J, -, j, -, h, -⟩ := h
    refine ⟨_, ?_, h.symm⟩
    rw [List.getD_eq_getElem?_getD, List.getElem?_eq_getElem (randomIndex_lt u (by omega))]
    exact List.getElem_mem _

theorem pickVf_none {K : Single} {br : Nat} {n v : V3 ℝ} (hn : n.dot n = 1) {u : ℝ} (h : speeds K br v n = []) :
    pickVf K br n v (length v) u = some none := by
  unfold pickVf
  simp only [solve_along hn, h]
  rfl

theorem pickVf_ok {K : Single} {br : Nat} {n v : V3 ℝ} (hn : n.dot n = 1) {u : ℝ} {s : ℝ}
    (hl : speeds K br v n ≠ []) (hs : s = (speeds K br v n).getD (randomIndex u (speeds K br v n).length) 0)
    (hd : K.dV * length v ≠ 0) (hJ : slopeOf K.D br v n (K.dV * length v) s ≠ 0) :
    pickVf K br n v (length v) u = some (some (s • n, (speeds K br v n).length *
      (2 * vsq2e * s / slopeOf K.D br v n (K.dV * length v) s))) := by
  unfold pickVf
  simp only [solve_along hn]
  have : 0 < (speeds K br v n).length := List.length_pos_iff.2 hl
  rw [if_neg (by omega), Phonon.normalize_unit hn]
  simp only [Option.bind_eq_bind, Option.bind_some, ← hs]
  rw [divD_ok (mul_ne_zero two_ne_zero hd)]
  simp only [Option.bind_some, mismatch_slope hn]
  rw [divD_ok hJ]
  rfl

theorem attempts_some {K : Single} {good : List Nat} {v : V3 ℝ} {l : ℝ} {br : Nat} {vf : V3 ℝ} {w : ℝ} :
    ∀ {tries : List (V3 ℝ × ℝ × ℝ)}, attempts K good v l tries = some (some (br, vf, w)) →
    ∃ t ∈ tries, ∃ d, Kinem.normalize t.1 = some d ∧ br = good.getD (randomIndex t.2.1 good.length) 0 ∧
      pickVf K br d v l t.2.2 = some (some (vf, w))
  | [], h => by cases h
  | (dir, u1, u2) :: rest, h => by
    rw [attempts] at h
    simp only [Option.bind_eq_bind, Option.bind_eq_some_iff] at h
    obtain ⟨d, hd, o, ho, h⟩ := h
    cases o with
    | some p =>
      obtain ⟨vf', w'⟩ := p
      simp only [Option.some.injEq, Prod.mk.injEq] at h
      obtain ⟨rfl, rfl, rfl⟩ := h
      exact ⟨_, List.mem_cons_self, d, hd, rfl, ho⟩
    | none =>
      obtain ⟨t, ht, r⟩ := attempts_some h
      exact ⟨t, List.mem_cons_of_mem _ ht, r⟩

theorem attempts_none {K : Single} {good : List Nat} {v : V3 ℝ} {l : ℝ} :
    ∀ {tries : List (V3 ℝ × ℝ × ℝ)}, (∀ t ∈ tries, ∃ d, Kinem.normalize t.1 = some d ∧
      pickVf K (good.getD (randomIndex t.2.1 good.length) 0) d v l t.2.2 = some none) →
    attempts K good v l tries = some none
  | [], _ => rfl
  | (dir, u1, u2) :: rest, h => by
    obtain ⟨d, hd, hp⟩ := h _ List.mem_cons_self
    rw [attempts]
    simp only [hd, Option.bind_eq_bind, Option.bind_some, hp]
    exact attempts_none fun t ht => h t (List.mem_cons_of_mem _ ht)

theorem good_lt {D : Phonons} {E : ℝ} (h : goodBranches D E ≠ []) (u : ℝ) :
    (goodBranches D E).getD (randomIndex u (goodBranches D E).length) 0 < D.nBranches ∧
    D.minEnergy ((goodBranches D E).getD (randomIndex u (goodBranches D E).length) 0) < E * 1.5 := by
  have hl : 0 < (goodBranches D E).length := List.length_pos_iff.2 h
  have hm : (goodBranches D E).getD (randomIndex u (goodBranches D E).length) 0 ∈ goodBranches D E := by
    rw [List.getD_eq_getElem?_getD, List.getElem?_eq_getElem (randomIndex_lt u hl)]
    exact List.getElem_mem _
  unfold goodBranches at hm ⊢
  simpa using hm

theorem boseFactor_eq {w T : ℝ} (hw : w ≠ 0) (hT : 0 < T) : boseFactor w T = some (thermal w T) := by
  unfold boseFactor thermal
  rw [if_neg hw, (bose_pos (abs_pos.2 hw) hT).1]
  rfl

theorem thermal_pos {w T : ℝ} (hw : w ≠ 0) (hT : 0 < T) : 0 < thermal w T := by
  have := (bose_pos (abs_pos.2 hw) hT).2
  unfold kT at this
  unfold thermal
  split <;> linarith

/-- the final weight in terms of the specification -/
theorem singleFinish_eq {K : Single} {solid : ℝ} {m br : Nat} {n : V3 ℝ} (hn : n.dot n = 1) {s : ℝ} (hs : 0 ≤ s) {F : ℂ}
    {N : ℝ} {ev : Ev} (hv : ev.v ≠ 0) (hT : 0 < K.T) (hc : totalCoh K.atoms ≠ 0) (hr : Regular K br ev.v n s F) :
    singleFinish K solid m br (s • n) (N * (2 * vsq2e * s / slopeOf K.D br ev.v n (K.dV * length ev.v) s)) ev =
      some { ev with v := s • n, p := ev.p * (N * m * solid * onePhonon K br ev.v n s F) } := by
  unfold singleFinish
  simp only [v2E_length]
  have e1 : v2k • (ev.v - s • n) = wave ev.v - wave (s • n) := by
    ext <;> simp only [wave, V3.sub_x, V3.sub_y, V3.sub_z, V3.smul_x, V3.smul_y, V3.smul_z] <;> ring
  have hw : energy ev.v - energy (s • n) ≠ 0 := sub_ne_zero.2 hr.inelastic
  have hl := length_pos hv
  rw [e1, hr.wave]
  simp only [Option.bind_eq_bind, Option.bind_some]
  rw [divD_ok (mul_ne_zero hc (by norm_num)), Option.bind_some, divD_ok (abs_pos.2 hw).ne', Option.bind_some,
    boseFactor_eq hw hT, Option.bind_some, divD_ok (mul_ne_zero v2k_pos.ne' hl.ne'), Option.bind_some,
    length_smul_unit hn hs]
  have e2 : v2k * s / (v2k * length ev.v) = s / length ev.v := by
    have := v2k_pos.ne'
    field_simp
  have e3 : ksquare2E (Complex.normSq F / 1e30 / (totalCoh K.atoms * 1e-28)) =
      vsq2e * k2v ^ 2 * (Complex.normSq F / 100 / totalCoh K.atoms) := by
    unfold ksquare2E vsquare2E
    norm_num
    field_simp
    ring
  rw [e2, e3]
  unfold onePhonon
  simp only [length_eq]
  congr 2
  ring

theorem sum_map_getD {α : Type} (l : List α) (d : α) (f : α → ℝ) :
    ∑ i ∈ Finset.range l.length, f (l.getD i d) = (l.map f).sum := by
  induction l with
  | nil => simp
  | cons a l ih =>
    rw [List.length_cons, Finset.sum_range_succ']
    simp only [List.getD_cons_succ, List.getD_cons_zero, List.map_cons, List.sum_cons, ih]
    ring

theorem solve_nil {f : ℝ → ℝ} (h : ∀ x, 0 < f x) (xacc : ℝ) (n : Nat) (a b : ℝ) : Root.solve f xacc n a b = [] := by
  unfold Root.solve
  simp only [List.filterMap_eq_nil_iff, List.mem_range]
  intro i _
  unfold Root.stepRoot
  have : ∀ x y, Root.zridd f x y xacc = .ok none := by
    intro x y
    unfold Root.zridd
    simp only
    rw [if_pos (mul_pos (h x) (h y)).le, if_neg (h x).ne', if_neg (h y).ne']
  rw [this]

/-! ### A crystal for examples -/

/-- one branch with the energy `5/4` of the incident energy for momentum transfers along z, and higher ones across -/
noncomputable def D0 : Phonons where
  nBranches := 1
  energy _ Q := vsq2e * (5 / 4 + 10 * (k2v * Q.x) ^ 2)
  polarization _ _ _ := ⟨0, 0, 1⟩
  minEnergy _ := vsq2e * (5 / 4)

/-- a kernel with `D0` -/
noncomputable def K0 : Single where
  D := D0
  atoms := [⟨0, 1, 1, 1⟩]
  DW _ := 0
  T := 1
  dV := 1 / 1000
  xacc := 10
  nSteps := 2

theorem wave_evz (s : ℝ) (n : V3 ℝ) : wave evz.v - wave (s • n) = ⟨v2k * (0 - s * n.x), v2k * (0 - s * n.y), v2k * (1 - s * n.z)⟩ := by
  ext <;> simp only [wave, evz, V3.sub_x, V3.sub_y, V3.sub_z, V3.smul_x, V3.smul_y, V3.smul_z] <;> ring

theorem mismatch_D0 {n : V3 ℝ} (hn : n.dot n = 1) (br : Nat) (s : ℝ) :
    mismatch D0 br evz.v (s • n) = vsq2e * (5 / 4 + 10 * (s * n.x) ^ 2 - |1 - s * s|) := by
  unfold mismatch
  rw [evz_energy, energy_smul_unit hn, show vsq2e - vsq2e * (s * s) = vsq2e * (1 - s * s) by ring, abs_mul,
    abs_of_pos vsq2e_pos, wave_evz]
  simp only [D0]
  have := v2k_mul
  have e : k2v * (v2k * (0 - s * n.x)) = -(s * n.x) := by linear_combination (-(s * n.x)) * this
  rw [e]
  ring

theorem speeds_x (br : Nat) : speeds K0 br evz.v ⟨1, 0, 0⟩ = [] := by
  unfold speeds
  apply solve_nil
  intro s
  simp only [K0, mismatch_D0 (show V3.dot (⟨1, 0, 0⟩ : V3 ℝ) ⟨1, 0, 0⟩ = 1 by norm_num [V3.dot]), mul_one]
  apply mul_pos vsq2e_pos
  have : |1 - s * s| ≤ 1 + s * s := by rw [abs_le]; constructor <;> nlinarith [mul_self_nonneg s]
  nlinarith [mul_self_nonneg s]

theorem unit_z : V3.dot (⟨0, 0, 1⟩ : V3 ℝ) ⟨0, 0, 1⟩ = 1 := by norm_num [V3.dot]

theorem speeds_z (br : Nat) : speeds K0 br evz.v ⟨0, 0, 1⟩ = [3 / 2] := by
  have hp := vsq2e_pos
  obtain ⟨f, hf⟩ : ∃ f : ℝ → ℝ, f = fun s => mismatch K0.D br evz.v (s • ⟨0, 0, 1⟩) := ⟨_, rfl⟩
  have hfe : ∀ s, f s = vsq2e * (5 / 4 - |1 - s * s|) := by
    intro s
    simp only [hf, K0, mismatch_D0 unit_z]
    ring
  have f0 : f 0 = vsq2e * (1 / 4) := by rw [hfe]; norm_num
  have f1 : f 1 = vsq2e * (5 / 4) := by rw [hfe]; norm_num
  have f2 : f 2 = -(vsq2e * (7 / 4)) := by
    rw [hfe, show (1 : ℝ) - 2 * 2 = -3 by norm_num, abs_neg, abs_of_pos (by norm_num)]; ring
  have f3 : f (3 / 2) = 0 := by
    rw [hfe, show (1 : ℝ) - 3 / 2 * (3 / 2) = -(5 / 4) by norm_num, abs_neg, abs_of_pos (by norm_num)]; ring
  have z1 : Root.zridd f 0 1 10 = .ok none := by
    unfold Root.zridd
    simp only [f0, f1]
    rw [if_pos (by positivity), if_neg (by positivity), if_neg (by positivity)]
  have z2 : Root.zridd f 1 2 10 = .ok (some (3 / 2)) := by
    have hs : f 1 * f 2 < 0 := by
      rw [f1, f2]
      have : 0 < vsq2e * (5 / 4) * (vsq2e * (7 / 4)) := by positivity
      linarith
    have hm : (0.5 : ℝ) * (1 + 2) = 3 / 2 := by norm_num
    obtain ⟨t, -, hr, h0, -, -⟩ := Root.ridder_eq (xl := 1) (xh := 2) (fm := f (3 / 2)) hs
    rw [h0 f3] at hr
    unfold Root.zridd
    simp only
    rw [if_neg (by simpa using hs), Root.zriddLoop]
    simp only [hm, hr]
    have e : ((1 : ℝ) + 2) / 2 + (2 - 1) / 2 * 0 = 3 / 2 := by norm_num
    rw [e, if_neg (by rw [abs_le]; norm_num [Root.unused]), if_pos f3]
    unfold Root.checkAnswer
    rw [if_neg (by norm_num [Root.unused])]
    rfl
  have hl : (2 : ℝ) * √(evz.v.dot evz.v) = 2 := by rw [← length_eq, evz_length]; norm_num
  unfold speeds Root.solve
  rw [hl, ← hf, show K0.xacc = 10 from rfl, show K0.nSteps = 2 from rfl]
  simp only [List.range_succ, List.range_zero, List.nil_append, List.cons_append]
  have e1 : (0 : ℝ) + (2 - 0) / (2 : ℕ) * (0 : ℕ) = 0 := by norm_num
  have e2 : (0 : ℝ) + (2 - 0) / (2 : ℕ) * ((0 + 1 : ℕ) : ℕ) = 1 := by norm_num
  have e3 : (0 : ℝ) + (2 - 0) / (2 : ℕ) * (1 : ℕ) = 1 := by norm_num
  have e4 : (0 : ℝ) + (2 - 0) / (2 : ℕ) * ((1 + 1 : ℕ) : ℕ) = 2 := by norm_num
  rw [List.filterMap_cons_none, List.filterMap_cons_some (b := 3 / 2), List.filterMap_nil]
  · unfold Root.stepRoot
    rw [e3, e4, z2]
  · unfold Root.stepRoot
    rw [e1, e2, z1]

theorem good_D0 : goodBranches D0 (energy evz.v) = [0] := by
  have hp := vsq2e_pos
  unfold goodBranches
  rw [evz_energy]
  have h : D0.minEnergy 0 < vsq2e * 1.5 := by simp only [D0]; norm_num; linarith
  rw [show D0.nBranches = 1 from rfl, List.range_one, List.filter_cons, if_pos (by simpa using h), List.filter_nil]

theorem slope_z (br : Nat) : slopeOf D0 br evz.v ⟨0, 0, 1⟩ (1 / 1000) (3 / 2) = vsq2e * 3 := by
  unfold slopeOf
  rw [mismatch_D0 unit_z, mismatch_D0 unit_z]
  rw [abs_of_neg (show (1 : ℝ) - (3 / 2 + 1 / 1000) * (3 / 2 + 1 / 1000) < 0 by norm_num),
    abs_of_neg (show (1 : ℝ) - (3 / 2 - 1 / 1000) * (3 / 2 - 1 / 1000) < 0 by norm_num), ← mul_sub, abs_mul,
    abs_of_pos vsq2e_pos]
  norm_num
  ring

/-- the scattered wave along z -/
theorem sumLen_z (Q : V3 ℝ) (br : Nat) : sumLen D0 Q br K0.atoms = some (Q.z : ℂ) := by
  have h1 : √(cdot (⟨0, 0, 1⟩ : V3 ℂ) ⟨0, 0, 1⟩).re = 1 := by simp [cdot]
  unfold sumLen
  simp only [K0, D0, List.zipIdx_cons, List.zipIdx_nil, List.mapM_cons, List.mapM_nil, atomTerm, h1, divC,
    one_ne_zero, if_false, Option.bind_eq_bind, Option.bind_some, sqrtD_ok zero_le_one, Real.sqrt_one,
    divD_ok (one_ne_zero (α := ℝ)), Option.pure_def, List.sum_cons, List.sum_nil]
  congr 1
  simp [cdot, cvec, V3.dot]

theorem regular_z (br : Nat) : Regular K0 br evz.v ⟨0, 0, 1⟩ (3 / 2) ((v2k * (1 - 3 / 2 * 1) : ℝ) : ℂ) where
  wave := by rw [wave_evz]; exact sumLen_z _ br
  inelastic := by
    rw [evz_energy, energy_smul_unit unit_z]
    have := vsq2e_pos
    intro h
    linarith
  slope := by
    rw [← length_eq, evz_length, mul_one]
    have := slope_z br
    simp only [K0]
    rw [this]
    have := vsq2e_pos
    positivity

theorem coh_K0 : totalCoh K0.atoms = 1 := by simp [totalCoh, K0]

theorem onePhonon_z (br : Nat) : 0 < onePhonon K0 br evz.v ⟨0, 0, 1⟩ (3 / 2) ((v2k * (1 - 3 / 2 * 1) : ℝ) : ℂ) := by
  have hr := regular_z br
  have hw : energy evz.v - energy ((3 / 2 : ℝ) • (⟨0, 0, 1⟩ : V3 ℝ)) ≠ 0 := sub_ne_zero.2 hr.inelastic
  have h1 := thermal_pos hw (show 0 < K0.T by norm_num [K0])
  have h2 : 0 < |energy evz.v - energy ((3 / 2 : ℝ) • (⟨0, 0, 1⟩ : V3 ℝ))| := abs_pos.2 hw
  have h3 : √(evz.v.dot evz.v) = 1 := by rw [← length_eq, evz_length]
  have h4 := vsq2e_pos
  have h5 := k2v_pos
  have h6 : 0 < slopeOf K0.D br evz.v ⟨0, 0, 1⟩ (K0.dV * √(evz.v.dot evz.v)) (3 / 2) :=
    lt_of_le_of_ne (by unfold slopeOf; rw [h3]; apply div_nonneg (abs_nonneg _); norm_num [K0]) hr.slope.symm
  have h7 : 0 < Complex.normSq ((v2k * (1 - 3 / 2 * 1) : ℝ) : ℂ) := by
    rw [Complex.normSq_pos]
    norm_cast
    have := v2k_pos
    intro h
    linarith
  unfold onePhonon
  simp only
  rw [h3, coh_K0]
  rw [h3] at h6
  positivity

end Verif.Xtal
