import Verif.Lemmas.XtalWave
/-!
Helper lemmas for coherent one-phonon scattering in a polycrystal.
-/

namespace Verif.Xtal
open Solid Flight Homog Kinem Powder Dos

theorem sqrt_kE (E : ℝ) : √E * sqrte2v = √(E / vsq2e) := by
  have h : 1 / vsq2e = sqrte2v * sqrte2v := by
    rw [div_eq_iff vsq2e_pos.ne', sqrte2v_sq]
  rw [show E / vsq2e = E * (sqrte2v * sqrte2v) by rw [← h]; ring, Real.sqrt_mul' _ (mul_self_nonneg _),
    Real.sqrt_mul_self sqrte2v_pos.le]

theorem E2k_kE {E : ℝ} (h : 0 ≤ E) : E2k E = some (kE E) := by
  rw [E2k_ok h, sqrt_kE]; unfold kE; rw [mul_comm]

theorem kE_pos {E : ℝ} (h : 0 < E) : 0 < kE E :=
  mul_pos v2k_pos (Real.sqrt_pos.2 (div_pos h vsq2e_pos))

theorem kE_energy (v : V3 ℝ) : kE (energy v) = v2k * length v := by
  unfold kE energy
  rw [mul_div_cancel_left₀ _ vsq2e_pos.ne', length_eq]

theorem accessible_eq {m E : ℝ} (hm : 0 < m) (hE : 0 < E) : accessible m E = some (reach m E) := by
  unfold accessible reach
  have h1 : 0 < 1 + 7.6 * (kE E / kE m) ^ 4 := by
    have : 0 ≤ (kE E / kE m) ^ 4 := by positivity
    norm_num
    linarith
  simp only [E2k_kE hm.le, E2k_kE hE.le, Option.bind_eq_bind, Option.bind_some, divD_ok (kE_pos hm).ne']
  rw [E2k_kE (by positivity)]
  simp only [Option.bind_some]
  congr 1
  ring

theorem reach_pos {m E : ℝ} (hm : 0 < m) (hE : 0 < E) : 0 < reach m E := by
  have h1 : 0 < 1 + 7.6 * (kE E / kE m) ^ 4 := by
    have : 0 ≤ (kE E / kE m) ^ 4 := by positivity
    norm_num
    linarith
  have := kE_pos hE
  have := kE_pos (show 0 < E + m / (1 + 7.6 * (kE E / kE m) ^ 4) by positivity)
  unfold reach
  have hp : 0 < physPi := by unfold physPi; norm_num
  positivity

theorem pickEf_pos {Ei w u : ℝ} (hE : 0 < Ei) (hw : 0 ≤ w) : 0 < pickEf Ei w u := by
  unfold pickEf
  split_ifs <;> linarith

theorem pickEf_cases (Ei w u : ℝ) : (w < Ei ∧ pickEf Ei w u = Ei - w) ∨ pickEf Ei w u = Ei + w := by
  unfold pickEf
  split_ifs with h1 h2
  · exact .inr rfl
  · exact .inl ⟨h1, rfl⟩
  · exact .inr rfl

theorem validQ_some {K : Poly} {br : Nat} {Ei vil : ℝ} {Q : V3 ℝ} {vQ Ef vf : ℝ} :
    ∀ {Qs : List (V3 ℝ × ℝ)} {st : Option (ℝ × ℝ)}, (∀ q ∈ Qs, K.minOmega ≤ K.D.energy br q.1) →
    validQ K br Ei vil st Qs = .ok (some (Q, vQ, Ef, vf)) →
    ∃ u, (Q, u) ∈ Qs ∧ vQ = k2v * length Q ∧ Ef = pickEf Ei (K.D.energy br Q) u ∧ vf = √Ef * sqrte2v ∧
      |vil - vf| ≤ vQ ∧ vQ ≤ vil + vf
  | [], _, _, h => by unfold validQ at h; cases h
  | (P, u) :: rest, st, hq, h => by
    unfold validQ at h
    simp only [if_neg (not_lt.2 (hq (P, u) List.mem_cons_self))] at h
    split at h
    · obtain ⟨u', h1, h2⟩ := validQ_some (fun q hm => hq q (List.mem_cons_of_mem _ hm)) h
      exact ⟨u', List.mem_cons_of_mem _ h1, h2⟩
    · next hn =>
      simp only [Except.ok.injEq, Option.some.injEq, Prod.mk.injEq] at h
      obtain ⟨rfl, rfl, rfl, rfl⟩ := h
      push Not at hn
      exact ⟨u, List.mem_cons_self, rfl, rfl, rfl, hn.1, hn.2⟩

theorem polyVf_some {eps : ℝ} (h0 : 0 ≤ eps) {v vf : V3 ℝ} {vfl vQ u : ℝ} (hc : Clear eps v) (hv : v ≠ 0) (hf : 0 ≤ vfl)
    (h1 : |length v - vfl| ≤ vQ) (h2 : vQ ≤ length v + vfl) (h : polyVf eps v vfl vQ u = some vf) :
    energy vf = vsq2e * (vfl * vfl) ∧ (wave v - wave vf).dot (wave v - wave vf) = (v2k * vQ) ^ 2 := by
  unfold polyVf at h
  simp only [Option.bind_eq_bind, Option.bind_eq_some_iff] at h
  obtain ⟨c, hcd, s, hs, ⟨e1, e2, e3⟩, hax, hh⟩ := h
  obtain ⟨hne, hcv⟩ := divD_some hcd
  obtain ⟨m1, m2, m3, m4, m5, m6, rfl⟩ := axes_some h0 hax
  obtain ⟨hs0, rfl⟩ := sqrtD_some hs
  simp only [Option.some.injEq] at hh
  subst hh
  have hfp : 0 < vfl := lt_of_le_of_ne hf fun hz => hne (by rw [← hz, mul_zero])
  have hlv := length_pos hv
  have hcos := cos_le hlv hfp h1 h2
  rw [← hcv] at hcos
  rw [if_neg (not_lt.2 hcos)] at hs0 ⊢
  obtain ⟨o1, o2⟩ := outDir_dot m3 m4 c √(1 - c * c) (random u 0 (2 * physPi))
  rw [m6 hc, Real.mul_self_sqrt hs0] at o1
  rw [m6 hc] at o2
  constructor
  · rw [energy_smul, o1]; ring
  · have hk := v2k_pos
    rw [transfer_of m1 m3 (w := vfl) (kf := v2k * vfl) (c := c) (Q := v2k * vQ) (a := 0) (b := 0) rfl ?_ ?_ ?_]
    · ring
    · rw [hcv]; field_simp
    · rw [o1]; ring
    · rw [o2]; ring

theorem polyVf_ok {eps : ℝ} (h0 : 0 ≤ eps) {v : V3 ℝ} {vfl vQ : ℝ} (hv : v ≠ 0) (hf : 0 < vfl) (u : ℝ) :
    ∃ vf, polyVf eps v vfl vQ u = some vf := by
  unfold polyVf
  have hlv := length_pos hv
  obtain ⟨⟨e1, e2, e3⟩, hax⟩ := axes_ok h0 hv
  simp only [Option.bind_eq_bind]
  rw [divD_ok (by positivity)]
  simp only [Option.bind_some]
  rw [sqrtD_ok (by split_ifs with hc <;> [norm_num; linarith [not_lt.1 hc]])]
  simp only [Option.bind_some, hax]
  exact ⟨_, rfl⟩

/-- the final state in terms of the specification -/
theorem polyFinish_eq {K : Poly} {br : Nat} {Q : V3 ℝ} {Ef u : ℝ} {ev : Ev} {F : ℂ} (h0 : 0 ≤ K.eps) (hv : ev.v ≠ 0)
    (hT : 0 < K.T) (hc : totalCoh K.atoms ≠ 0) (hE : 0 < Ef) (hne : Ef ≠ energy ev.v) (hm : 0 < K.maxOmega) (hQ : Q ≠ 0)
    (hF : sumLen K.D Q br K.atoms = some F) :
    ∃ vf, polyVf K.eps ev.v (√Ef * sqrte2v) (k2v * length Q) u = some vf ∧
      polyFinish K br Q (k2v * length Q) Ef (√Ef * sqrte2v) u ev = some { ev with v := vf, p := ev.p * (K.D.nBranches * 2 *
        onePhononPoly K ev.v Q (energy ev.v - Ef) (reach K.maxOmega (energy ev.v)) F) } := by
  have hf : 0 < √Ef * sqrte2v := mul_pos (Real.sqrt_pos.2 hE) sqrte2v_pos
  obtain ⟨vf, hvf⟩ := polyVf_ok h0 (vQ := k2v * length Q) hv hf u
  refine ⟨vf, hvf, ?_⟩
  have hw : energy ev.v - Ef ≠ 0 := sub_ne_zero.2 hne.symm
  have hEi : 0 < energy ev.v := by
    have := length_pos hv
    rw [← v2E_length]; unfold v2E
    have := vsq2e_pos
    positivity
  have hkf : v2k * (√Ef * sqrte2v) = kE Ef := by rw [sqrt_kE]; rfl
  have hq : v2k * (k2v * length Q) = length Q := by rw [← mul_assoc, v2k_mul, one_mul]
  have p1 := kE_pos hEi
  have p2 := kE_pos hE
  have p3 := length_pos hQ
  unfold polyFinish
  simp only [v2E_length, hvf, Option.bind_eq_bind, Option.bind_some, boseFactor_eq hw hT, hF, hkf, hq, ← kE_energy]
  rw [divD_ok (mul_ne_zero hc (by norm_num)), Option.bind_some, divD_ok (abs_pos.2 hw).ne', Option.bind_some,
    divD_ok p1.ne', Option.bind_some, divD_ok (by positivity), Option.bind_some, accessible_eq hm hEi, Option.bind_some,
    if_pos (show energy ev.v > energy ev.v - Ef by linarith)]
  have e3 : ksquare2E (Complex.normSq F * (1e-30 * 4 * physPi) / (totalCoh K.atoms * 1e-28)) =
      vsq2e * k2v ^ 2 * (Complex.normSq F / 100 / totalCoh K.atoms) * (4 * physPi) := by
    unfold ksquare2E vsquare2E
    norm_num
    field_simp
    ring
  rw [e3]
  unfold onePhononPoly
  simp only [sub_sub_cancel, ← length_eq]
  congr 2
  have hp : physPi ≠ 0 := by unfold physPi; norm_num
  have := p1.ne'
  have := p2.ne'
  have := p3.ne'
  have := (abs_pos.2 hw).ne'
  field_simp
  ring

end Verif.Xtal
