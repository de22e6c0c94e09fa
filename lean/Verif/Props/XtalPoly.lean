import Verif.Lemmas.XtalPoly
/-!
C130-C132: coherent one-phonon scattering in a polycrystal.
-/

namespace Verif.Xtal
open Solid Flight Homog Kinem Powder Dos

/-! ### C130 -/

/-- C130, partial: if all of the phonon energies met are at least the smallest one allowed, then the neutron keeps place
and time, and its energy and the length of its wave vector change by those of one of the phonons; a phonon is created
only if the neutron has enough energy.  Missing: phonons of smaller energy, see `C130_stale_false`. -/
theorem C130_kinematics_partial {K : Poly} {u1 u2 : ℝ} {Qs : List (V3 ℝ × ℝ)} {ev ev' : Ev} (h0 : 0 ≤ K.eps)
    (hmin : 0 ≤ K.minOmega) (hv : ev.v ≠ 0) (hc : Clear K.eps ev.v)
    (hq : ∀ br < K.D.nBranches, ∀ q ∈ Qs, K.minOmega ≤ K.D.energy br q.1) (h : K.S u1 Qs u2 ev = .ok (some ev')) :
    SamePlace ev ev' ∧ ∃ br < K.D.nBranches, ∃ q ∈ Qs,
      (K.D.energy br q.1 < energy ev.v ∧ Transfer ev ev' √(q.1.dot q.1) (K.D.energy br q.1)) ∨
      Transfer ev ev' √(q.1.dot q.1) (-K.D.energy br q.1) := by
  unfold Poly.S at h
  split at h
  · cases h
  · next hn =>
    have hbr := randomIndex_lt u1 (Nat.pos_of_ne_zero hn)
    simp only [v2E_length, bind, Except.bind] at h
    split at h
    · cases h
    · next o ho =>
      split at h
      · cases h
      · next Q vQ Ef vf =>
        obtain ⟨u, hm, rfl, hEf, rfl, t1, t2⟩ := validQ_some (hq _ hbr) ho
        simp only [Except.ok.injEq] at h
        unfold polyFinish at h
        simp only [Option.bind_eq_bind, Option.bind_eq_some_iff, Option.some.injEq] at h
        obtain ⟨w, hw, _, -, _, -, _, -, _, -, _, -, _, -, _, -, rfl⟩ := h
        have hEi : 0 < energy ev.v := by
          have := length_pos hv
          have := vsq2e_pos
          rw [← v2E_length]; unfold v2E
          positivity
        have hω := hmin.trans (hq _ hbr (Q, u) hm)
        have hpos : 0 < Ef := by rw [hEf]; exact pickEf_pos hEi hω
        obtain ⟨k1, k2⟩ := polyVf_some h0 hc hv (mul_nonneg (Real.sqrt_nonneg _) sqrte2v_pos.le) t1 t2 hw
        have e1 : energy w = Ef := by
          rw [k1, mul_mul_mul_comm, Real.mul_self_sqrt hpos.le]
          linear_combination Ef * sqrte2v_sq
        have e2 : (v2k * (k2v * length Q)) ^ 2 = √(Q.dot Q) ^ 2 := by
          rw [← mul_assoc, v2k_mul, one_mul, length_eq]
        refine ⟨⟨rfl, rfl, rfl, rfl⟩, _, hbr, (Q, u), hm, ?_⟩
        rcases pickEf_cases (energy ev.v) (K.D.energy (randomIndex u1 K.D.nBranches) Q) u with ⟨g1, g2⟩ | g2
        · left
          refine ⟨g1, ?_, ?_⟩
          · show energy ev.v - energy w = _
            rw [e1, hEf, g2]; ring
          · show (wave ev.v - wave w).dot (wave ev.v - wave w) = _
            rw [k2, e2]
        · right
          refine ⟨?_, ?_⟩
          · show energy ev.v - energy w = _
            rw [e1, hEf, g2]; ring
          · show (wave ev.v - wave w).dot (wave ev.v - wave w) = _
            rw [k2, e2]

/-- a kernel with one branch of the given energies and one atom that moves along x -/
noncomputable def Kp (f : V3 ℝ → ℝ) (maxOmega minOmega : ℝ) : Poly where
  D := { nBranches := 1, energy := fun _ => f, polarization := fun _ _ _ => ⟨1, 0, 0⟩, minEnergy := fun _ => 0 }
  atoms := [⟨0, 1, 1, 1⟩]
  DW _ := 0
  T := 1
  maxOmega := maxOmega
  minOmega := minOmega
  eps := 0

theorem Kp_wave (f : V3 ℝ → ℝ) (a b : ℝ) (Q : V3 ℝ) : sumLen (Kp f a b).D Q 0 (Kp f a b).atoms = some (Q.x : ℂ) := by
  rw [sumLen_eq]
  · simp [Kp, termOf, sqLen, V3.dot]
  · simp [Kp, sqLen]
  · simp [Kp]

theorem Kp_length (q : ℝ) : length (⟨q, 0, 0⟩ : V3 ℝ) = |q| := by
  rw [length_eq]
  simp [V3.dot, Real.sqrt_mul_self_eq_abs]

theorem Kp_speed {x : ℝ} (h : 0 ≤ x) : √(vsq2e * (x * x)) * sqrte2v = x := by
  rw [sqrt_kE, mul_div_cancel_left₀ _ vsq2e_pos.ne', Real.sqrt_mul_self h]

/-- a single momentum transfer of 1 m/s along x that is accepted -/
theorem Kp_S {f : V3 ℝ → ℝ} {a b u : ℝ} {x : ℝ} (hb : b ≤ f ⟨v2k, 0, 0⟩) (ha : 0 < a)
    (hE : pickEf vsq2e (f ⟨v2k, 0, 0⟩) u = vsq2e * (x * x)) (hx : 0 < x) (h1 : x ≠ 1) (h2 : |1 - x| ≤ 1) (u1 u2 : ℝ) :
    ∃ vf, (Kp f a b).S u1 [(⟨v2k, 0, 0⟩, u)] u2 evz = .ok (some { evz with v := vf, p := 1 * ((1 : ℕ) * 2 *
      onePhononPoly (Kp f a b) evz.v ⟨v2k, 0, 0⟩ (vsq2e - vsq2e * (x * x)) (reach a vsq2e) (v2k : ℝ)) }) := by
  have hp := vsq2e_pos
  have hl : k2v * length (⟨v2k, 0, 0⟩ : V3 ℝ) = 1 := by
    rw [Kp_length, abs_of_pos v2k_pos, mul_comm, v2k_mul]
  have hne : vsq2e * (x * x) ≠ energy evz.v := by
    rw [evz_energy]
    intro h
    have : (x - 1) * (x + 1) = 0 := by
      have := mul_left_cancel₀ hp.ne' (h.trans (mul_one _).symm)
      linear_combination this
    rcases mul_eq_zero.1 this with h | h
    · exact h1 (by linarith)
    · linarith
  obtain ⟨vf, -, hf⟩ := polyFinish_eq (K := Kp f a b) (br := 0) (Q := ⟨v2k, 0, 0⟩) (Ef := vsq2e * (x * x)) (u := u2) (ev := evz)
    (by simp [Kp]) evz_ne (by simp [Kp]) (by simp [Kp, totalCoh]) (by positivity) hne (by simpa [Kp] using ha)
    (fun h => v2k_pos.ne' (congrArg V3.x h)) (Kp_wave f a b _)
  refine ⟨vf, ?_⟩
  unfold Poly.S
  have hi : randomIndex u1 (Kp f a b).D.nBranches = 0 := by simp [Kp, randomIndex, Nat.mod_one]
  rw [if_neg (by simp [Kp])]
  rw [hi, v2E_length, evz_length, evz_energy]
  simp only
  have hval : validQ (Kp f a b) 0 vsq2e 1 none [(⟨v2k, 0, 0⟩, u)] =
      .ok (some (⟨v2k, 0, 0⟩, k2v * length (⟨v2k, 0, 0⟩ : V3 ℝ), vsq2e * (x * x), √(vsq2e * (x * x)) * sqrte2v)) := by
    unfold validQ
    simp only [show (Kp f a b).D.energy 0 = f from rfl, show (Kp f a b).minOmega = b from rfl, if_neg (not_lt.2 hb), hE,
      Kp_speed hx.le, hl]
    rw [if_neg]
    rintro (h | h)
    · exact absurd h2 (not_le.2 h)
    · linarith
  rw [hval]
  simp only [bind, Except.bind]
  rw [hf]
  simp only [evz_energy]
  rfl

/-- the hypotheses of `C130_kinematics_partial` can be met: a neutron loses three quarters of its energy -/
example : ∃ ev', 0 ≤ (Kp (fun _ => vsq2e * (3 / 4)) 1 0).eps ∧ Clear (Kp (fun _ => vsq2e * (3 / 4)) 1 0).eps evz.v ∧
    (∀ br < 1, ∀ q ∈ [((⟨v2k, 0, 0⟩ : V3 ℝ), (0 : ℝ))], 0 ≤ (Kp (fun _ => vsq2e * (3 / 4)) 1 0).D.energy br q.1) ∧
    (Kp (fun _ => vsq2e * (3 / 4)) 1 0).S 0 [(⟨v2k, 0, 0⟩, 0)] 0 evz = .ok (some ev') := by
  have hp := vsq2e_pos
  obtain ⟨vf, h⟩ := Kp_S (f := fun _ => vsq2e * (3 / 4)) (a := 1) (b := 0) (u := 0) (x := 1 / 2) (by positivity) one_pos
    (by unfold pickEf; rw [if_pos (by linarith), if_neg (by norm_num)]; ring) (by norm_num) (by norm_num)
    (by norm_num [abs_le]) 0 0
  exact ⟨_, le_rfl, evz_clear _, fun br _ q _ => by simp only [Kp]; positivity, h⟩

/-- the phonon energies of the counterexample -/
noncomputable def ramp (Q : V3 ℝ) : ℝ := vsq2e * max 0 (min (3 / 4) (k2v * Q.x))

/-- C130 is false: a momentum transfer with a phonon energy below the smallest one allowed is not skipped, `continue`
leads to the test at the end of the loop, with the final energy of the momentum transfer before; so a neutron can lose
energy to a mode of energy zero.  In the first round that energy has not been set at all. -/
theorem C130_stale_false : ∃ (K : Poly) (Q1 Q2 : V3 ℝ) (ev ev' : Ev), 0 ≤ K.eps ∧ 0 < K.minOmega ∧ ev.v ≠ 0 ∧
    Clear K.eps ev.v ∧ K.S 0 [(Q1, 0), (Q2, 0)] 0 ev = .ok (some ev') ∧
    (wave ev.v - wave ev'.v).dot (wave ev.v - wave ev'.v) ≠ Q1.dot Q1 ∧
    (∀ br < K.D.nBranches, |energy ev.v - energy ev'.v| ≠ K.D.energy br Q2) ∧
    K.S 0 [(Q2, 0)] 0 ev = .error .undefinedBehaviour := by
  have hp := vsq2e_pos
  have hv := v2k_pos
  set K := Kp ramp 1 (vsq2e * (1 / 2)) with hK
  have r1 : ramp ⟨10 * v2k, 0, 0⟩ = vsq2e * (3 / 4) := by
    unfold ramp
    simp only
    rw [show k2v * (10 * v2k) = 10 * (v2k * k2v) by ring, v2k_mul]
    norm_num
  have r2 : ramp ⟨-v2k, 0, 0⟩ = 0 := by
    unfold ramp
    simp only
    rw [show k2v * -v2k = -(v2k * k2v) by ring, v2k_mul]
    norm_num
  have l1 : k2v * length (⟨10 * v2k, 0, 0⟩ : V3 ℝ) = 10 := by
    rw [Kp_length, abs_of_pos (by positivity), show k2v * (10 * v2k) = 10 * (v2k * k2v) by ring, v2k_mul, mul_one]
  have l2 : k2v * length (⟨-v2k, 0, 0⟩ : V3 ℝ) = 1 := by
    rw [Kp_length, abs_neg, abs_of_pos hv, mul_comm, v2k_mul]
  have hf : √(vsq2e * (1 / 4)) * sqrte2v = 1 / 2 := by
    have := Kp_speed (x := 1 / 2) (by norm_num)
    rw [← this]; norm_num
  obtain ⟨vf, hvf, hfin⟩ := polyFinish_eq (K := K) (br := 0) (Q := ⟨-v2k, 0, 0⟩) (Ef := vsq2e * (1 / 4)) (u := 0) (ev := evz)
    (by simp [hK, Kp]) evz_ne (by simp [hK, Kp]) (by simp [hK, Kp, totalCoh]) (by positivity) (by rw [evz_energy]; intro h; linarith)
    (by simp [hK, Kp]) (fun h => hv.ne' (neg_eq_zero.1 (congrArg V3.x h))) (Kp_wave _ _ _ _)
  have hi : randomIndex 0 K.D.nBranches = 0 := by simp [hK, Kp, randomIndex, Nat.mod_one]
  have m : K.minOmega = vsq2e * (1 / 2) := rfl
  have en : ∀ br, K.D.energy br = ramp := fun _ => rfl
  rw [hf] at hvf
  rw [l2] at hvf
  obtain ⟨k1, k2⟩ := polyVf_some (show 0 ≤ K.eps by simp [hK, Kp]) (evz_clear _) evz_ne (by norm_num)
    (by rw [evz_length]; norm_num [abs_le]) (by rw [evz_length]; norm_num) hvf
  refine ⟨K, ⟨10 * v2k, 0, 0⟩, ⟨-v2k, 0, 0⟩, evz, { evz with v := vf, p := evz.p * (K.D.nBranches * 2 *
    onePhononPoly K evz.v ⟨-v2k, 0, 0⟩ (energy evz.v - vsq2e * (1 / 4)) (reach K.maxOmega (energy evz.v)) ((-v2k : ℝ) : ℂ)) },
    by simp [hK, Kp], by rw [m]; positivity, evz_ne, evz_clear _,
    ?_, ?_, ?_, ?_⟩
  · unfold Poly.S
    rw [if_neg (by simp [hK, Kp])]
    rw [hi, v2E_length, evz_length, evz_energy]
    simp only
    have hval : validQ K 0 vsq2e 1 none [((⟨10 * v2k, 0, 0⟩ : V3 ℝ), (0 : ℝ)), (⟨-v2k, 0, 0⟩, 0)] =
        .ok (some (⟨-v2k, 0, 0⟩, k2v * length (⟨-v2k, 0, 0⟩ : V3 ℝ), vsq2e * (1 / 4), √(vsq2e * (1 / 4)) * sqrte2v)) := by
      have pe : pickEf vsq2e (vsq2e * (3 / 4)) 0 = vsq2e * (1 / 4) := by
        unfold pickEf
        rw [if_pos (by linarith), if_neg (by norm_num)]
        ring
      unfold validQ
      simp only [en, m, r1, l1, pe, hf]
      rw [if_neg (show ¬ vsq2e * (3 / 4) < vsq2e * (1 / 2) by linarith)]
      simp only
      rw [if_pos (by right; norm_num)]
      unfold validQ
      simp only [en, m, r2, l2]
      rw [if_pos (show (0 : ℝ) < vsq2e * (1 / 2) by positivity)]
      simp only
      rw [if_neg]
      rintro (h | h)
      · rw [abs_of_pos (by norm_num)] at h; norm_num at h
      · norm_num at h
    rw [hval]
    simp only [bind, Except.bind]
    rw [hfin, evz_energy]
  · show (wave evz.v - wave vf).dot (wave evz.v - wave vf) ≠ _
    rw [k2]
    simp only [V3.dot]
    intro h
    nlinarith [mul_pos hv hv]
  · intro br _
    show |energy evz.v - energy vf| ≠ _
    rw [k1, evz_energy, en, r2]
    apply (abs_pos.2 _).ne'
    intro h
    linarith
  · unfold Poly.S
    rw [if_neg (by simp [hK, Kp])]
    simp only [hi]
    unfold validQ
    simp only [en, m, r2]
    rw [if_pos (show (0 : ℝ) < vsq2e * (1 / 2) by positivity)]
    rfl

/-! ### C131, C132 -/

/-- C131, partial: if the energies of the phonons are smaller than that of the neutron, the weight is that of one-phonon
scattering times the number of branches and of possible final energies, with the volume of momentum transfers that the
kernel uses (C132).  Missing: phonons of higher energy, see `C131_choices_false`. -/
theorem C131_choices_partial {K : Poly} {u1 u2 : ℝ} {Qs : List (V3 ℝ × ℝ)} {ev ev' : Ev} (h0 : 0 ≤ K.eps)
    (hmin : 0 < K.minOmega) (hv : ev.v ≠ 0) (hT : 0 < K.T) (hcoh : totalCoh K.atoms ≠ 0) (hmax : 0 < K.maxOmega)
    (hQ : ∀ q ∈ Qs, q.1 ≠ 0)
    (hq : ∀ br < K.D.nBranches, ∀ q ∈ Qs, K.minOmega ≤ K.D.energy br q.1 ∧ K.D.energy br q.1 < energy ev.v)
    (h : K.S u1 Qs u2 ev = .ok (some ev')) :
    ∃ br < K.D.nBranches, ∃ q ∈ Qs, ∃ w F, |w| = K.D.energy br q.1 ∧ sumLen K.D q.1 br K.atoms = some F ∧
      ev'.p = ev.p * (K.D.nBranches * choices (K.D.energy br q.1) (energy ev.v) *
        onePhononPoly K ev.v q.1 w (reach K.maxOmega (energy ev.v)) F) := by
  unfold Poly.S at h
  split at h
  · cases h
  · next hn =>
    have hbr := randomIndex_lt u1 (Nat.pos_of_ne_zero hn)
    simp only [v2E_length, bind, Except.bind] at h
    split at h
    · cases h
    · next o ho =>
      split at h
      · cases h
      · next Q vQ Ef vf =>
        obtain ⟨u, hm, rfl, hEf, rfl, t1, t2⟩ := validQ_some (fun q hm => (hq _ hbr q hm).1) ho
        simp only [Except.ok.injEq] at h
        have hsum : ∃ F, sumLen K.D Q (randomIndex u1 K.D.nBranches) K.atoms = some F := by
          unfold polyFinish at h
          simp only [Option.bind_eq_bind, Option.bind_eq_some_iff, Option.some.injEq] at h
          obtain ⟨w, hw, _, -, F, hF, -⟩ := h
          exact ⟨F, hF⟩
        obtain ⟨F, hF⟩ := hsum
        obtain ⟨hq1, hq2⟩ := hq _ hbr (Q, u) hm
        simp only at hq1 hq2
        have hEi : 0 < energy ev.v := by linarith
        have hpos : 0 < Ef := by rw [hEf]; exact pickEf_pos hEi (by linarith)
        have hw : |energy ev.v - Ef| = K.D.energy (randomIndex u1 K.D.nBranches) Q := by
          rcases pickEf_cases (energy ev.v) (K.D.energy (randomIndex u1 K.D.nBranches) Q) u with ⟨-, g2⟩ | g2
          · rw [hEf, g2, sub_sub_cancel, abs_of_pos (by linarith)]
          · rw [hEf, g2, show energy ev.v - (energy ev.v + K.D.energy (randomIndex u1 K.D.nBranches) Q) =
              -K.D.energy (randomIndex u1 K.D.nBranches) Q by ring, abs_neg, abs_of_pos (by linarith)]
        have hne : Ef ≠ energy ev.v := by
          rintro rfl
          rw [sub_self, abs_zero] at hw
          linarith
        obtain ⟨v', -, hfin⟩ := polyFinish_eq (u := u2) h0 hv hT hcoh hpos hne hmax (hQ (Q, u) hm) hF
        rw [hfin] at h
        simp only [Option.some.injEq] at h
        subst h
        refine ⟨_, hbr, (Q, u), hm, _, F, hw, hF, ?_⟩
        simp only [choices, if_pos hq2]

/-- weight of the examples is positive -/
theorem Kp_weight_pos (f : V3 ℝ → ℝ) (a b : ℝ) {x : ℝ} (hx : 0 < x) (h1 : x ≠ 1) {V : ℝ} (hV : 0 < V) :
    0 < onePhononPoly (Kp f a b) evz.v ⟨v2k, 0, 0⟩ (vsq2e - vsq2e * (x * x)) V (v2k : ℝ) := by
  have hp := vsq2e_pos
  have hw : vsq2e - vsq2e * (x * x) ≠ 0 := by
    intro h
    have h3 : (1 - x) * (1 + x) = 0 := by
      have : vsq2e * ((1 - x) * (1 + x)) = 0 := by linear_combination h
      exact (mul_eq_zero.1 this).resolve_left hp.ne'
    rcases mul_eq_zero.1 h3 with h | h
    · exact h1 (by linarith)
    · linarith
  have h1 := thermal_pos hw (show 0 < (Kp f a b).T by simp [Kp])
  have h2 := abs_pos.2 hw
  have h3 : 0 < kE (energy evz.v) := kE_pos (by rw [evz_energy]; exact hp)
  have h4 : 0 < kE (energy evz.v - (vsq2e - vsq2e * (x * x))) := kE_pos (by rw [evz_energy, sub_sub_cancel]; positivity)
  have h5 := k2v_pos
  have h6 : 0 < √(V3.dot (⟨v2k, 0, 0⟩ : V3 ℝ) ⟨v2k, 0, 0⟩) := by
    rw [← length_eq, Kp_length]; exact abs_pos.2 v2k_pos.ne'
  have h7 : 0 < Complex.normSq ((v2k : ℝ) : ℂ) := by
    rw [Complex.normSq_pos]; exact_mod_cast v2k_pos.ne'
  have h8 : totalCoh (Kp f a b).atoms = 1 := by simp [Kp, totalCoh]
  unfold onePhononPoly
  simp only
  rw [h8]
  positivity

/-- the hypotheses of `C131_choices_partial` can be met -/
example : ∃ ev', (∀ q ∈ [((⟨v2k, 0, 0⟩ : V3 ℝ), (0 : ℝ))], q.1 ≠ 0) ∧
    (∀ br < 1, ∀ q ∈ [((⟨v2k, 0, 0⟩ : V3 ℝ), (0 : ℝ))],
      vsq2e / 2 ≤ (Kp (fun _ => vsq2e * (3 / 4)) 1 (vsq2e / 2)).D.energy br q.1 ∧
      (Kp (fun _ => vsq2e * (3 / 4)) 1 (vsq2e / 2)).D.energy br q.1 < energy evz.v) ∧
    (Kp (fun _ => vsq2e * (3 / 4)) 1 (vsq2e / 2)).S 0 [(⟨v2k, 0, 0⟩, 0)] 0 evz = .ok (some ev') ∧ 0 < ev'.p := by
  have hp := vsq2e_pos
  obtain ⟨vf, h⟩ := Kp_S (f := fun _ => vsq2e * (3 / 4)) (a := 1) (b := vsq2e / 2) (u := 0) (x := 1 / 2) (by linarith) one_pos
    (by unfold pickEf; rw [if_pos (by linarith), if_neg (by norm_num)]; ring) (by norm_num) (by norm_num)
    (by norm_num [abs_le]) 0 0
  refine ⟨_, ?_, fun br _ q _ => by rw [evz_energy]; simp only [Kp]; constructor <;> linarith, h, ?_⟩
  · simpa using fun h => v2k_pos.ne' (congrArg V3.x h)
  · have := Kp_weight_pos (fun _ => vsq2e * (3 / 4)) 1 (vsq2e / 2) (x := 1 / 2) (by norm_num) (by norm_num) (reach_pos one_pos hp)
    simpa using this

/-- C131 is false: when the phonon has more energy than the neutron there is one final energy only, but the weight is
doubled all the same: the test compares the energy of the neutron with the energy transfer, which is negative then. -/
theorem C131_choices_false : ∃ (K : Poly) (Q : V3 ℝ) (ev ev' : Ev) (F : ℂ), K.S 0 [(Q, 0)] 0 ev = .ok (some ev') ∧
    K.D.nBranches = 1 ∧ sumLen K.D Q 0 K.atoms = some F ∧ choices (K.D.energy 0 Q) (energy ev.v) = 1 ∧ 0 < ev'.p ∧
    ev'.p = 2 * (ev.p * (K.D.nBranches * choices (K.D.energy 0 Q) (energy ev.v) *
      onePhononPoly K ev.v Q (-K.D.energy 0 Q) (reach K.maxOmega (energy ev.v)) F)) := by
  have hp := vsq2e_pos
  set f : V3 ℝ → ℝ := fun _ => vsq2e * (5 / 4) with hf
  obtain ⟨vf, h⟩ := Kp_S (f := f) (a := 1) (b := 0) (u := 0) (x := 3 / 2) (by simp only [hf]; positivity) one_pos
    (by unfold pickEf; rw [if_neg (by simp only [hf]; linarith)]; simp only [hf]; ring) (by norm_num) (by norm_num)
    (by norm_num [abs_le]) 0 0
  have hc : choices ((Kp f 1 0).D.energy 0 ⟨v2k, 0, 0⟩) (energy evz.v) = 1 := by
    unfold choices
    rw [if_neg]
    rw [evz_energy]
    show ¬ vsq2e * (5 / 4) < vsq2e
    linarith
  refine ⟨Kp f 1 0, ⟨v2k, 0, 0⟩, evz, _, _, h, rfl, Kp_wave _ _ _ _, hc, ?_, ?_⟩
  · have := Kp_weight_pos f 1 0 (x := 3 / 2) (by norm_num) (by norm_num) (reach_pos one_pos hp)
    simpa using this
  · rw [hc, evz_energy]
    show 1 * ((1 : ℕ) * 2 * onePhononPoly (Kp f 1 0) evz.v ⟨v2k, 0, 0⟩ (vsq2e - vsq2e * (3 / 2 * (3 / 2))) (reach 1 vsq2e) (v2k : ℝ)) =
      2 * (1 * ((1 : ℕ) * 1 * onePhononPoly (Kp f 1 0) evz.v ⟨v2k, 0, 0⟩ (-(vsq2e * (5 / 4))) (reach 1 vsq2e) (v2k : ℝ)))
    rw [show vsq2e - vsq2e * (3 / 2 * (3 / 2)) = -(vsq2e * (5 / 4)) by ring]
    ring

/-- C132, partial: the largest phonon energy only scales the weights: the ratio of two weights does not depend on it.
Missing: the scale itself, see `C132_volume_false`. -/
theorem C132_volume_partial {K : Poly} {m : ℝ} {br : Nat} {Q : V3 ℝ} {Ef u : ℝ} {ev ev1 ev2 : Ev} (h0 : 0 ≤ K.eps)
    (hv : ev.v ≠ 0) (hT : 0 < K.T) (hcoh : totalCoh K.atoms ≠ 0) (hE : 0 < Ef) (hne : Ef ≠ energy ev.v)
    (hmax : 0 < K.maxOmega) (hm : 0 < m) (hQ : Q ≠ 0)
    (h1 : polyFinish K br Q (k2v * √(Q.dot Q)) Ef (√Ef * sqrte2v) u ev = some ev1)
    (h2 : polyFinish { K with maxOmega := m } br Q (k2v * √(Q.dot Q)) Ef (√Ef * sqrte2v) u ev = some ev2) :
    ev1.v = ev2.v ∧ ev1.p * reach m (energy ev.v) = ev2.p * reach K.maxOmega (energy ev.v) := by
  rw [← length_eq] at h1 h2
  have hsum : ∃ F, sumLen K.D Q br K.atoms = some F := by
    unfold polyFinish at h1
    simp only [Option.bind_eq_bind, Option.bind_eq_some_iff, Option.some.injEq] at h1
    obtain ⟨w, hw, _, -, F, hF, -⟩ := h1
    exact ⟨F, hF⟩
  obtain ⟨F, hF⟩ := hsum
  obtain ⟨v1, hv1, e1⟩ := polyFinish_eq (u := u) h0 hv hT hcoh hE hne hmax hQ hF
  obtain ⟨v2, hv2, e2⟩ := polyFinish_eq (K := { K with maxOmega := m }) (u := u) h0 hv hT hcoh hE hne hm hQ hF
  rw [e1] at h1
  rw [e2] at h2
  simp only [Option.some.injEq] at h1 h2
  subst h1 h2
  rw [hv1] at hv2
  refine ⟨Option.some.inj hv2, ?_⟩
  simp only [onePhononPoly]
  ring

example : ∃ ev1 ev2, polyFinish (Kp (fun _ => vsq2e) 1 0) 0 ⟨v2k, 0, 0⟩ (k2v * √(V3.dot (⟨v2k, 0, 0⟩ : V3 ℝ) ⟨v2k, 0, 0⟩))
      (2 * vsq2e) (√(2 * vsq2e) * sqrte2v) 0 evz = some ev1 ∧
    polyFinish { Kp (fun _ => vsq2e) 1 0 with maxOmega := 2 } 0 ⟨v2k, 0, 0⟩ (k2v * √(V3.dot (⟨v2k, 0, 0⟩ : V3 ℝ) ⟨v2k, 0, 0⟩))
      (2 * vsq2e) (√(2 * vsq2e) * sqrte2v) 0 evz = some ev2 := by
  have hp := vsq2e_pos
  have key : ∀ a, 0 < a → ∃ ev1, polyFinish (Kp (fun _ => vsq2e) a 0) 0 ⟨v2k, 0, 0⟩
      (k2v * √(V3.dot (⟨v2k, 0, 0⟩ : V3 ℝ) ⟨v2k, 0, 0⟩)) (2 * vsq2e) (√(2 * vsq2e) * sqrte2v) 0 evz = some ev1 := by
    intro a ha
    obtain ⟨vf, -, hf⟩ := polyFinish_eq (K := Kp (fun _ => vsq2e) a 0) (br := 0) (Q := ⟨v2k, 0, 0⟩) (Ef := 2 * vsq2e) (u := 0)
      (ev := evz) (by simp [Kp]) evz_ne (by simp [Kp]) (by simp [Kp, totalCoh]) (by positivity)
      (by rw [evz_energy]; intro h; linarith) (by simpa [Kp] using ha) (fun h => v2k_pos.ne' (congrArg V3.x h)) (Kp_wave _ a 0 _)
    rw [length_eq] at hf
    exact ⟨_, hf⟩
  obtain ⟨e1, h1⟩ := key 1 one_pos
  obtain ⟨e2, h2⟩ := key 2 two_pos
  exact ⟨e1, e2, h1, h2⟩

/-- C132 is false: two kernels that differ only in the largest phonon energy given, both above all phonon energies, give
different weights to the same scattering: it enters the estimated volume of momentum transfers. -/
theorem C132_volume_false : ∃ (K K' : Poly) (Q : V3 ℝ) (ev ev1 ev2 : Ev), K' = { K with maxOmega := K'.maxOmega } ∧
    (∀ br q, K.D.energy br q ≤ K.maxOmega) ∧ K.maxOmega ≤ K'.maxOmega ∧
    K.S 0 [(Q, 0)] 0 ev = .ok (some ev1) ∧ K'.S 0 [(Q, 0)] 0 ev = .ok (some ev2) ∧ ev1.v = ev2.v ∧ ev1.p < ev2.p := by
  have hp := vsq2e_pos
  set f : V3 ℝ → ℝ := fun _ => vsq2e * (3 / 4) with hf
  have hS : ∀ a, 0 < a → ∃ vf, (Kp f a 0).S 0 [(⟨v2k, 0, 0⟩, 0)] 0 evz = .ok (some { evz with v := vf, p := 1 * ((1 : ℕ) * 2 *
      onePhononPoly (Kp f a 0) evz.v ⟨v2k, 0, 0⟩ (vsq2e - vsq2e * (1 / 2 * (1 / 2))) (reach a vsq2e) (v2k : ℝ)) }) := fun a ha =>
    Kp_S (f := f) (a := a) (b := 0) (u := 0) (x := 1 / 2) (by simp only [hf]; positivity) ha
    (by unfold pickEf; rw [if_pos (by simp only [hf]; linarith), if_neg (by norm_num)]; simp only [hf]; ring) (by norm_num)
    (by norm_num) (by norm_num [abs_le]) 0 0
  obtain ⟨v1, h1⟩ := hS vsq2e hp
  obtain ⟨v2, h2⟩ := hS (2 * vsq2e) (by linarith)
  have hv : v1 = v2 := by
    have e : ∀ a, 0 < a → ∀ vf p, (Kp f a 0).S 0 [(⟨v2k, 0, 0⟩, 0)] 0 evz = .ok (some { evz with v := vf, p := p }) →
        polyVf 0 evz.v (1 / 2) 1 0 = some vf := by
      intro a ha vf p h
      unfold Poly.S at h
      rw [if_neg (by simp [Kp])] at h
      simp only [v2E_length, bind, Except.bind] at h
      split at h
      · cases h
      · next o ho =>
        split at h
        · cases h
        · next Q vQ Ef vf' =>
          have hmem := validQ_some (by intro q hq; simp only [Kp, hf]; positivity) ho
          obtain ⟨u, hm, rfl, hEf, rfl, t1, t2⟩ := hmem
          simp only [List.mem_singleton, Prod.mk.injEq] at hm
          obtain ⟨rfl, rfl⟩ := hm
          simp only [Except.ok.injEq] at h
          unfold polyFinish at h
          simp only [Option.bind_eq_bind, Option.bind_eq_some_iff, Option.some.injEq] at h
          obtain ⟨w, hw, _, -, _, -, _, -, _, -, _, -, _, -, _, -, h⟩ := h
          have hE : Ef = vsq2e * (1 / 2 * (1 / 2)) := by
            rw [hEf, evz_energy]
            show pickEf vsq2e (vsq2e * (3 / 4)) 0 = _
            unfold pickEf
            rw [if_pos (by linarith), if_neg (by norm_num)]
            ring
          have hl : k2v * length (⟨v2k, 0, 0⟩ : V3 ℝ) = 1 := by
            rw [Kp_length, abs_of_pos v2k_pos, mul_comm, v2k_mul]
          rw [hE, Kp_speed (by norm_num), hl] at hw
          have := congrArg Event.v h
          simp only at this
          rw [← this]
          exact hw
    have a1 := e _ hp _ _ h1
    rw [e _ (by linarith) _ _ h2] at a1
    exact (Option.some.inj a1).symm
  refine ⟨Kp f vsq2e 0, Kp f (2 * vsq2e) 0, ⟨v2k, 0, 0⟩, evz, _, _, rfl, ?_, ?_, h1, h2, hv, ?_⟩
  · intro br q; show vsq2e * (3 / 4) ≤ vsq2e; linarith
  · show vsq2e ≤ 2 * vsq2e; linarith
  · -- the estimated volumes
    have k1 : ∀ x, 0 ≤ x → kE (vsq2e * (x * x)) = v2k * x := by
      intro x hx; unfold kE; rw [mul_div_cancel_left₀ _ hp.ne', Real.sqrt_mul_self hx]
    have hk : kE vsq2e = v2k := by have := k1 1 (by norm_num); simpa using this
    have hk2 : kE (2 * vsq2e) = v2k * √2 := by unfold kE; rw [mul_div_cancel_right₀ _ hp.ne']
    have hlt : kE (vsq2e + vsq2e / (1 + 7.6 * (kE vsq2e / kE vsq2e) ^ 4)) <
        kE (vsq2e + 2 * vsq2e / (1 + 7.6 * (kE vsq2e / kE (2 * vsq2e)) ^ 4)) := by
      rw [hk2, hk, div_self v2k_pos.ne', show v2k / (v2k * √2) = 1 / √2 by
        have := v2k_pos.ne'; field_simp]
      rw [div_pow, show √2 ^ 4 = 4 by rw [show (4 : ℕ) = 2 * 2 from rfl, pow_mul, Real.sq_sqrt (by norm_num)]; norm_num]
      unfold kE
      apply mul_lt_mul_of_pos_left _ v2k_pos
      apply Real.sqrt_lt_sqrt
      · have : 0 ≤ vsq2e / (1 + 7.6 * 1 ^ 4) := by norm_num; linarith
        apply div_nonneg _ hp.le
        linarith
      · apply div_lt_div_of_pos_right _ hp
        norm_num
        linarith
    have hr : reach vsq2e vsq2e < reach (2 * vsq2e) vsq2e := by
      unfold reach
      have hpi : 0 < physPi := by unfold physPi; norm_num
      apply mul_lt_mul_of_pos_left _ (by positivity)
      have h0 : 0 ≤ kE (vsq2e + vsq2e / (1 + 7.6 * (kE vsq2e / kE vsq2e) ^ 4)) := by
        unfold kE; exact mul_nonneg v2k_pos.le (Real.sqrt_nonneg _)
      apply pow_lt_pow_left₀ _ (by rw [hk] at h0 ⊢; linarith [v2k_pos]) (by norm_num)
      linarith
    have hw := Kp_weight_pos f vsq2e 0 (x := 1 / 2) (by norm_num) (by norm_num) (V := 1) one_pos
    have hsc : ∀ a V, onePhononPoly (Kp f a 0) evz.v ⟨v2k, 0, 0⟩ (vsq2e - vsq2e * (1 / 2 * (1 / 2))) V (v2k : ℝ) =
        V * onePhononPoly (Kp f vsq2e 0) evz.v ⟨v2k, 0, 0⟩ (vsq2e - vsq2e * (1 / 2 * (1 / 2))) 1 (v2k : ℝ) := by
      intro a V
      unfold onePhononPoly
      simp only [Kp]
      ring
    simp only
    rw [hsc vsq2e, hsc (2 * vsq2e)]
    have := mul_lt_mul_of_pos_right hr hw
    push_cast
    linarith

end Verif.Xtal
