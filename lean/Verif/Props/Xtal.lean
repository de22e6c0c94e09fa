import Verif.Lemmas.Xtal
/-!
C122-C126: coherent one-phonon scattering in a single crystal.
-/

namespace Verif.Xtal
open Solid Flight Homog Kinem Powder Dos

/-! ### C122 -/

/-- C122: the neutron keeps place and time; it is left alone, or it flies on in one of the directions tried, with at
most twice its speed, and within one step of the search for speeds there is a speed at which energy and momentum are
conserved exactly by a phonon of the dispersion. -/
theorem C122_kinematics {K : Single} {solid : ℝ} {tries : List (V3 ℝ × ℝ × ℝ)} {ev ev' : Ev} (hv : ev.v ≠ 0)
    (hn : 0 < K.nSteps) (hc : ∀ br d, Continuous fun s : ℝ => K.D.energy br (wave ev.v - wave (s • d)))
    (h : K.S solid tries ev = .ok (some ev')) :
    SamePlace ev ev' ∧ (ev' = ev ∨ ∃ t ∈ tries, ∃ d : V3 ℝ, ∃ br < K.D.nBranches, ∃ s s0 : ℝ,
      √(t.1.dot t.1) • d = t.1 ∧ d.dot d = 1 ∧ ev'.v = s • d ∧ 0 ≤ s ∧ s ≤ 2 * √(ev.v.dot ev.v) ∧
      |s0 - s| ≤ √(ev.v.dot ev.v) / K.nSteps ∧
      K.D.energy br (wave ev.v - wave (s0 • d)) = |energy ev.v - energy (s0 • d)|) := by
  unfold Single.S at h
  simp only [v2E_length] at h
  split at h
  · cases h
  · next hg =>
    simp only [Except.ok.injEq] at h
    split at h
    · cases h
    · simp only [Option.some.injEq] at h
      subst h
      exact ⟨⟨rfl, rfl, rfl, rfl⟩, .inl rfl⟩
    · next br vf w ha =>
      obtain ⟨t, ht, d, hd, hbr, hp⟩ := attempts_some ha
      obtain ⟨-, -, hdu, hdl⟩ := normalize_some hd
      rw [length_eq] at hdl
      obtain ⟨s, hs, rfl⟩ := pickVf_some hdu hp
      have hl : 0 < 2 * √(ev.v.dot ev.v) := by rw [← length_eq]; have := length_pos hv; linarith
      have hcont : ContinuousOn (fun s => mismatch K.D br ev.v (s • d)) (Set.Icc 0 (2 * √(ev.v.dot ev.v))) := by
        apply Continuous.continuousOn
        unfold mismatch
        simp only [energy_smul_unit hdu]
        exact (hc br d).sub (by fun_prop)
      obtain ⟨s0, -, h0, h1⟩ := Root.C50_real hl hn hcont hs
      have hin := (Root.C50_inside hl hn hs).1
      unfold singleFinish at h
      simp only [Option.bind_eq_bind, Option.bind_eq_some_iff, Option.some.injEq] at h
      obtain ⟨_, -, _, -, _, -, _, -, _, -, rfl⟩ := h
      refine ⟨⟨rfl, rfl, rfl, rfl⟩, .inr ⟨t, List.mem_of_mem_take ht, d, br, ?_, s, s0, hdl, hdu, rfl, hin.1, hin.2, ?_,
        sub_eq_zero.1 h0⟩⟩
      · rw [hbr]; exact (good_lt hg _).1
      · convert h1 using 1; ring

/-- the kernel of the examples scatters a neutron along z from 1 to 3/2 m/s -/
theorem K0_z (u1 u2 : ℝ) : K0.S 1 [(⟨0, 0, 1⟩, u1, u2)] evz =
    .ok (some { evz with v := (3 / 2 : ℝ) • ⟨0, 0, 1⟩, p := evz.p * ((1 : ℕ) * (1 : ℕ) * 1 *
      onePhonon K0 0 evz.v ⟨0, 0, 1⟩ (3 / 2) ((v2k * (1 - 3 / 2 * 1) : ℝ) : ℂ)) }) := by
  have hr := regular_z 0
  have hs := hr.slope
  rw [← length_eq] at hs
  have hp := pickVf_ok (K := K0) (br := 0) (n := ⟨0, 0, 1⟩) (v := evz.v) (u := u2) (s := 3 / 2) unit_z
    (by rw [speeds_z]; simp) (by rw [speeds_z]; simp [randomIndex, Nat.mod_one]) (by rw [evz_length]; norm_num [K0]) hs
  rw [speeds_z] at hp
  have hf := singleFinish_eq (K := K0) (solid := 1) (m := 1) (N := (1 : ℕ)) (ev := evz) unit_z (by norm_num) evz_ne
    (show 0 < K0.T by norm_num [K0]) (by rw [coh_K0]; norm_num) hr
  have ha : attempts K0 [0] evz.v (length evz.v) [(⟨0, 0, 1⟩, u1, u2)] = some (some (0, (3 / 2 : ℝ) • ⟨0, 0, 1⟩,
      ((1 : ℕ) : ℝ) * (2 * vsq2e * (3 / 2) / slopeOf K0.D 0 evz.v ⟨0, 0, 1⟩ (K0.dV * length evz.v) (3 / 2)))) := by
    rw [attempts]
    have e : randomIndex u1 [0].length = 0 := by simp [randomIndex, Nat.mod_one]
    simp only [Phonon.normalize_unit unit_z, Option.bind_eq_bind, Option.bind_some, e, List.getD_cons_zero, hp]
    rfl
  unfold Single.S
  simp only [v2E_length]
  rw [show K0.D = D0 from rfl, good_D0, if_neg (by simp), show List.take 100 [((⟨0, 0, 1⟩ : V3 ℝ), u1, u2)] = [(⟨0, 0, 1⟩, u1, u2)] from rfl,
    ha]
  simp only [List.length_singleton]
  rw [hf]

/-- the hypotheses of `C122_kinematics` can be met -/
example : evz.v ≠ 0 ∧ 0 < K0.nSteps ∧ (∀ br d, Continuous fun s : ℝ => K0.D.energy br (wave evz.v - wave (s • d))) ∧
    ∃ ev', K0.S 1 [(⟨0, 0, 1⟩, 0, 0)] evz = .ok (some ev') ∧ ev'.v ≠ evz.v := by
  refine ⟨evz_ne, by norm_num [K0], ?_, _, K0_z 0 0, ?_⟩
  · intro br d
    simp only [K0, D0, wave_evz]
    fun_prop
  · intro h
    have := congrArg V3.z h
    norm_num [evz] at this

/-! ### C123 -/

/-- C123, partial: for a direction in which every branch that is tried has a solution, the expected value of any
observable is the sum over branches and solutions of its value times the one-phonon cross section.  Missing:
directions without a solution (C124), branches that are not tried (C126); the scattered wave is that of the code
(C127, C128). -/
theorem C123_sampling_partial {K : Single} {solid : ℝ} {n : V3 ℝ} {ev : Ev} (hn : n.dot n = 1) (hv : ev.v ≠ 0)
    (hN : 0 < K.nSteps) (hT : 0 < K.T) (hd : K.dV ≠ 0) (hc : totalCoh K.atoms ≠ 0) (F : Nat → ℝ → ℂ)
    (hg : (List.range K.D.nBranches).filter (fun br => K.D.minEnergy br < energy ev.v * 1.5) ≠ [])
    (hs : ∀ br < K.D.nBranches, speeds K br ev.v n ≠ [])
    (hr : ∀ br < K.D.nBranches, ∀ s ∈ speeds K br ev.v n, Regular K br ev.v n s (F br s)) (h : V3 ℝ → ℝ) :
    mean (fun u1 => mean fun u2 => weighV h (K.S solid [(n, u1, u2)] ev)) =
      ev.p * solid * (((List.range K.D.nBranches).filter (fun br => K.D.minEnergy br < energy ev.v * 1.5)).map fun br =>
        ((speeds K br ev.v n).map fun s => onePhonon K br ev.v n s (F br s) * h (s • n)).sum).sum := by
  set good := goodBranches K.D (energy ev.v) with hgood
  have hgd : (List.range K.D.nBranches).filter (fun br => K.D.minEnergy br < energy ev.v * 1.5) = good := rfl
  rw [hgd] at hg ⊢
  have hlen : 0 < good.length := List.length_pos_iff.2 hg
  have hl : 0 < 2 * √(ev.v.dot ev.v) := by rw [← length_eq]; have := length_pos hv; linarith
  have hS : ∀ u1 u2, weighV h (K.S solid [(n, u1, u2)] ev) =
      (fun br => (fun s => ev.p * (((speeds K br ev.v n).length : ℝ) * good.length * solid *
        onePhonon K br ev.v n s (F br s)) * h (s • n))
        ((speeds K br ev.v n).getD (randomIndex u2 (speeds K br ev.v n).length) 0))
      (good.getD (randomIndex u1 good.length) 0) := by
    intro u1 u2
    set br := good.getD (randomIndex u1 good.length) 0 with hbr
    have hb : br < K.D.nBranches := (good_lt hg u1).1
    set s := (speeds K br ev.v n).getD (randomIndex u2 (speeds K br ev.v n).length) 0 with hsd
    have hmem : s ∈ speeds K br ev.v n := by
      rw [hsd, List.getD_eq_getElem?_getD,
        List.getElem?_eq_getElem (randomIndex_lt u2 (List.length_pos_iff.2 (hs br hb)))]
      exact List.getElem_mem _
    have h0 := (Root.C50_inside hl hN hmem).1.1
    have hreg := hr br hb s hmem
    have hsl := hreg.slope
    rw [← length_eq] at hsl
    have hp := pickVf_ok (u := u2) hn (hs br hb) hsd (mul_ne_zero hd (length_pos hv).ne') hsl
    have hf := singleFinish_eq (solid := solid) (m := good.length) (N := (speeds K br ev.v n).length) hn h0 hv hT hc hreg
    have ha : attempts K good ev.v (length ev.v) [(n, u1, u2)] = some (some (br, s • n,
        (speeds K br ev.v n).length * (2 * vsq2e * s / slopeOf K.D br ev.v n (K.dV * length ev.v) s))) := by
      rw [attempts]
      simp only [Phonon.normalize_unit hn, Option.bind_eq_bind, Option.bind_some, ← hbr, hp]
    unfold Single.S
    simp only [v2E_length, ← hgood]
    rw [if_neg hg, show List.take 100 [(n, u1, u2)] = [(n, u1, u2)] from rfl, ha]
    simp only
    rw [hf]
    rfl
  simp only [hS]
  have inner : ∀ u1, mean (fun u2 => (fun br => (fun s => ev.p * (((speeds K br ev.v n).length : ℝ) * good.length * solid *
        onePhonon K br ev.v n s (F br s)) * h (s • n))
        ((speeds K br ev.v n).getD (randomIndex u2 (speeds K br ev.v n).length) 0))
      (good.getD (randomIndex u1 good.length) 0)) =
      (fun br => ev.p * solid * good.length *
        ((speeds K br ev.v n).map fun s => onePhonon K br ev.v n s (F br s) * h (s • n)).sum)
      (good.getD (randomIndex u1 good.length) 0) := by
    intro u1
    set br := good.getD (randomIndex u1 good.length) 0 with hbr
    have hb : br < K.D.nBranches := (good_lt hg u1).1
    have hpos := List.length_pos_iff.2 (hs br hb)
    have hne : ((speeds K br ev.v n).length : ℝ) ≠ 0 := by exact_mod_cast hpos.ne'
    simp only
    rw [mean_index hpos (fun i => ev.p * (((speeds K br ev.v n).length : ℝ) * good.length * solid *
      onePhonon K br ev.v n ((speeds K br ev.v n).getD i 0) (F br ((speeds K br ev.v n).getD i 0))) *
      h (((speeds K br ev.v n).getD i 0) • n)), ← sum_map_getD _ 0, Finset.mul_sum, Finset.sum_div]
    apply Finset.sum_congr rfl
    intro i _
    field_simp
  simp only [inner]
  have hne : (good.length : ℝ) ≠ 0 := by exact_mod_cast hlen.ne'
  rw [mean_index hlen (fun i => ev.p * solid * good.length *
    ((speeds K (good.getD i 0) ev.v n).map fun s => onePhonon K (good.getD i 0) ev.v n s (F (good.getD i 0) s) * h (s • n)).sum),
    ← sum_map_getD _ 0, Finset.mul_sum, Finset.sum_div]
  apply Finset.sum_congr rfl
  intro i _
  field_simp

/-- the hypotheses of `C123_sampling_partial` can be met, and the expected weight is positive -/
example : 0 < mean (fun u1 => mean fun u2 => weighV (fun _ => 1) (K0.S 1 [(⟨0, 0, 1⟩, u1, u2)] evz)) := by
  have hb : ∀ br, br < K0.D.nBranches → br = 0 := by intro br h; simp only [K0, D0] at h; omega
  rw [C123_sampling_partial unit_z evz_ne (by norm_num [K0]) (by norm_num [K0]) (by norm_num [K0])
    (by rw [coh_K0]; norm_num) (fun _ _ => ((v2k * (1 - 3 / 2 * 1) : ℝ) : ℂ))
    (by have := good_D0; unfold goodBranches at this; rw [show K0.D = D0 from rfl, this]; simp)
    (fun br _ => by rw [speeds_z]; simp)
    (fun br _ s hs => by rw [speeds_z] at hs; simp only [List.mem_singleton] at hs; subst hs; exact regular_z br)]
  have := good_D0
  unfold goodBranches at this
  rw [show K0.D = D0 from rfl, this]
  simp only [List.map_cons, List.map_nil, List.sum_cons, List.sum_nil, speeds_z, add_zero, mul_one]
  have := onePhonon_z 0
  simpa [evz] using this

/-! ### C124 -/

/-- C124, partial: if every branch has a solution along the first direction, no other direction matters, so the
expected weight is the one of C123.  Missing: directions without a solution, see `C124_retry_false`. -/
theorem C124_retry_partial {K : Single} {solid : ℝ} {tries : List (V3 ℝ × ℝ × ℝ)} {ev : Ev} {n : V3 ℝ} {u1 u2 : ℝ}
    (hn : n.dot n = 1) (hs : ∀ br < K.D.nBranches, speeds K br ev.v n ≠ []) :
    K.S solid ((n, u1, u2) :: tries) ev = K.S solid [(n, u1, u2)] ev := by
  unfold Single.S
  simp only [v2E_length, List.take_succ_cons]
  split
  · rfl
  · next hg =>
    have hb := (good_lt hg u1).1
    congr 2
    rw [attempts, attempts]
    simp only [Phonon.normalize_unit hn, Option.bind_eq_bind, Option.bind_some]
    cases hp : pickVf K ((goodBranches K.D (energy ev.v)).getD (randomIndex u1 (goodBranches K.D (energy ev.v)).length) 0) n
        ev.v (length ev.v) u2 with
    | none => rfl
    | some o =>
      cases o with
      | some q => rfl
      | none =>
        exfalso
        unfold pickVf at hp
        simp only [solve_along hn] at hp
        split at hp
        · next hl => exact absurd (List.length_eq_zero_iff.1 (by omega)) (hs _ hb)
        · simp only [Option.bind_eq_bind, Option.bind_eq_some_iff] at hp
          obtain ⟨_, -, _, -, _, -, hp⟩ := hp
          cases hp

example : K0.S 1 [(⟨0, 0, 1⟩, 0, 0), (⟨1, 0, 0⟩, 0, 0)] evz = K0.S 1 [(⟨0, 0, 1⟩, 0, 0)] evz :=
  C124_retry_partial unit_z (fun br _ => by rw [speeds_z]; simp)

/-- C124 is false: a direction in which no phonon can scatter the neutron does not count as such, another direction is
tried instead and gets the full weight. -/
theorem C124_retry_false : ∃ (K : Single) (ev : Ev) (d1 d2 : V3 ℝ), d1.dot d1 = 1 ∧ d2.dot d2 = 1 ∧
    (∀ br < K.D.nBranches, ∀ s : ℝ, mismatch K.D br ev.v (s • d1) ≠ 0) ∧
    K.S 1 [(d1, 0, 0), (d2, 0, 0)] ev = K.S 1 [(d2, 0, 0)] ev ∧
    0 < weighV (fun _ => 1) (K.S 1 [(d1, 0, 0), (d2, 0, 0)] ev) := by
  have ux : V3.dot (⟨1, 0, 0⟩ : V3 ℝ) ⟨1, 0, 0⟩ = 1 := by norm_num [V3.dot]
  have he : K0.S 1 [(⟨1, 0, 0⟩, 0, 0), (⟨0, 0, 1⟩, 0, 0)] evz = K0.S 1 [(⟨0, 0, 1⟩, 0, 0)] evz := by
    unfold Single.S
    simp only [v2E_length]
    have : ∀ good, attempts K0 good evz.v (length evz.v) (List.take 100 [((⟨1, 0, 0⟩ : V3 ℝ), (0 : ℝ), (0 : ℝ)), (⟨0, 0, 1⟩, 0, 0)]) =
        attempts K0 good evz.v (length evz.v) (List.take 100 [(⟨0, 0, 1⟩, 0, 0)]) := by
      intro good
      show attempts K0 good evz.v (length evz.v) (((⟨1, 0, 0⟩ : V3 ℝ), (0 : ℝ), (0 : ℝ)) :: [(⟨0, 0, 1⟩, 0, 0)]) = _
      rw [attempts]
      simp only [Phonon.normalize_unit ux, Option.bind_eq_bind, Option.bind_some, pickVf_none ux (speeds_x _)]
      rfl
    rw [this]
  refine ⟨K0, evz, ⟨1, 0, 0⟩, ⟨0, 0, 1⟩, ux, unit_z, ?_, he, ?_⟩
  · intro br _ s
    rw [show K0.D = D0 from rfl, mismatch_D0 ux]
    apply (mul_pos vsq2e_pos _).ne'
    have : |1 - s * s| ≤ 1 + s * s := by rw [abs_le]; constructor <;> nlinarith [mul_self_nonneg s]
    simp only
    nlinarith [mul_self_nonneg s]
  · rw [he, K0_z]
    have := onePhonon_z 0
    simpa [weighV, evz] using this

/-! ### C125 -/

/-- C125, partial: a neutron is only left alone if no root was found in all of the directions tried, so a solution
found in the first direction is used.  Missing: the weight is then unchanged too, see `C125_unscattered_false`. -/
theorem C125_unscattered_partial {K : Single} {solid : ℝ} {tries : List (V3 ℝ × ℝ × ℝ)} {ev : Ev} {n : V3 ℝ} {u1 u2 : ℝ}
    (hn : n.dot n = 1) (hg : (List.range K.D.nBranches).filter (fun br => K.D.minEnergy br < energy ev.v * 1.5) ≠ [])
    (hs : ∀ br < K.D.nBranches, speeds K br ev.v n ≠ []) :
    ∃ br < K.D.nBranches, K.S solid ((n, u1, u2) :: tries) ev = .ok none ∨
      ∃ s ∈ speeds K br ev.v n, K.S solid ((n, u1, u2) :: tries) ev = .ok none ∨
        ∃ p, K.S solid ((n, u1, u2) :: tries) ev = .ok (some { ev with v := s • n, p := p }) := by
  have hg' : goodBranches K.D (energy ev.v) ≠ [] := hg
  set br := (goodBranches K.D (energy ev.v)).getD (randomIndex u1 (goodBranches K.D (energy ev.v)).length) 0 with hbr
  have hb : br < K.D.nBranches := (good_lt hg' u1).1
  refine ⟨br, hb, ?_⟩
  unfold Single.S
  simp only [v2E_length, if_neg hg', List.take_succ_cons]
  rw [attempts]
  simp only [Phonon.normalize_unit hn, Option.bind_eq_bind, Option.bind_some, ← hbr]
  cases hp : pickVf K br n ev.v (length ev.v) u2 with
  | none => left; rfl
  | some o =>
    cases o with
    | none =>
      exfalso
      unfold pickVf at hp
      simp only [solve_along hn] at hp
      split at hp
      · next hl => exact absurd (List.length_eq_zero_iff.1 (by omega)) (hs br hb)
      · simp only [Option.bind_eq_bind, Option.bind_eq_some_iff] at hp
        obtain ⟨_, -, _, -, _, -, hp⟩ := hp
        cases hp
    | some q =>
      obtain ⟨vf, w⟩ := q
      obtain ⟨s, hm, rfl⟩ := pickVf_some hn hp
      right
      refine ⟨s, hm, ?_⟩
      simp only [Option.bind_some]
      cases hf : singleFinish K solid (goodBranches K.D (energy ev.v)).length br (s • n) w ev with
      | none => left; rfl
      | some ev' =>
        right
        unfold singleFinish at hf
        simp only [Option.bind_eq_bind, Option.bind_eq_some_iff, Option.some.injEq] at hf
        obtain ⟨_, -, _, -, _, -, _, -, _, -, rfl⟩ := hf
        exact ⟨_, rfl⟩

example : ∃ br < K0.D.nBranches, K0.S 1 [(⟨0, 0, 1⟩, 0, 0)] evz = .ok none ∨
      ∃ s ∈ speeds K0 br evz.v ⟨0, 0, 1⟩, K0.S 1 [(⟨0, 0, 1⟩, 0, 0)] evz = .ok none ∨
        ∃ p, K0.S 1 [(⟨0, 0, 1⟩, 0, 0)] evz = .ok (some { evz with v := s • ⟨0, 0, 1⟩, p := p }) :=
  C125_unscattered_partial unit_z
    (by have := good_D0; unfold goodBranches at this; rw [show K0.D = D0 from rfl, this]; simp)
    (fun br _ => by rw [speeds_z]; simp)

/-- C125 is false: after 100 directions without a solution the kernel returns the neutron as it was, with its full
weight, as if it had been scattered forward. -/
theorem C125_unscattered_false : ∃ (K : Single) (ev : Ev) (d : V3 ℝ), d.dot d = 1 ∧ 0 < ev.p ∧
    (∀ br < K.D.nBranches, ∀ s : ℝ, mismatch K.D br ev.v (s • d) ≠ 0) ∧
    K.S 1 (List.replicate 100 (d, 0, 0)) ev = .ok (some ev) := by
  have ux : V3.dot (⟨1, 0, 0⟩ : V3 ℝ) ⟨1, 0, 0⟩ = 1 := by norm_num [V3.dot]
  refine ⟨K0, evz, ⟨1, 0, 0⟩, ux, by norm_num [evz], ?_, ?_⟩
  · intro br _ s
    rw [show K0.D = D0 from rfl, mismatch_D0 ux]
    apply (mul_pos vsq2e_pos _).ne'
    have : |1 - s * s| ≤ 1 + s * s := by rw [abs_le]; constructor <;> nlinarith [mul_self_nonneg s]
    simp only
    nlinarith [mul_self_nonneg s]
  · unfold Single.S
    simp only [v2E_length]
    rw [show K0.D = D0 from rfl, good_D0, if_neg (by simp), attempts_none]
    intro t ht
    rw [List.eq_of_mem_replicate (List.mem_of_mem_take ht)]
    exact ⟨⟨1, 0, 0⟩, Phonon.normalize_unit ux, pickVf_none ux (speeds_x _)⟩

/-! ### C126 -/

/-- C126, partial: all branches take part if their energies start below 1.5 times the energy of the neutron.  Missing:
branches that start higher, see `C126_branches_false`. -/
theorem C126_branches_partial {D : Phonons} {E : ℝ} (h : ∀ br < D.nBranches, D.minEnergy br < 1.5 * E) :
    goodBranches D E = List.range D.nBranches := by
  unfold goodBranches
  rw [List.filter_eq_self]
  intro br hb
  have := h br (List.mem_range.1 hb)
  simp only [decide_eq_true_eq]
  linarith

example : goodBranches D0 (energy evz.v) = List.range D0.nBranches :=
  C126_branches_partial fun br _ => by
    rw [evz_energy]
    have := vsq2e_pos
    simp only [D0]
    norm_num
    linarith

/-- a dispersion with a single branch at twice the energy of the neutron of the examples -/
noncomputable def D2 : Phonons where
  nBranches := 1
  energy _ _ := vsq2e * 2
  polarization _ _ _ := ⟨0, 0, 1⟩
  minEnergy _ := vsq2e * 2

/-- C126 is false: for a neutron that could gain energy from a phonon, but whose energy is less than two thirds of the
lowest phonon energy, the kernel takes a remainder modulo zero. -/
theorem C126_branches_false : ∃ (K : Single) (ev : Ev) (d : V3 ℝ) (s : ℝ), d.dot d = 1 ∧ 0 < s ∧
    s ≤ 2 * √(ev.v.dot ev.v) ∧ (∀ br Q, K.D.minEnergy br ≤ K.D.energy br Q) ∧ mismatch K.D 0 ev.v (s • d) = 0 ∧
    ∀ solid tries, K.S solid tries ev = .error .undefinedBehaviour := by
  have hp := vsq2e_pos
  refine ⟨{ K0 with D := D2 }, evz, ⟨0, 0, 1⟩, √3, unit_z, Real.sqrt_pos.2 (by norm_num), ?_, fun _ _ => le_rfl, ?_, ?_⟩
  · rw [← length_eq, evz_length, mul_one]
    rw [Real.sqrt_le_left (by norm_num)]
    norm_num
  · unfold mismatch
    rw [evz_energy, energy_smul_unit unit_z, Real.mul_self_sqrt (by norm_num), show vsq2e - vsq2e * 3 = -(vsq2e * 2) by ring,
      abs_neg, abs_of_pos (by positivity)]
    simp [D2]
  · intro solid tries
    unfold Single.S
    simp only [v2E_length]
    have : goodBranches D2 (energy evz.v) = [] := by
      have h : ¬ D2.minEnergy 0 < energy evz.v * 1.5 := by
        rw [evz_energy]; simp only [D2]; norm_num; linarith
      unfold goodBranches
      rw [show D2.nBranches = 1 from rfl, List.range_one, List.filter_cons, if_neg (by simpa using h), List.filter_nil]
    rw [this, if_pos rfl]

end Verif.Xtal
