import Verif.Lemmas.Bragg
/-!
Properties of Bragg diffraction by a single crystal.
-/

namespace Verif.Bragg
open Solid Flight Homog Kinem

/-! ### C133 -/

/-- **C133** Bragg scattering is elastic and leaves the neutron where it is. -/
theorem C133_elastic {a b c : V3 ℝ} {l : List HKL} {mosaic dd : ℝ} {K : Crystal}
    (hK : create a b c l mosaic dd = .ok (some K)) {ev ev' : Ev} {ts : List Tau}
    (ht : taus K.V0 K.dd K.peaks ev.v = some ts) {u z1 z2 : ℝ} (h : scatter K.V0 ts u z1 z2 ev = some ev') :
    SamePlace ev ev' ∧ ev'.v.dot ev'.v = ev.v.dot ev.v := by
  obtain ⟨-, hk, hf⟩ := taus_facts hK ht
  unfold scatter at h
  split at h
  · simp only [Option.some.injEq] at h
    subst h
    exact ⟨⟨rfl, rfl, rfl, rfl⟩, rfl⟩
  · simp only [Option.bind_eq_bind, Option.bind_eq_some_iff, Option.some.injEq] at h
    obtain ⟨t, htm, v, hv, _, -, _, -, rfl⟩ := h
    refine ⟨⟨rfl, rfl, rfl, rfl⟩, ?_⟩
    obtain ⟨hg, -, -, -, n, α, hst⟩ := hf t (List.mem_of_getElem? htm)
    obtain ⟨e1, e2⟩ := hst.velocity hg hk z1 z2
    rw [hv, Option.some.injEq] at e1
    rw [← e1] at e2
    show v.dot v = _
    rw [← length_mul_self, e2, length_mul_self]

/-- **C133** A neutron for which no reflection is near is returned with the weight -1 and otherwise unchanged. -/
theorem C133_none (V0 u z1 z2 : ℝ) (ev : Ev) : scatter V0 [] u z1 z2 ev = some { ev with p := -1 } := by
  unfold scatter
  rw [if_pos (by simp [totalRefl])]

example : ∃ (K : Crystal) (ts : List Tau) (ev ev' : Ev),
    create ⟨2 * Real.pi, 0, 0⟩ ⟨0, 2 * Real.pi, 0⟩ ⟨0, 0, 2 * Real.pi⟩ [q100] (1 / 100) (1 / 100) = .ok (some K) ∧
    taus K.V0 K.dd K.peaks ev.v = some ts ∧ scatter K.V0 ts (1 / 2) 1 (-1) ev = some ev' ∧ 0 < ev'.p :=
  cube_scatter (by norm_num) (by norm_num) (by norm_num) _ _ _ (by norm_num) (by norm_num)

/-! ### C134 -/

/-- **C134** The direction of a scattered neutron is that of a wave vector on the tangential plane of the sphere of
constant energy, an affine image of the two random numbers that covers the plane, and the exponent of the normal
distribution of lattice vectors there is half the sum of their squares up to a constant: with normal random numbers the
wave vectors have the normal distribution of the lattice vectors restricted to that plane. -/
theorem C134_normal {a b c : V3 ℝ} {l : List HKL} {mosaic dd : ℝ} {K : Crystal}
    (hK : create a b c l mosaic dd = .ok (some K)) {v : V3 ℝ} {ts : List Tau}
    (ht : taus K.V0 K.dd K.peaks v = some ts) : ∀ t ∈ ts, ∃ (α : ℝ) (P : ℝ → ℝ → V3 ℝ),
      (∀ z1 z2, ∃ s : ℝ, 0 < s ∧ t.velocity v z1 z2 = some (s • P z1 z2)) ∧
      (∀ k', OnPlane (waveVec v) t.peak.tau k' ↔ ∃ z1 z2, P z1 z2 = k') ∧
      (∃ A B C, ∀ z1 z2, P z1 z2 = A + z1 • B + z2 • C) ∧
      ∀ z1 z2, exponent mosaic dd t.peak.tau (P z1 z2 - (waveVec v - t.peak.tau)) = α + (z1 ^ 2 + z2 ^ 2) / 2 := by
  intro t htm
  obtain ⟨-, hk, hf⟩ := taus_facts hK ht
  obtain ⟨hg, -, -, -, n, α, hst⟩ := hf t htm
  have hv : 0 < length v := by
    rw [length_smul'] at hk
    exact (pos_iff_pos_of_mul_pos hk).1 (abs_pos.2 v2k_pos.ne')
  refine ⟨α, fun z1 z2 => t.peak.toWorld (t.kf z1 z2), fun z1 z2 => ?_, fun k' => ?_, ?_, fun z1 z2 => ?_⟩
  · refine ⟨_, ?_, (hst.velocity hg hk z1 z2).1⟩
    have h1 := hst.kf_pos hk z1 z2
    have h2 := v2k_pos
    have h3 := k2v_pos
    positivity
  · have hk' : k' = t.peak.toWorld (t.peak.toLocal k') := (Peak.toWorld_toLocal hg.frame hg.third k').symm
    constructor
    · intro h
      rw [hk'] at h
      obtain ⟨z1, z2, e⟩ := hst.kf_surj ((hst.plane hg _).1 h)
      exact ⟨z1, z2, by simp only [e, ← hk']⟩
    · rintro ⟨z1, z2, rfl⟩
      exact (hst.plane hg _).2 (hst.kf_dot z1 z2)
  · refine ⟨t.peak.toWorld (t.rho + t.o + t.y0x • t.b1 + t.y0y • t.b2), t.peak.toWorld (t.l11 • t.b1 + t.l12 • t.b2),
      t.peak.toWorld (t.l22 • t.b2), fun z1 z2 => ?_⟩
    show t.peak.toWorld (t.kf z1 z2) = _
    rw [← Peak.toWorld_smul, ← Peak.toWorld_smul, ← Peak.toWorld_add, ← Peak.toWorld_add]
    congr 1
    simp only [Tau.kf]
    ext <;> simp only [V3.add_x, V3.add_y, V3.add_z, V3.smul_x, V3.smul_y, V3.smul_z] <;> ring
  · show exponent mosaic dd t.peak.tau (t.peak.toWorld (t.kf z1 z2) - (v2k • v - t.peak.tau)) = _
    rw [← hst.rho, ← Peak.toWorld_sub, hg.exponent, hst.dev]

example : ∃ (K : Crystal) (t : Tau),
    create ⟨2 * Real.pi, 0, 0⟩ ⟨0, 2 * Real.pi, 0⟩ ⟨0, 0, 2 * Real.pi⟩ [q100] (1 / 100) (1 / 100) = .ok (some K) ∧
    taus K.V0 K.dd K.peaks (k2v • ⟨1 / 2, 0, 0⟩) = some [t] ∧ t.peak.tau = ⟨1, 0, 0⟩ :=
  cube_bragg (by norm_num) (by norm_num) (by norm_num)

/-! ### C135 -/

/-- **C135** The reflectivity is `(2π)³/(V₀ k²)` times the integral of the density of lattice vectors over the tangential
plane of the sphere of constant energy. -/
theorem C135_reflectivity {a b c : V3 ℝ} {l : List HKL} {mosaic dd : ℝ} {K : Crystal}
    (hK : create a b c l mosaic dd = .ok (some K)) {v : V3 ℝ} {ts : List Tau}
    (ht : taus K.V0 K.dd K.peaks v = some ts) : ∀ t ∈ ts, ∃ n b1 b2 : V3 ℝ, Frame n b1 b2 ∧
      (∀ y1 y2 : ℝ, OnPlane (waveVec v) t.peak.tau (length (waveVec v) • n + y1 • b1 + y2 • b2)) ∧
      t.refl = (2 * Real.pi) ^ 3 / (K.V0 * ((waveVec v).dot (waveVec v))) *
        ∫ y1 : ℝ, ∫ y2 : ℝ, density mosaic dd t.peak.tau
          (length (waveVec v) • n + y1 • b1 + y2 • b2 - (waveVec v - t.peak.tau)) ∧
      t.xs = t.refl * t.peak.F2 / 100 := by
  intro t htm
  obtain ⟨hV, hk, hf⟩ := taus_facts hK ht
  obtain ⟨hg, -, -, -, n, α, hst⟩ := hf t htm
  refine ⟨t.peak.toWorld n, t.peak.toWorld t.b1, t.peak.toWorld t.b2, Peak.toWorld_frame hg.frame hst.frame,
    fun y1 y2 => ?_, ?_, by rw [hst.xs]; norm_num; ring⟩
  · rw [← Peak.toWorld_smul, ← Peak.toWorld_smul, ← Peak.toWorld_smul, ← Peak.toWorld_add, ← Peak.toWorld_add]
    apply (hst.plane hg _).2
    obtain ⟨h1, -, -, h4, h5, -⟩ := hst.frame
    unfold waveVec
    simp only [V3.dot, V3.add_x, V3.add_y, V3.add_z, V3.smul_x, V3.smul_y, V3.smul_z] at *
    linear_combination length (v2k • v) * h1 + y1 * h4 + y2 * h5
  · have e : ∀ y1 y2 : ℝ, length (waveVec v) • t.peak.toWorld n + y1 • t.peak.toWorld t.b1 + y2 • t.peak.toWorld t.b2 -
        (waveVec v - t.peak.tau) = t.peak.toWorld (t.o + y1 • t.b1 + y2 • t.b2) := by
      intro y1 y2
      rw [show waveVec v - t.peak.tau = t.peak.toWorld t.rho from hst.rho.symm, ← Peak.toWorld_smul, ← Peak.toWorld_smul,
        ← Peak.toWorld_smul, ← Peak.toWorld_add, ← Peak.toWorld_add, ← Peak.toWorld_sub, hst.o, hst.rhoN]
      congr 1
      unfold waveVec
      ext <;> simp only [V3.add_x, V3.add_y, V3.add_z, V3.sub_x, V3.sub_y, V3.sub_z, V3.smul_x, V3.smul_y, V3.smul_z] <;> ring
    simp only [e, density, hg.exponent, hg.length, MeasureTheory.integral_div]
    have h1 : (2 * Real.pi) ^ (5 / 2 : ℝ) * (2 * Real.pi) ^ (3 / 2 : ℝ) = (2 * Real.pi) ^ 3 * (2 * Real.pi) := by
      rw [← Real.rpow_add (by positivity), ← pow_succ, ← Real.rpow_natCast]
      norm_num
    have h2 : 0 < (2 * Real.pi) ^ (3 / 2 : ℝ) := by positivity
    have s1 := hg.s1
    have s2 := hg.s2
    rw [hst.int, hst.refl, hg.sig, show waveVec v = v2k • v from rfl, ← length_mul_self]
    field_simp
    linear_combination t.l11 * t.l22 * h1

example : ∃ (K : Crystal) (t : Tau),
    create ⟨2 * Real.pi, 0, 0⟩ ⟨0, 2 * Real.pi, 0⟩ ⟨0, 0, 2 * Real.pi⟩ [q100] (1 / 50) (1 / 1000) = .ok (some K) ∧
    taus K.V0 K.dd K.peaks (k2v • ⟨1 / 2, 0, 0⟩) = some [t] ∧ t.peak.tau = ⟨1, 0, 0⟩ :=
  cube_bragg (by norm_num) (by norm_num) (by norm_num)

/-! ### C38 -/

/-- **C38** The reflection is one of the list, whatever the random number. -/
theorem C38_choice {a b c : V3 ℝ} {l : List HKL} {mosaic dd : ℝ} {K : Crystal}
    (hK : create a b c l mosaic dd = .ok (some K)) (hd : 0 < dd) {ev : Ev} {ts : List Tau}
    (ht : taus K.V0 K.dd K.peaks ev.v = some ts) (hne : ts ≠ []) (z1 z2 : ℝ) {u : ℝ} (h0 : 0 ≤ u) (h1 : u < 1)
    (hp : 0 < ev.p) : ∃ t ∈ ts, ∃ ev', scatter K.V0 ts u z1 z2 ev = some ev' ∧ 0 < ev'.p ∧
      t.velocity ev.v z1 z2 = some ev'.v := by
  obtain ⟨t, v', h1, h2, h3⟩ := scatter_eq hK hd ht hne z1 z2 h0 h1
  have htm := List.mem_of_getElem? h1
  have hpos := refl_pos hK hd ht
  obtain ⟨p1, p2⟩ := hpos t htm
  have hR := totalRefl_pos (fun t ht => (hpos t ht).1) hne
  have hV := (create_facts hK).1
  exact ⟨t, htm, _, h3, by simp only; positivity, h2⟩

/-- **C38** The expected weight scattered by a reflection is its macroscopic cross section, for any observable of the
velocity: `Σ_j xs_j / V₀` in units of 1/m, with the weight of the incoming neutron. -/
theorem C38_expectation {a b c : V3 ℝ} {l : List HKL} {mosaic dd : ℝ} {K : Crystal}
    (hK : create a b c l mosaic dd = .ok (some K)) (hd : 0 < dd) {ev : Ev} {ts : List Tau}
    (ht : taus K.V0 K.dd K.peaks ev.v = some ts) (hne : ts ≠ []) (z1 z2 : ℝ) (h : V3 ℝ → ℝ) :
    mean (fun u => weighB h (scatter K.V0 ts u z1 z2 ev)) =
      ev.p * (100 / K.V0) * (ts.map fun t => t.xs * h ((t.velocity ev.v z1 z2).getD 0)).sum := by
  have hpos := refl_pos hK hd ht
  have hR := totalRefl_pos (fun t ht => (hpos t ht).1) hne
  obtain ⟨B, hB⟩ : ∃ B : Option Tau → ℝ, B = fun o => match o with
    | some t => ev.p * (t.xs * totalRefl ts / t.refl * (100 / K.V0)) * h ((t.velocity ev.v z1 z2).getD 0)
    | none => 0 := ⟨_, rfl⟩
  have e : mean (fun u => weighB h (scatter K.V0 ts u z1 z2 ev)) = mean (fun u => B ts[pick ts u]?) := by
    apply mean_congr
    intro u h0 h1
    obtain ⟨t, v', e1, e2, e3⟩ := scatter_eq hK hd ht hne z1 z2 h0.le h1
    rw [e3, e1, hB]
    simp only [weighB, e2, Option.getD_some]
  rw [e, pick_mean (fun t ht => (hpos t ht).1) hne, hB, div_eq_iff hR.ne', ← List.sum_map_mul_left, ← List.sum_map_mul_right]
  congr 1
  apply List.map_congr_left
  intro t htm
  have := (hpos t htm).1
  field_simp

/-- **C38** The expected weight of the scattered neutron is the scattering coefficient. -/
theorem C38_coefficient {a b c : V3 ℝ} {l : List HKL} {mosaic dd : ℝ} {K : Crystal}
    (hK : create a b c l mosaic dd = .ok (some K)) (hd : 0 < dd) {ev : Ev} {ts : List Tau}
    (ht : taus K.V0 K.dd K.peaks ev.v = some ts) (hne : ts ≠ []) (z1 z2 : ℝ) :
    ∃ σ, coefficient K.V0 ts = some σ ∧ mean (fun u => weighB (fun _ => 1) (scatter K.V0 ts u z1 z2 ev)) = ev.p * σ := by
  have hV := (create_facts hK).1
  refine ⟨_, by unfold coefficient; rw [divD_ok hV.ne']; rfl, ?_⟩
  rw [C38_expectation hK hd ht hne]
  simp only [mul_one]
  unfold totalXs
  ring

/-- **C38** The list of reflections exists unless the wave vector is a lattice vector. -/
theorem C38_defined {a b c : V3 ℝ} {l : List HKL} {mosaic dd : ℝ} {K : Crystal}
    (hK : create a b c l mosaic dd = .ok (some K)) (hd : dd ≠ 1 / 5) {v : V3 ℝ} (hv : v ≠ 0)
    (hne : ∀ q ∈ l, ¬ IsTau a b c q (waveVec v)) : ∃ ts, taus K.V0 K.dd K.peaks v = some ts := by
  apply taus_ok hK hv hd
  intro p hp e
  obtain ⟨lat, hl, -, -, h3⟩ := create_ok hK
  obtain ⟨q, hq, hpk⟩ := forall2_mem h3 p hp
  unfold hkls at hq
  rw [List.mem_mergeSort, List.mem_filter] at hq
  apply hne q hq.1
  rw [isTau_iff hl]
  exact e.trans (peak_some hpk).2.2.2.2.2.2.2.2.2.2.2.2

example : ∃ (K : Crystal) (t : Tau),
    create ⟨2 * Real.pi, 0, 0⟩ ⟨0, 2 * Real.pi, 0⟩ ⟨0, 0, 2 * Real.pi⟩ [q100] (1 / 50) (1 / 1000) = .ok (some K) ∧
    taus K.V0 K.dd K.peaks { evz with v := k2v • (⟨1 / 2, 0, 0⟩ : V3 ℝ) }.v = some [t] ∧ [t] ≠ [] := by
  obtain ⟨K, t, h1, h2, -⟩ := cube_bragg (mosaic := 1 / 50) (dd := 1 / 1000) (by norm_num) (by norm_num) (by norm_num)
  exact ⟨K, t, h1, h2, by simp⟩

example : ¬ IsTau ⟨2 * Real.pi, 0, 0⟩ ⟨0, 2 * Real.pi, 0⟩ ⟨0, 0, 2 * Real.pi⟩ q100 (waveVec (k2v • ⟨1 / 2, 0, 0⟩)) := by
  unfold waveVec
  rw [v2k_smul]
  have := Real.pi_pos
  simp [IsTau, V3.dot, q100]

/-! ### C136 -/

/-- **C136** The reflections considered are of the list, have strength, and are within five widths of their condition. -/
theorem C136_sound {a b c : V3 ℝ} {l : List HKL} {mosaic dd : ℝ} {K : Crystal}
    (hK : create a b c l mosaic dd = .ok (some K)) {v : V3 ℝ} {ts : List Tau}
    (ht : taus K.V0 K.dd K.peaks v = some ts) : ∀ t ∈ ts, ∃ q ∈ l, 0 < q.F2 ∧ IsTau a b c q t.peak.tau ∧
      t.peak.F2 = q.F2 ∧ Near mosaic dd (waveVec v) t.peak.tau := by
  intro t htm
  obtain ⟨-, -, hf⟩ := taus_facts hK ht
  obtain ⟨hg, hF, hmem, hc, -⟩ := hf t htm
  obtain ⟨lat, hl, -, -, h3⟩ := create_ok hK
  obtain ⟨q, hq, hpk⟩ := forall2_mem h3 _ hmem
  unfold hkls at hq
  rw [List.mem_mergeSort, List.mem_filter] at hq
  have f := peak_some hpk
  have hF2 := f.2.2.2.2.2.2.2.2.2.1
  refine ⟨q, hq.1, by rw [← hF2]; exact hF, ?_, hF2, ?_⟩
  · rw [isTau_iff hl]; exact f.2.2.2.2.2.2.2.2.2.2.2.2
  · unfold Near
    rw [hg.length, ← hg.cut, ← length_eq, ← length_eq]
    exact hc

/-- **C136** All reflections within five widths of their condition are considered, if the mosaic spread (as a standard
deviation) does not exceed the relative spread of lattice spacings, and the latter is below 1/5.  Missing: other spreads
(see below). -/
theorem C136_complete_partial {a b c : V3 ℝ} {l : List HKL} {mosaic dd : ℝ} {K : Crystal}
    (hK : create a b c l mosaic dd = .ok (some K)) (hm : fwhm2rms * mosaic ≤ dd) (h5 : 0 < dd ∧ dd < 1 / 5) {v : V3 ℝ}
    {ts : List Tau} (ht : taus K.V0 K.dd K.peaks v = some ts) {q : HKL} (hq : q ∈ l) (hF : 0 < q.F2) {τ : V3 ℝ}
    (hτ : IsTau a b c q τ) (hn : Near mosaic dd (waveVec v) τ) : ∃ t ∈ ts, t.peak.tau = τ ∧ t.peak.F2 = q.F2 := by
  obtain ⟨lat, hl, -, hdd, h3⟩ := create_ok hK
  obtain ⟨-, -, hgood, hs⟩ := create_facts hK
  have hq' : q ∈ hkls lat l := by
    unfold hkls
    rw [List.mem_mergeSort, List.mem_filter]
    exact ⟨hq, by simpa using hF⟩
  obtain ⟨p, hp, hpk⟩ := forall2_mem h3.flip q hq'
  have f := peak_some hpk
  have hg := (hgood p hp).1
  have hτp : p.tau = τ := by rw [(isTau_iff hl q τ).1 hτ]; exact f.2.2.2.2.2.2.2.2.2.2.2.2
  obtain ⟨-, -, hloop⟩ := taus_some ht
  subst hτp
  unfold Near at hn
  rw [hg.length, ← length_eq, ← length_eq] at hn
  have hle : p.tauLength ≤ 2 * length (v2k • v) / (1 - 5 * K.dd) := by
    rw [hdd, le_div_iff₀ (by linarith)]
    have tri : p.tauLength ≤ length (v2k • v - p.tau) + length (v2k • v) := by
      rw [← hg.length, ← length_eq]
      exact triangle _ _
    have hmax : max (alongWidth dd p.tauLength) (acrossWidth mosaic p.tauLength) ≤ dd * p.tauLength := by
      have hpos := hg.pos
      have hf : fwhm2rms ≤ 1 := by unfold fwhm2rms; norm_num
      apply max_le
      · unfold alongWidth
        have := mul_le_mul_of_nonneg_right hf (mul_pos h5.1 hpos).le
        linarith
      · unfold acrossWidth
        have := mul_le_mul_of_nonneg_right hm hpos.le
        linarith
    have := (abs_le.1 hn).2
    unfold waveVec at this
    linarith
  obtain ⟨t, htm, hto⟩ := tauLoop_complete _ _ hloop hs p hp hle (by rw [hg.cut]; exact hn)
  obtain ⟨n, α, hst⟩ := tauOf_some hg hto
  exact ⟨t, htm, by rw [hst.peak], by rw [hst.peak]; exact f.2.2.2.2.2.2.2.2.2.1⟩

example : ∃ (K : Crystal) (t : Tau),
    create ⟨2 * Real.pi, 0, 0⟩ ⟨0, 2 * Real.pi, 0⟩ ⟨0, 0, 2 * Real.pi⟩ [q100] (1 / 100) (1 / 100) = .ok (some K) ∧
    taus K.V0 K.dd K.peaks (k2v • ⟨1 / 2, 0, 0⟩) = some [t] ∧ t.peak.tau = ⟨1, 0, 0⟩ ∧ fwhm2rms * (1 / 100) ≤ 1 / 100 := by
  obtain ⟨K, t, h1, h2, h3⟩ := cube_bragg (mosaic := 1 / 100) (dd := 1 / 100) (by norm_num) (by norm_num) (by norm_num)
  exact ⟨K, t, h1, h2, h3, by unfold fwhm2rms; norm_num⟩

/-- **C136** is false for a crystal whose mosaic spread exceeds the spread of lattice spacings: the search stops at a
limit that depends on the latter only, and a reflection within two widths of its condition is lost. -/
theorem C136_mosaic_false : ∃ K : Crystal,
    create ⟨2 * Real.pi, 0, 0⟩ ⟨0, 2 * Real.pi, 0⟩ ⟨0, 0, 2 * Real.pi⟩ [q100] (1 / 10) (1 / 100) = .ok (some K) ∧
    IsTau ⟨2 * Real.pi, 0, 0⟩ ⟨0, 2 * Real.pi, 0⟩ ⟨0, 0, 2 * Real.pi⟩ q100 ⟨1, 0, 0⟩ ∧ 0 < q100.F2 ∧
    Near (1 / 10) (1 / 100) (waveVec (k2v • ⟨5 / 11, 0, 0⟩)) ⟨1, 0, 0⟩ ∧
    taus K.V0 K.dd K.peaks (k2v • ⟨5 / 11, 0, 0⟩) = some [] := by
  obtain ⟨K, p, hK, h1, h2, h3, -⟩ := cube (1 / 10) (1 / 100) (by norm_num) (by norm_num)
  obtain ⟨hV, -, hg, -⟩ := create_facts hK
  have hp := (hg p (by rw [h1]; simp)).1
  have e1 : length (⟨5 / 11, 0, 0⟩ : V3 ℝ) = 5 / 11 := by rw [length_x]; norm_num
  have e3 : p.tauLength = 1 := by rw [← hp.length, h3]; simp [V3.dot]
  refine ⟨K, hK, by simp [IsTau, V3.dot, q100], by simp [q100], ?_, ?_⟩
  · unfold Near waveVec
    rw [v2k_smul, ← length_eq, ← length_eq, ← length_eq, e1, length_x,
      show (⟨5 / 11, 0, 0⟩ : V3 ℝ) - ⟨1, 0, 0⟩ = ⟨-6 / 11, 0, 0⟩ by apply V3.ext <;> norm_num, length_x]
    have : acrossWidth (1 / 10) |1| ≤ max (alongWidth (1 / 100) |1|) (acrossWidth (1 / 10) |1|) := le_max_right _ _
    refine le_trans ?_ (mul_le_mul_of_nonneg_left this (by norm_num))
    unfold acrossWidth fwhm2rms
    norm_num [abs_of_pos, abs_div, abs_neg]
  · unfold taus
    simp only [v2k_smul, e1, h1, h2, divD_ok (show (1 : ℝ) - 5 * (1 / 100) ≠ 0 by norm_num),
      divD_ok (show K.V0 * (5 / 11) * (5 / 11) ≠ 0 by positivity), Option.bind_eq_bind, Option.bind_some]
    unfold tauLoop
    rw [if_pos (by rw [e3]; norm_num)]

/-- **C136** is false for a spread of lattice spacings above 1/5: the limit of the search is negative and all
reflections are lost, for every neutron. -/
theorem C136_spread_false {a b c : V3 ℝ} {l : List HKL} {mosaic dd : ℝ} {K : Crystal}
    (hK : create a b c l mosaic dd = .ok (some K)) (hd : 1 / 5 < dd) {v : V3 ℝ} (hv : v ≠ 0) :
    taus K.V0 K.dd K.peaks v = some [] := by
  obtain ⟨hV, hdd, hg, -⟩ := create_facts hK
  have hk : 0 < length (v2k • v) := by
    rw [length_smul']
    have := length_pos hv
    have := v2k_pos
    positivity
  unfold taus
  simp only [hdd, divD_ok (show (1 : ℝ) - 5 * dd ≠ 0 by linarith),
    divD_ok (show K.V0 * length (v2k • v) * length (v2k • v) ≠ 0 by positivity), Option.bind_eq_bind, Option.bind_some]
  cases h : K.peaks with
  | nil => rfl
  | cons p ps =>
    have := (hg p (by rw [h]; simp)).1.pos
    have hneg : 2 * length (v2k • v) / (1 - 5 * dd) < 0 := div_neg_of_pos_of_neg (by positivity) (by linarith)
    unfold tauLoop
    rw [if_pos (by linarith)]

example : ∃ K : Crystal,
    create ⟨2 * Real.pi, 0, 0⟩ ⟨0, 2 * Real.pi, 0⟩ ⟨0, 0, 2 * Real.pi⟩ [q100] (1 / 10) (1 / 4) = .ok (some K) ∧
    IsTau ⟨2 * Real.pi, 0, 0⟩ ⟨0, 2 * Real.pi, 0⟩ ⟨0, 0, 2 * Real.pi⟩ q100 ⟨1, 0, 0⟩ ∧
    Near (1 / 10) (1 / 4) (waveVec (k2v • ⟨1 / 2, 0, 0⟩)) ⟨1, 0, 0⟩ := by
  obtain ⟨K, p, hK, -⟩ := cube (1 / 10) (1 / 4) (by norm_num) (by norm_num)
  refine ⟨K, hK, by simp [IsTau, V3.dot, q100], ?_⟩
  unfold Near waveVec
  rw [v2k_smul, ← length_eq, ← length_eq, ← length_eq, length_x,
    show (⟨1 / 2, 0, 0⟩ : V3 ℝ) - ⟨1, 0, 0⟩ = ⟨-1 / 2, 0, 0⟩ by apply V3.ext <;> norm_num, length_x, length_x]
  have : alongWidth (1 / 4) |1| ≤ max (alongWidth (1 / 4) |1|) (acrossWidth (1 / 10) |1|) := le_max_left _ _
  refine le_trans ?_ (mul_le_mul_of_nonneg_left this (by norm_num))
  unfold alongWidth fwhm2rms
  norm_num [abs_of_pos, abs_div, abs_neg]

/-! ### C137 -/

/-- **C137** The results of a kernel do not depend on the neutrons it has seen before. -/
theorem C137_history (K : Crystal) (xs : List Call) : calls K none xs = xs.map (answer K) := calls_fresh xs none trivial

example : ∃ (K : Crystal) (x : Call) (w : Ev ⊕ ℝ), answer K x = some w := by
  obtain ⟨K, t, hK, ht, -⟩ := cube_bragg (mosaic := 1 / 100) (dd := 1 / 100) (by norm_num) (by norm_num) (by norm_num)
  obtain ⟨t', v', -, -, h3⟩ := scatter_eq (ev := { evz with v := k2v • ⟨1 / 2, 0, 0⟩ }) hK (by norm_num) ht (by simp)
    1 (-1) (u := 1 / 2) (by norm_num) (by norm_num)
  exact ⟨K, .scatter (1 / 2) 1 (-1) { evz with v := k2v • ⟨1 / 2, 0, 0⟩ }, _, by
    simp only [answer]
    rw [ht]
    simp only [Option.bind_some]
    rw [h3]
    rfl⟩

end Verif.Bragg
