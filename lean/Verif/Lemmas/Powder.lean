import Verif.Spec.Powder
import Verif.Lemmas.Kinem
/-!
Lemmas for powder diffraction.
-/

namespace Verif.Powder
open Solid Flight Homog Kinem

theorem rodrigues_dot {e : V3 ℝ} (he : e.dot e = 1) (a : ℝ) (v : V3 ℝ) :
    (rodrigues e a v).dot (rodrigues e a v) = v.dot v ∧ e.dot (rodrigues e a v) = e.dot v ∧
    v.dot (rodrigues e a v) = Real.cos a * v.dot v + (1 - Real.cos a) * (e.dot v) ^ 2 := by
  have hcs := Real.cos_sq_add_sin_sq a
  simp only [rodrigues]
  set C := Real.cos a
  set S := Real.sin a
  simp only [V3.dot, V3.cross, V3.add_x, V3.add_y, V3.add_z, V3.smul_x, V3.smul_y, V3.smul_z] at *
  set g := e.x * v.x + e.y * v.y + e.z * v.z with hg
  refine ⟨?_, ?_, ?_⟩
  · rw [hg]
    linear_combination (S ^ 2 * (v.x * v.x + v.y * v.y + v.z * v.z) + (1 - C) ^ 2 * (e.x * v.x + e.y * v.y + e.z * v.z) ^ 2) * he +
      ((v.x * v.x + v.y * v.y + v.z * v.z) - (e.x * v.x + e.y * v.y + e.z * v.z) ^ 2) * hcs
  · rw [hg]
    linear_combination ((1 - C) * (e.x * v.x + e.y * v.y + e.z * v.z)) * he
  · rw [hg]; ring

theorem rotate_some {v c w : V3 ℝ} {a eps : ℝ} (h : rotate v c a eps = some w) :
    ∃ e, Kinem.normalize c = some e ∧ 0 < length v ∧
      (w = rodrigues e a v ∨ (w = v ∧ |1 - length (v.dot e • e) / length v| < eps)) := by
  unfold rotate at h
  simp only [Option.bind_eq_bind, Option.bind_eq_some_iff] at h
  obtain ⟨e, he, r, hr, h⟩ := h
  obtain ⟨hv, rfl⟩ := divD_some hr
  refine ⟨e, he, lt_of_le_of_ne (Kinem.length_nonneg _) (Ne.symm hv), ?_⟩
  split at h
  · next hl =>
    simp only [Option.some.injEq] at h
    exact .inr ⟨h.symm, hl⟩
  · left
    simp only [Option.bind_eq_some_iff] at h
    obtain ⟨p, hp, h⟩ := h
    simp only [Option.some.injEq] at h
    obtain ⟨hpos, hpe, hp1, hpl⟩ := normalize_some hp
    set L := length (v - v.dot e • e)
    have hx : L * p.x = v.x - v.dot e * e.x := by
      have := congrArg V3.x hpl; simpa only [V3.smul_x, V3.sub_x] using this
    have hy : L * p.y = v.y - v.dot e * e.y := by
      have := congrArg V3.y hpl; simpa only [V3.smul_y, V3.sub_y] using this
    have hz : L * p.z = v.z - v.dot e * e.z := by
      have := congrArg V3.z hpl; simpa only [V3.smul_z, V3.sub_z] using this
    rw [← h]
    have hd : v.dot e = e.dot v := by simp only [V3.dot]; ring
    unfold rodrigues
    rw [← hd]
    set g := v.dot e
    ext <;> simp only [V3.cross, V3.add_x, V3.add_y, V3.add_z, V3.sub_x, V3.sub_y, V3.sub_z, V3.smul_x,
      V3.smul_y, V3.smul_z]
    · linear_combination Real.cos a * hx - Real.sin a * e.z * hy + Real.sin a * e.y * hz
    · linear_combination Real.cos a * hy - Real.sin a * e.x * hz + Real.sin a * e.z * hx
    · linear_combination Real.cos a * hz - Real.sin a * e.y * hx + Real.sin a * e.x * hy

theorem rotate_ok {v c : V3 ℝ} {a eps : ℝ} (h0 : 0 < eps) (hv : v ≠ 0) (hc : c ≠ 0) :
    ∃ w, rotate v c a eps = some w := by
  obtain ⟨e, he⟩ := normalize_ok hc
  unfold rotate
  simp only [Option.bind_eq_bind, he, Option.bind_some]
  rw [divD_ok (length_pos hv).ne', Option.bind_some]
  split
  · exact ⟨_, rfl⟩
  · next hl =>
    have : v - v.dot e • e ≠ 0 := by
      intro hz
      apply hl
      have : v.dot e • e = v := by
        ext
        · have := congrArg V3.x hz; simp only [V3.sub_x, V3.zero_x] at this; linarith
        · have := congrArg V3.y hz; simp only [V3.sub_y, V3.zero_y] at this; linarith
        · have := congrArg V3.z hz; simp only [V3.sub_z, V3.zero_z] at this; linarith
      rw [this, div_self (length_pos hv).ne', sub_self, abs_zero]
      exact h0
    obtain ⟨p, hp⟩ := normalize_ok this
    rw [hp]
    exact ⟨_, rfl⟩

/-- length and projection are kept in any case -/
theorem rotate_keeps {v c w : V3 ℝ} {a eps : ℝ} (h : rotate v c a eps = some w) :
    w.dot w = v.dot v ∧ c.dot w = c.dot v := by
  obtain ⟨e, he, _, hw⟩ := rotate_some h
  obtain ⟨_, _, he1, hce⟩ := normalize_some he
  have key : w.dot w = v.dot v ∧ e.dot w = e.dot v := by
    rcases hw with rfl | ⟨rfl, _⟩
    · exact ⟨(rodrigues_dot he1 a v).1, (rodrigues_dot he1 a v).2.1⟩
    · exact ⟨rfl, rfl⟩
  refine ⟨key.1, ?_⟩
  have : ∀ x : V3 ℝ, c.dot x = length c * e.dot x := by
    intro x
    conv_lhs => rw [← hce]
    simp only [V3.dot, V3.smul_x, V3.smul_y, V3.smul_z]; ring
  rw [this, this, key.2]

theorem turn_some {v w : V3 ℝ} {theta al : ℝ} (h : turn v theta al = some w) :
    w.dot w = v.dot v ∧ v.dot w = Real.cos (2 * theta) * v.dot v := by
  unfold turn at h
  simp only [Option.bind_eq_bind, Option.bind_eq_some_iff] at h
  set n : V3 ℝ := if |v.x| < |v.z| then ⟨1, 0, 0⟩ else ⟨0, 0, 1⟩
  obtain ⟨v1, h1, h2⟩ := h
  obtain ⟨k1, k2⟩ := rotate_keeps h2
  obtain ⟨e, he, hl, hr⟩ := rotate_some h1
  obtain ⟨hp, heq, he1, _⟩ := normalize_some he
  have hev : e.dot v = 0 := by
    rw [heq]
    simp only [V3.dot, V3.cross, V3.smul_x, V3.smul_y, V3.smul_z]; ring
  have hve : v.dot e = 0 := by rw [← hev]; simp only [V3.dot]; ring
  rcases hr with rfl | ⟨_, hbad⟩
  · obtain ⟨r1, r2, r3⟩ := rodrigues_dot he1 (2 * theta) v
    rw [k1, k2, r1, r3, hev]
    exact ⟨rfl, by ring⟩
  · exfalso
    rw [hve] at hbad
    have : length ((0 : ℝ) • e) = 0 := by rw [length_eq]; simp [V3.dot]
    rw [this, zero_div] at hbad
    norm_num at hbad

theorem turn_ok {v : V3 ℝ} (hv : v ≠ 0) (theta al : ℝ) : ∃ w, turn v theta al = some w := by
  unfold turn
  have hc : V3.cross v (if |v.x| < |v.z| then ⟨1, 0, 0⟩ else ⟨0, 0, 1⟩) ≠ 0 := by
    intro h
    have hx := congrArg V3.x h
    have hy := congrArg V3.y h
    have hz := congrArg V3.z h
    split at hx <;> rename_i hlt <;> simp only [hlt, if_true, if_false, V3.cross, V3.zero_x, V3.zero_y, V3.zero_z] at hx hy hz
    · have : v.z = 0 := by linarith
      rw [this, abs_zero] at hlt
      exact absurd hlt (not_lt.2 (abs_nonneg _))
    · have h1 : v.y = 0 := by linarith
      have h2 : v.x = 0 := by linarith
      apply hlt
      rw [h2, abs_zero]
      apply abs_pos.2
      intro h3
      exact hv (by ext <;> assumption)
  obtain ⟨v1, h1⟩ := rotate_ok (a := 2 * theta) (eps := 1e-7) (by norm_num) hv hc
  have hv1 : v1 ≠ 0 := by
    intro h0
    have := (rotate_keeps h1).1
    have hl := length_pos hv
    have hm := length_mul_self v
    rw [← this, h0] at hm
    simp only [V3.dot, V3.zero_x, V3.zero_y, V3.zero_z, mul_zero, add_zero] at hm
    nlinarith
  obtain ⟨w, h2⟩ := rotate_ok (a := al) (eps := 1e-7) (by norm_num) hv1 hv
  exact ⟨w, by simp only [Option.bind_eq_bind, h1, Option.bind_some, h2]⟩

theorem randomIndex_lt (u : ℝ) {n : Nat} (hn : 0 < n) : randomIndex u n < n := Nat.mod_lt _ hn

theorem randomIndex_eq {u : ℝ} {n i : Nat} (h1 : (i : ℝ) / n < u) (h2 : u < (i + 1 : ℝ) / n) (hi : i < n) :
    randomIndex u n = i := by
  have hn : (0 : ℝ) < n := by exact_mod_cast (Nat.zero_le i).trans_lt hi
  rw [div_lt_iff₀ hn] at h1
  rw [lt_div_iff₀ hn] at h2
  unfold randomIndex random
  have : ⌊u * ((n : ℝ) - 0) + 0⌋₊ = i := by
    rw [sub_zero, add_zero]
    rw [Nat.floor_eq_iff ((Nat.cast_nonneg i).trans h1.le)]
    exact ⟨h1.le, h2⟩
  rw [this, Nat.mod_eq_of_lt hi]

/-- the integer random number is uniform -/
theorem mean_index {n : Nat} (hn : 0 < n) (f : Nat → ℝ) :
    mean (fun u => f (randomIndex u n)) = (∑ i ∈ Finset.range n, f i) / n := by
  have hn' : (0 : ℝ) < n := by exact_mod_cast hn
  have key : ∀ i, i < n → IntervalIntegrable (fun u => f (randomIndex u n)) MeasureTheory.volume
      ((i : ℝ) / n) (((i + 1 : ℕ) : ℝ) / n) ∧
      ∫ u in ((i : ℝ) / n)..(((i + 1 : ℕ) : ℝ) / n), f (randomIndex u n) = f i / n := by
    intro i hi
    have hle : (i : ℝ) / n ≤ ((i + 1 : ℕ) : ℝ) / n := by
      apply div_le_div_of_nonneg_right _ hn'.le
      push_cast; linarith
    have hc : ∀ u, u ∈ Set.Ioo ((i : ℝ) / n) (((i + 1 : ℕ) : ℝ) / n) → f i = f (randomIndex u n) := by
      intro u hu
      rw [randomIndex_eq hu.1 (by simpa using hu.2) hi]
    constructor
    · apply (intervalIntegrable_iff_integrableOn_Ioo_of_le hle).2
      exact ((continuous_const.integrableOn_Icc).mono_set Set.Ioo_subset_Icc_self).congr_fun hc
        measurableSet_Ioo
    · rw [← intervalIntegral.integral_congr_Ioo_of_le hle hc, intervalIntegral.integral_const, smul_eq_mul]
      push_cast; field_simp; ring
  have h := intervalIntegral.sum_integral_adjacent_intervals (n := n) (a := fun i : ℕ => (i : ℝ) / n)
    (f := fun u => f (randomIndex u n)) (fun i hi => (key i hi).1)
  simp only [Nat.cast_zero, zero_div, div_self hn'.ne'] at h
  unfold mean
  rw [← h, Finset.sum_div]
  exact Finset.sum_congr rfl fun i hi => (key i (Finset.mem_range.1 hi)).2

theorem reachable_iff (v : ℝ) (p : Peak) : Reachable v p ↔ ¬ v < p.qv / 2 := by
  unfold Reachable Peak.qv
  have h := v2k_mul
  have hk := k2v_pos
  have hv := v2k_pos
  rw [not_lt]
  constructor
  · intro h1
    have : p.q * k2v ≤ 2 * (v2k * v) * k2v := mul_le_mul_of_nonneg_right h1 hk.le
    have e : 2 * (v2k * v) * k2v = 2 * v := by linear_combination 2 * v * h
    linarith
  · intro h1
    have : v2k * (p.q * k2v / 2) ≤ v2k * v := mul_le_mul_of_nonneg_left h1 hv.le
    have e : v2k * (p.q * k2v / 2) = p.q / 2 := by linear_combination p.q / 2 * h
    linarith

theorem countPeaks_get {v : ℝ} {ps : List Peak} : ∀ {i : Nat}, i < countPeaks v ps →
    ∃ p, ps[i]? = some p ∧ Reachable v p := by
  induction ps with
  | nil => intro i h; simp [countPeaks] at h
  | cons p ps ih =>
    intro i h
    unfold countPeaks at h
    split at h
    · omega
    · next hp =>
      cases i with
      | zero => exact ⟨p, rfl, (reachable_iff v p).2 hp⟩
      | succ i => simpa using ih (i := i) (by omega)

theorem sorted_tail {p : Peak} {ps : List Peak} (h : sorted (p :: ps) = true) : sorted ps = true := by
  cases ps with
  | nil => rfl
  | cons q qs =>
    simp only [sorted, Bool.and_eq_true] at h
    exact h.2

/-- with a sorted list, nothing behind a peak out of reach can be reached -/
theorem sorted_unreachable {v : ℝ} {ps : List Peak} : ∀ {p : Peak}, sorted (p :: ps) = true →
    v < p.qv / 2 → ∀ q ∈ p :: ps, v < q.qv / 2 := by
  induction ps with
  | nil => intro p _ h q hq; simp only [List.mem_singleton] at hq; rw [hq]; exact h
  | cons r rs ih =>
    intro p hs h q hq
    rcases List.mem_cons.1 hq with rfl | hq
    · exact h
    · simp only [sorted, Bool.and_eq_true, decide_eq_true_eq] at hs
      exact ih hs.2 (by linarith [hs.1]) q hq

theorem sumReachable_cons (v : ℝ) (f : Peak → ℝ) (p : Peak) (ps : List Peak) :
    sumReachable v f (p :: ps) = (if v < p.qv / 2 then 0 else f p) + sumReachable v f ps := by
  classical
  unfold sumReachable
  rw [List.filter_cons]
  by_cases h : v < p.qv / 2
  · have : ¬ Reachable v p := fun h' => (reachable_iff v p).1 h' h
    simp [this, h]
  · have : Reachable v p := (reachable_iff v p).2 h
    simp [this, h]

theorem sumReachable_zero {v : ℝ} {f : Peak → ℝ} {ps : List Peak} (h : ∀ q ∈ ps, v < q.qv / 2) :
    sumReachable v f ps = 0 := by
  induction ps with
  | nil => simp [sumReachable]
  | cons p ps ih =>
    rw [sumReachable_cons, if_pos (h p List.mem_cons_self), ih fun q hq => h q (List.mem_cons_of_mem _ hq),
      add_zero]

/-- the peaks counted are those that can be reached -/
theorem sum_counted {v : ℝ} (f : Peak → ℝ) (z : ℝ) {ps : List Peak} (hs : sorted ps = true) :
    ∑ i ∈ Finset.range (countPeaks v ps), (match ps[i]? with | some p => f p | none => z) =
      sumReachable v f ps := by
  induction ps with
  | nil => simp [countPeaks, sumReachable]
  | cons p ps ih =>
    unfold countPeaks
    split
    · next h => rw [sumReachable_zero (sorted_unreachable hs h)]; simp
    · next h =>
      rw [sumReachable_cons, if_neg h, Finset.sum_range_succ', ← ih (sorted_tail hs)]
      simp only [List.getElem?_cons_succ, List.getElem?_cons_zero]
      ring

theorem scatteringXs_eq (d : Data) (v : ℝ) :
    d.scatteringXs v = sumReachable v d.sv2 d.peaks / (v * v) := by
  unfold Data.scatteringXs
  have : ∀ (ps : List Peak) (s : ℝ), ps.foldl (fun s p => if v ≥ p.qv / 2 then s + d.sv2 p else s) s =
      s + sumReachable v d.sv2 ps := by
    intro ps
    induction ps with
    | nil => intro s; simp [sumReachable]
    | cons p ps ih =>
      intro s
      rw [List.foldl_cons, ih, sumReachable_cons]
      by_cases h : v < p.qv / 2
      · rw [if_neg (not_le.2 h), if_pos h, zero_add]
      · rw [if_pos (not_lt.1 h), if_neg h]; ring
  rw [this, zero_add]

theorem asinD_some {x t : ℝ} (h : asinD x = some t) : -1 ≤ x ∧ x ≤ 1 ∧ t = Real.arcsin x ∧ Real.sin t = x := by
  unfold asinD at h
  split at h
  · simp at h
  · next hx =>
    push Not at hx
    simp only [Option.some.injEq] at h
    exact ⟨hx.1, hx.2, h.symm, h ▸ Real.sin_arcsin hx.1 hx.2⟩

theorem asinD_ok {x : ℝ} (h1 : -1 ≤ x) (h2 : x ≤ 1) : asinD x = some (Real.arcsin x) := by
  unfold asinD; rw [if_neg]; push Not; exact ⟨h1, h2⟩

/-- Bragg: the change of wave vector for the angle of a peak -/
theorem bragg {v w : V3 ℝ} {theta q : ℝ} (h1 : w.dot w = v.dot v)
    (h2 : v.dot w = Real.cos (2 * theta) * v.dot v) (hv : 0 < length v)
    (hs : Real.sin theta = q * k2v / (2 * length v)) :
    (wave v - wave w).dot (wave v - wave w) = q ^ 2 := by
  have e : (wave v - wave w).dot (wave v - wave w) = v2k ^ 2 * (v.dot v + w.dot w - 2 * v.dot w) := by
    simp only [wave, V3.dot, V3.sub_x, V3.sub_y, V3.sub_z, V3.smul_x, V3.smul_y, V3.smul_z]; ring
  have hc : Real.cos (2 * theta) = 1 - 2 * Real.sin theta ^ 2 := by
    rw [Real.cos_two_mul]
    have := Real.cos_sq_add_sin_sq theta
    linarith
  rw [e, h1, h2, hc, hs, ← length_mul_self]
  have hk := v2k_mul
  field_simp
  linear_combination (q ^ 2 * (v2k * k2v + 1)) * hk

/-- the outcome without focusing and broadening, for the peak selected -/
theorem scatter_free {d : Data} {p0 : Peak} {ps : List Peak} (hd : d.peaks = p0 :: ps) {u1 u2 u3 : ℝ} {ev : Ev}
    (hv : ev.v ≠ 0) (h0 : ¬ length ev.v < p0.qv / 2) {pk : Peak}
    (hpk : (p0 :: ps)[(if countPeaks (length ev.v) ps + 1 > 1 then
      randomIndex u1 (countPeaks (length ev.v) ps + 1) else 0)]? = some pk) (hr : Reachable (length ev.v) pk)
    (hw : pk.width = 0) (hq : 0 ≤ pk.q) :
    ∃ w, turn ev.v (Real.arcsin (pk.qv / (2 * length ev.v))) (Real.pi * random u3 (-1) 1) = some w ∧
      scatter d 0 u1 u2 u3 ev = .ok ({ ev with
        v := w,
        p := ev.p * (d.sv2 pk / (length ev.v * length ev.v) * ((countPeaks (length ev.v) ps + 1 : ℕ) : ℝ) / d.vol) }, 0) := by
  have hl := length_pos hv
  have hr' := not_lt.1 ((reachable_iff _ _).1 hr)
  have ha : asinD (pk.qv / (2 * length ev.v)) = some (Real.arcsin (pk.qv / (2 * length ev.v))) := by
    apply asinD_ok
    · have : 0 ≤ pk.qv / (2 * length ev.v) := div_nonneg (mul_nonneg hq k2v_pos.le) (by linarith)
      linarith
    · rw [div_le_one (by linarith)]; linarith
  obtain ⟨w, h⟩ := turn_ok hv (Real.arcsin (pk.qv / (2 * length ev.v))) (Real.pi * random u3 (-1) 1)
  refine ⟨w, h, ?_⟩
  unfold scatter
  rw [hd]
  simp only [if_neg h0, hpk, hw, ne_eq, not_true_eq_false, if_false, ha]
  have haz : azimuth 0 (Real.arcsin (pk.qv / (2 * length ev.v))) u3 = some (Real.pi * random u3 (-1) 1, 0) := by
    simp [azimuth]
  simp only [haz, h]

theorem index_lt (u : ℝ) (n : Nat) : (if n + 1 > 1 then randomIndex u (n + 1) else 0) < n + 1 := by
  split
  · exact randomIndex_lt _ (Nat.succ_pos _)
  · omega

theorem index_get {v u : ℝ} {p0 : Peak} {ps : List Peak} (h0 : ¬ v < p0.qv / 2) :
    ∃ pk, (p0 :: ps)[(if countPeaks v ps + 1 > 1 then randomIndex u (countPeaks v ps + 1) else 0)]? = some pk ∧
      Reachable v pk ∧ pk ∈ p0 :: ps := by
  have hlt := index_lt u (countPeaks v ps)
  have : countPeaks v (p0 :: ps) = countPeaks v ps + 1 := by rw [countPeaks, if_neg h0]
  rw [← this] at hlt
  obtain ⟨pk, h1, h2⟩ := countPeaks_get hlt
  exact ⟨pk, by rw [← this]; exact h1, h2, List.mem_of_getElem? h1⟩

/-- without focusing `m_d_phi` stays 0 -/
theorem scatter_zero {d : Data} {u1 u2 u3 s : ℝ} {ev e : Ev} (h : scatter d 0 u1 u2 u3 ev = .ok (e, s)) : s = 0 := by
  have haz : ∀ t u, azimuth 0 t u = some (Real.pi * random u (-1) 1, 0) := fun t u => by simp [azimuth]
  unfold scatter at h
  simp only [haz] at h
  repeat' split at h
  all_goals simp_all

/-- scattering of a neutron along z -/
theorem turn_z {s theta al : ℝ} (hs : 0 < s) (hc : |Real.cos (2 * theta)| ≤ 1 - 1e-7) :
    turn ⟨0, 0, s⟩ theta al = some ⟨s * Real.sin (2 * theta) * Real.cos al, s * Real.sin (2 * theta) * Real.sin al,
      s * Real.cos (2 * theta)⟩ := by
  have hz : (⟨0, 0, s⟩ : V3 ℝ) ≠ 0 := fun h => hs.ne' (congrArg V3.z h)
  have hlz : length (⟨0, 0, s⟩ : V3 ℝ) = s := by
    rw [length_eq]; simp only [V3.dot]; rw [show (0 : ℝ) * 0 + 0 * 0 + s * s = s ^ 2 by ring, Real.sqrt_sq hs.le]
  have hly : length (⟨0, s, 0⟩ : V3 ℝ) = s := by
    rw [length_eq]; simp only [V3.dot]; rw [show (0 : ℝ) * 0 + s * s + 0 * 0 = s ^ 2 by ring, Real.sqrt_sq hs.le]
  have hnz : Kinem.normalize (⟨0, 0, s⟩ : V3 ℝ) = some ⟨0, 0, 1⟩ := by
    obtain ⟨e, he⟩ := normalize_ok hz
    obtain ⟨_, h2, _⟩ := normalize_some he
    rw [he, h2, hlz]; congr 1; ext <;> simp [hs.ne']
  have hy : (⟨0, s, 0⟩ : V3 ℝ) ≠ 0 := fun h => hs.ne' (congrArg V3.y h)
  have hny : Kinem.normalize (⟨0, s, 0⟩ : V3 ℝ) = some ⟨0, 1, 0⟩ := by
    obtain ⟨e, he⟩ := normalize_ok hy
    obtain ⟨_, h2, _⟩ := normalize_some he
    rw [he, h2, hly]; congr 1; ext <;> simp [hs.ne']
  have hax : V3.cross (⟨0, 0, s⟩ : V3 ℝ) (if |(0 : ℝ)| < |s| then ⟨1, 0, 0⟩ else ⟨0, 0, 1⟩) = ⟨0, s, 0⟩ := by
    rw [if_pos (by rw [abs_zero]; exact abs_pos.2 hs.ne')]
    ext <;> simp [V3.cross]
  have r1 : rotate ⟨0, 0, s⟩ ⟨0, s, 0⟩ (2 * theta) 1e-7 =
      some ⟨s * Real.sin (2 * theta), 0, s * Real.cos (2 * theta)⟩ := by
    obtain ⟨w, h⟩ := rotate_ok (v := ⟨0, 0, s⟩) (c := ⟨0, s, 0⟩) (a := 2 * theta) (eps := 1e-7) (by norm_num) hz hy
    obtain ⟨e, he, _, hw⟩ := rotate_some h
    rw [hny] at he
    obtain rfl := Option.some.inj he
    rcases hw with rfl | ⟨_, hbad⟩
    · rw [h]; congr 1; ext <;> simp [rodrigues, V3.dot, V3.cross] <;> ring
    · exfalso
      have : length ((V3.dot ⟨0, 0, s⟩ ⟨0, 1, 0⟩ : ℝ) • (⟨0, 1, 0⟩ : V3 ℝ)) = 0 := by
        rw [length_eq]; simp [V3.dot]
      rw [this] at hbad
      norm_num at hbad
  unfold turn
  simp only [hax, r1, Option.bind_eq_bind, Option.bind_some]
  set a := 2 * theta
  have hcos : 0 ≤ |Real.cos a| := abs_nonneg _
  have hl1 : length (⟨s * Real.sin a, 0, s * Real.cos a⟩ : V3 ℝ) = s := by
    rw [length_eq]; simp only [V3.dot]
    rw [show s * Real.sin a * (s * Real.sin a) + 0 * 0 + s * Real.cos a * (s * Real.cos a) =
      s ^ 2 * (Real.sin a ^ 2 + Real.cos a ^ 2) by ring, Real.sin_sq_add_cos_sq, mul_one, Real.sqrt_sq hs.le]
  have hv1 : (⟨s * Real.sin a, 0, s * Real.cos a⟩ : V3 ℝ) ≠ 0 := by
    intro h; rw [h, length_eq] at hl1; simp [V3.dot] at hl1; exact hs.ne hl1
  obtain ⟨w, h⟩ := rotate_ok (c := ⟨0, 0, s⟩) (a := al) (eps := 1e-7) (by norm_num) hv1 hz
  obtain ⟨e, he, _, hw⟩ := rotate_some h
  rw [hnz] at he
  obtain rfl := Option.some.inj he
  rcases hw with rfl | ⟨_, hbad⟩
  · rw [h]; congr 1; ext <;> simp [rodrigues, V3.dot, V3.cross] <;> ring
  · exfalso
    have : length ((V3.dot ⟨s * Real.sin a, 0, s * Real.cos a⟩ ⟨0, 0, 1⟩ : ℝ) • (⟨0, 0, 1⟩ : V3 ℝ)) = s * |Real.cos a| := by
      rw [length_eq]; simp only [V3.dot, V3.smul_x, V3.smul_y, V3.smul_z]
      rw [show ∀ x y z : ℝ, (x * 0 + 0 * 0 + z * 1) * 0 * ((x * 0 + 0 * 0 + z * 1) * 0) +
        (x * 0 + 0 * 0 + z * 1) * 0 * ((x * 0 + 0 * 0 + z * 1) * 0) +
        (x * 0 + 0 * 0 + z * 1) * 1 * ((x * 0 + 0 * 0 + z * 1) * 1) = z ^ 2 from fun x y z => by ring]
      · rw [Real.sqrt_sq_eq_abs, abs_mul, abs_of_pos hs]
      · exact 0
    rw [this, hl1, mul_div_cancel_left₀ _ hs.ne'] at hbad
    have := (abs_lt.1 hbad).2
    linarith

/-- a peak for the examples, at q = x·v2k -/
noncomputable def peakAt (x w : ℝ) : Peak := ⟨x * v2k, 1, 1, w, 0⟩

/-- data for the examples -/
noncomputable def demo (ps : List Peak) : Data := ⟨ps, 1, 0⟩

theorem peakAt_qv (x w : ℝ) : (peakAt x w).qv = x := by
  simp only [Peak.qv, peakAt]; rw [mul_assoc, v2k_mul, mul_one]

theorem sv2_pos {x : ℝ} (hx : 0 < x) (w : ℝ) (ps : List Peak) : 0 < (demo ps).sv2 (peakAt x w) := by
  have := v2k_pos
  simp only [Data.sv2, demo, peakAt]
  simp only [ne_eq, not_true_eq_false, if_false, Int.cast_one, mul_one, div_one, one_div]
  positivity

theorem azimuth_whole {dphi theta u : ℝ}
    (h : |Real.sin (2 * theta)| < |Real.sin (dphi * (Real.pi / 180) / 2)|) :
    azimuth dphi theta u = some (Real.pi * random u (-1) 1, 0) := by
  unfold azimuth
  split
  · rfl
  · simp only
    set num := Real.sin (dphi * (Real.pi / 180) / 2)
    have hn : num ≠ 0 := fun hz => by rw [hz, abs_zero] at h; exact absurd h (not_lt.2 (abs_nonneg _))
    split
    · rw [if_neg hn]
    · next arg ha =>
      obtain ⟨hd, rfl⟩ := divD_some ha
      rw [if_pos]
      have : 1 < |num / Real.sin (2 * theta)| := by
        rw [abs_div, one_lt_div (abs_pos.2 hd)]; exact h
      rcases lt_abs.1 this with h1 | h1
      · exact .inr h1
      · exact .inl (by linarith)

/-- with focusing the place on the cone is within the acceptance -/
theorem azimuth_sin {dphi theta u al dphi' : ℝ} (hu : 0 ≤ u ∧ u ≤ 1) (h : azimuth dphi theta u = some (al, dphi'))
    (hon : dphi' ≠ 0) :
    |Real.sin (2 * theta)| * |Real.sin al| ≤ |Real.sin (dphi * (Real.pi / 180) / 2)| := by
  unfold azimuth at h
  split at h
  · simp only [Option.some.injEq, Prod.mk.injEq] at h; exact absurd h.2.symm hon
  · simp only at h
    set num := Real.sin (dphi * (Real.pi / 180) / 2)
    split at h
    · split at h
      · simp at h
      · simp only [Option.some.injEq, Prod.mk.injEq] at h; exact absurd h.2.symm hon
    · next arg ha =>
      obtain ⟨hd, rfl⟩ := divD_some ha
      split at h
      · simp only [Option.some.injEq, Prod.mk.injEq] at h; exact absurd h.2.symm hon
      · next hr =>
        push Not at hr
        simp only [Option.some.injEq, Prod.mk.injEq] at h
        obtain ⟨h, _⟩ := h
        rw [random_eq, zero_add, sub_zero, mul_one] at h
        set arg := num / Real.sin (2 * theta) with harg
        set al2 := |2 * Real.arcsin arg| with hal2
        have hal0 : 0 ≤ al2 := abs_nonneg _
        have hpi := Real.pi_pos
        have hb : al2 / 2 = |Real.arcsin arg| := by rw [hal2, abs_mul, abs_two]; ring
        have hle : al2 / 2 ≤ Real.pi / 2 := by
          rw [hb]; exact abs_le.2 ⟨by have := Real.neg_pi_div_two_le_arcsin arg; linarith, Real.arcsin_le_pi_div_two arg⟩
        have hsin : Real.sin (al2 / 2) = |arg| := by
          rw [hb]
          rcases le_or_gt 0 arg with hz | hz
          · rw [abs_of_nonneg (Real.arcsin_nonneg.2 hz), Real.sin_arcsin hr.1 hr.2, abs_of_nonneg hz]
          · rw [abs_of_nonpos (Real.arcsin_nonpos.2 hz.le), Real.sin_neg, Real.sin_arcsin hr.1 hr.2, abs_of_neg hz]
        have key : ∀ t, |t| ≤ al2 / 2 → |Real.sin t| ≤ |arg| := by
          intro t ht
          rw [← hsin]
          obtain ⟨t1, t2⟩ := abs_le.1 ht
          refine abs_le.2 ⟨?_, ?_⟩
          · rw [← Real.sin_neg]
            exact Real.sin_le_sin_of_le_of_le_pi_div_two (by linarith) (by linarith) t1
          · exact Real.sin_le_sin_of_le_of_le_pi_div_two (by linarith) (by linarith) t2
        have hfin : |Real.sin al| ≤ |arg| := by
          split at h
          · next hgt =>
            rw [← h, add_comm, Real.sin_add_pi, abs_neg]
            apply key
            rw [abs_le]
            constructor <;> nlinarith
          · next hgt =>
            rw [← h]
            apply key
            rw [abs_le]
            constructor <;> nlinarith
        calc |Real.sin (2 * theta)| * |Real.sin al| ≤ |Real.sin (2 * theta)| * |arg| :=
              mul_le_mul_of_nonneg_left hfin (abs_nonneg _)
          _ = |num| := by
              rw [← abs_mul, harg, mul_div_assoc', mul_div_cancel_left₀ _ hd]

/-- height on the cone for a neutron that flies horizontally -/
theorem turn_y {v w : V3 ℝ} {theta al : ℝ} (hy : v.y = 0) (h : turn v theta al = some w) :
    |w.y| ≤ √(v.dot v) * (|Real.sin (2 * theta)| * |Real.sin al|) := by
  have hts := (turn_some h).2
  unfold turn at h
  simp only [Option.bind_eq_bind, Option.bind_eq_some_iff] at h
  obtain ⟨v1, r1, r2⟩ := h
  set n : V3 ℝ := if |v.x| < |v.z| then ⟨1, 0, 0⟩ else ⟨0, 0, 1⟩ with hn
  have hny : n.y = 0 := by rw [hn]; split <;> rfl
  obtain ⟨k1, k2⟩ := rotate_keeps r1
  obtain ⟨e, he, hl, hw⟩ := rotate_some r2
  obtain ⟨f, hf, _, hw1⟩ := rotate_some r1
  obtain ⟨hf0, _, hf1, hff⟩ := normalize_some hf
  obtain ⟨hv0, hee, he1, hev⟩ := normalize_some he
  have hrhs : 0 ≤ √(v.dot v) * (|Real.sin (2 * theta)| * |Real.sin al|) := by positivity
  have hcx : (V3.cross v n).x = 0 := by simp [V3.cross, hy, hny]
  have hcz : (V3.cross v n).z = 0 := by simp [V3.cross, hy, hny]
  have hcy : (V3.cross v n).y ≠ 0 := by
    intro hz
    rw [length_eq] at hf0
    simp [V3.dot, hcx, hcz, hz] at hf0
  have hv1 : v1.y = 0 := by
    have : (V3.cross v n).y * v1.y = 0 := by
      simp only [V3.dot, hcx, hcz, hy] at k2
      linear_combination k2
    exact (mul_eq_zero.1 this).resolve_left hcy
  rcases hw with rfl | ⟨rfl, _⟩
  · have hdot : v.dot v1 = Real.cos (2 * theta) * v.dot v := by
      rw [← (rotate_keeps r2).2]; exact hts
    have hey : e.y = 0 := by rw [hee]; simp [hy]
    have hev1 : length v * e.dot v1 = v.dot v1 := by
      conv_rhs => rw [← hev]
      simp only [V3.dot, V3.smul_x, V3.smul_y, V3.smul_z]; ring
    have hll := length_mul_self v
    have hsq : (e.z * v1.x - e.x * v1.z) ^ 2 = (√(v.dot v) * |Real.sin (2 * theta)|) ^ 2 := by
      have h1 : (e.z * v1.x - e.x * v1.z) ^ 2 = e.dot e * v1.dot v1 - (e.dot v1) ^ 2 := by
        simp only [V3.dot, hey, hv1]; ring
      have h2 : (e.dot v1) ^ 2 = Real.cos (2 * theta) ^ 2 * v.dot v := by
        have h3 : (length v * length v) * (e.dot v1) ^ 2 = (length v * length v) * (Real.cos (2 * theta) ^ 2 * v.dot v) := by
          have : (length v * length v) * (e.dot v1) ^ 2 = (length v * e.dot v1) ^ 2 := by ring
          rw [this, hev1, hdot, hll]; ring
        exact mul_left_cancel₀ (mul_pos hv0 hv0).ne' h3
      rw [h1, he1, k1, h2, mul_pow, sq_abs, Real.sq_sqrt (by rw [← hll]; positivity)]
      linear_combination (v.dot v) * (Real.sin_sq_add_cos_sq (2 * theta)).symm
    have habs : |e.z * v1.x - e.x * v1.z| = √(v.dot v) * |Real.sin (2 * theta)| := by
      rw [← abs_of_nonneg (show 0 ≤ √(v.dot v) * |Real.sin (2 * theta)| by positivity)]
      exact (sq_eq_sq_iff_abs_eq_abs _ _).1 hsq
    have hwy : (rodrigues e al v1).y = Real.sin al * (e.z * v1.x - e.x * v1.z) := by
      simp only [rodrigues, V3.add_y, V3.smul_y, V3.cross, hey, hv1]; ring
    rw [hwy, abs_mul, habs]
    linarith
  · rw [hv1, abs_zero]; exact hrhs

/-- the average of a function that is 0 on an interval -/
theorem mean_gap {f : ℝ → ℝ} {a b c : ℝ} (ha : 0 ≤ a) (hab : a ≤ b) (hb : b ≤ 1)
    (h0 : ∀ u, a < u → u < b → f u = 0) (hc : ∀ u, 0 ≤ f u ∧ f u ≤ c) (hm : Measurable f) :
    mean f ≤ (1 - (b - a)) * c := by
  have hint : ∀ x y, IntervalIntegrable f MeasureTheory.volume x y := by
    intro x y
    have : IntervalIntegrable (fun _ : ℝ => c) MeasureTheory.volume x y := intervalIntegrable_const
    refine this.mono_fun hm.aestronglyMeasurable ?_
    refine Filter.Eventually.of_forall fun u => ?_
    show ‖f u‖ ≤ |c|
    rw [Real.norm_eq_abs, abs_of_nonneg (hc u).1, abs_of_nonneg ((hc u).1.trans (hc u).2)]
    exact (hc u).2
  have hup : ∀ x y, x ≤ y → ∫ u in x..y, f u ≤ (y - x) * c := by
    intro x y hxy
    have := intervalIntegral.integral_mono_on hxy (hint x y) intervalIntegrable_const fun u _ => (hc u).2
    rwa [intervalIntegral.integral_const, smul_eq_mul] at this
  have hmid : ∫ u in a..b, f u = 0 := by
    have : ∫ u in a..b, f u = ∫ u in a..b, (0 : ℝ) :=
      intervalIntegral.integral_congr_Ioo_of_le hab fun u hu => h0 u hu.1 hu.2
    rw [this]; simp
  unfold mean
  rw [← intervalIntegral.integral_add_adjacent_intervals (hint 0 a) (hint a 1),
    ← intervalIntegral.integral_add_adjacent_intervals (hint a b) (hint b 1), hmid]
  have := hup 0 a ha
  have := hup b 1 hb
  linarith

end Verif.Powder
