import Verif.Lemmas.Powder
/-!
Properties of powder diffraction (C37, C98-C100).
-/

namespace Verif.Powder
open Solid Flight Homog Kinem

/-! ### C98: rotation of vectors -/

/-- C98: `rotate` keeps length and projection on the axis for all arguments -/
theorem C98_isometry {v c w : V3 ℝ} {a eps : ℝ} (h : rotate v c a eps = some w) :
    w.dot w = v.dot v ∧ c.dot w = c.dot v := rotate_keeps h

/-- C98: it is defined for vectors that are not zero, and it is the rotation by the angle unless the vector
is so close to the axis that its projection differs from its length by less than the tolerance; then the
vector is left as it is -/
theorem C98_rotation_partial {v c : V3 ℝ} {a eps : ℝ} (h0 : 0 < eps) (hv : v ≠ 0) (hc : c ≠ 0) :
    ∃ w, rotate v c a eps = some w ∧
      (w = rodrigues ((1 / √(c.dot c)) • c) a v ∨
        (w = v ∧ (1 - eps) * √(v.dot v) < |((1 / √(c.dot c)) • c).dot v|)) := by
  obtain ⟨w, h⟩ := rotate_ok h0 hv hc
  refine ⟨w, h, ?_⟩
  obtain ⟨e, he, hl, hw⟩ := rotate_some h
  obtain ⟨_, heq, he1, _⟩ := normalize_some he
  rw [← length_eq c, ← heq]
  rcases hw with hw | ⟨hw, hlt⟩
  · exact .inl hw
  · refine .inr ⟨hw, ?_⟩
    have e1 : length (v.dot e • e) = |e.dot v| := by
      rw [length_eq, show (v.dot e • e).dot (v.dot e • e) = (e.dot v) ^ 2 * e.dot e by
        simp only [V3.dot, V3.smul_x, V3.smul_y, V3.smul_z]; ring, he1, mul_one, Real.sqrt_sq_eq_abs]
    rw [e1] at hlt
    have := (abs_lt.1 hlt).2
    rw [sub_lt_comm, lt_div_iff₀ hl, length_eq] at this
    exact this

/-- the hypotheses of `C98_rotation_partial` can be met, and the result is a rotation there -/
example : ∃ w, rotate ⟨1, 0, 0⟩ ⟨0, 0, 1⟩ (Real.pi / 2) 1e-7 = some w ∧ w = ⟨0, 1, 0⟩ := by
  obtain ⟨w, h, hw⟩ := C98_rotation_partial (v := ⟨1, 0, 0⟩) (c := ⟨0, 0, 1⟩) (a := Real.pi / 2) (eps := 1e-7)
    (by norm_num) (fun h => by simpa using congrArg V3.x h) (fun h => by simpa using congrArg V3.z h)
  refine ⟨w, h, ?_⟩
  rcases hw with rfl | ⟨_, hbad⟩
  · ext <;> simp [rodrigues, V3.dot, V3.cross]
  · norm_num [V3.dot] at hbad

/-- C98: a vector at less than half a thousandth of a radian from the axis is not rotated -/
theorem C98_axis_false : ¬ ∀ (v c : V3 ℝ) (a : ℝ), v ≠ 0 → c.dot c = 1 →
    rotate v c a 1e-7 = some (rodrigues c a v) := by
  intro h
  have hz : (⟨0, 0, 1⟩ : V3 ℝ) ≠ 0 := fun h => by simpa using congrArg V3.z h
  have := h ⟨1, 0, 10000⟩ ⟨0, 0, 1⟩ (Real.pi / 2) (fun h => by simpa using congrArg V3.x h) (by simp [V3.dot])
  obtain ⟨e, he⟩ := normalize_ok hz
  obtain ⟨_, h2, _⟩ := normalize_some he
  have hl1 : length (⟨0, 0, 1⟩ : V3 ℝ) = 1 := by rw [length_eq]; simp [V3.dot]
  have hee : e = ⟨0, 0, 1⟩ := by rw [h2, hl1]; ext <;> simp
  subst hee
  have hlp : length ((10000 : ℝ) • (⟨0, 0, 1⟩ : V3 ℝ)) = 10000 := by
    rw [length_eq]; simp only [V3.dot, V3.smul_x, V3.smul_y, V3.smul_z]
    rw [show (10000 : ℝ) * 0 * (10000 * 0) + 10000 * 0 * (10000 * 0) + 10000 * 1 * (10000 * 1) = 10000 ^ 2 by norm_num]
    exact Real.sqrt_sq (by norm_num)
  have hdot : V3.dot (⟨1, 0, 10000⟩ : V3 ℝ) ⟨0, 0, 1⟩ = 10000 := by simp [V3.dot]
  have hlen : length (⟨1, 0, 10000⟩ : V3 ℝ) = √100000001 := by rw [length_eq]; simp only [V3.dot]; norm_num
  have hs1 : (10000 : ℝ) < √100000001 := Real.lt_sqrt_of_sq_lt (by norm_num)
  have hs2 : √100000001 < (10000.0001 : ℝ) := (Real.sqrt_lt' (by norm_num)).2 (by norm_num)
  unfold rotate at this
  rw [he] at this
  simp only [Option.bind_eq_bind, Option.bind_some, hdot, hlp, hlen] at this
  rw [divD_ok (by linarith), Option.bind_some, if_pos] at this
  · have := congrArg V3.x (Option.some.inj this)
    simp [rodrigues, V3.dot, V3.cross] at this
  · rw [abs_lt]
    constructor
    · have : (10000 : ℝ) / √100000001 < 1 := by rw [div_lt_one (by linarith)]; exact hs1
      linarith
    · have : 1 - 1e-7 < (10000 : ℝ) / √100000001 := by
        rw [lt_div_iff₀ (by linarith)]; nlinarith
      linarith

/-! ### C37: powder diffraction -/

/-- C37: a neutron scattered by a kernel without line widths keeps its energy, and its momentum transfer is
the q of one of the peaks, one that can be reached with its speed -/
theorem C37_peak {d : Data} {dphi u1 u2 u3 dphi' : ℝ} {ev ev' : Ev} (hw : ∀ p ∈ d.peaks, p.width = 0)
    (h : scatter d dphi u1 u2 u3 ev = .ok (ev', dphi')) (hp : 0 < ev'.p) :
    ∃ pk ∈ d.peaks, Reachable √(ev.v.dot ev.v) pk ∧ Transfer ev ev' pk.q 0 ∧ SamePlace ev ev' := by
  unfold scatter at h
  rw [← length_eq]
  split at h
  · simp at h
  · next p0 ps hd =>
    simp only at h
    split at h
    · simp only [Except.ok.injEq, Prod.mk.injEq] at h
      rw [← h.1] at hp; simp only at hp; linarith
    · next h0 =>
      obtain ⟨pk, hpk, hr, hm⟩ := index_get (u := u1) (ps := ps) h0
      rw [hpk] at h
      simp only at h
      rw [hw pk (hd ▸ hm)] at h
      simp only [ne_eq, not_true_eq_false, if_false] at h
      split at h
      · simp only [Except.ok.injEq, Prod.mk.injEq] at h
        rw [← h.1] at hp; simp only at hp; linarith
      · next theta ht =>
        split at h
        · simp only [Except.ok.injEq, Prod.mk.injEq] at h
          rw [← h.1] at hp; simp only at hp; linarith
        · split at h
          · simp only [Except.ok.injEq, Prod.mk.injEq] at h
            rw [← h.1] at hp; simp only at hp; linarith
          · next w hturn =>
            simp only [Except.ok.injEq, Prod.mk.injEq] at h
            obtain ⟨h, _⟩ := h
            subst h
            obtain ⟨k1, k2⟩ := turn_some hturn
            obtain ⟨_, _, _, hs⟩ := asinD_some ht
            have hl : 0 < length ev.v := by
              unfold turn at hturn
              simp only [Option.bind_eq_bind, Option.bind_eq_some_iff] at hturn
              obtain ⟨v1, r1, _⟩ := hturn
              obtain ⟨_, _, hl, _⟩ := rotate_some r1
              exact hl
            refine ⟨pk, hd ▸ hm, hr, ⟨?_, bragg k1 k2 hl hs⟩, rfl, rfl, rfl, rfl⟩
            show energy ev.v - energy w = 0
            simp only [energy]; rw [k1]; ring

/-- C37: the scattering coefficient is the sum over the peaks that can be reached -/
theorem C37_coefficient (d : Data) (ev : Ev) :
    d.coefficient ev = sumReachable √(ev.v.dot ev.v) (fun p => 4 * Real.pi ^ 3 / d.vol *
      ((if p.dw = 0 then 1 else p.dw) * (p.mult * p.F2) / (p.q * (kOf ev.v) ^ 2)) * 100) d.peaks / d.vol := by
  unfold Data.coefficient
  rw [scatteringXs_eq, length_eq]
  congr 1
  set v := √(ev.v.dot ev.v)
  have : ∀ ps : List Peak, sumReachable v d.sv2 ps / (v * v) = sumReachable v (fun p => 4 * Real.pi ^ 3 / d.vol *
      ((if p.dw = 0 then 1 else p.dw) * (p.mult * p.F2) / (p.q * (kOf ev.v) ^ 2)) * 100) ps := by
    intro ps
    induction ps with
    | nil => simp [sumReachable]
    | cons p ps ih =>
      rw [sumReachable_cons, sumReachable_cons, add_div, ih]
      congr 1
      split
      · simp
      · unfold Data.sv2
        have : (if p.dw ≠ 0 then p.dw else 1) = if p.dw = 0 then 1 else p.dw := by
          by_cases hz : p.dw = 0 <;> simp [hz]
        rw [this]
        simp only [kOf]
        change _ = 4 * Real.pi ^ 3 / d.vol * (_ / (p.q * (v2k * v) ^ 2)) * 100
        rw [mul_pow]
        simp only [div_eq_mul_inv, mul_inv]
        ring
  exact this _

/-- C37: on average over the choice of the peak the weight is multiplied by the scattering coefficient,
however many peaks there are, without line widths and focusing -/
theorem C37_mean {d : Data} {u2 u3 : ℝ} {ev : Ev} (hs : construct d = .ok d) (hv : ev.v ≠ 0)
    (hw : ∀ p ∈ d.peaks, p.width = 0 ∧ 0 ≤ p.q) (hF : ∀ p ∈ d.peaks, 0 ≤ ev.p * (d.sv2 p / d.vol))
    (hr : ∃ p ∈ d.peaks, Reachable √(ev.v.dot ev.v) p) :
    mean (fun u1 => weight (scatter d 0 u1 u2 u3 ev)) = ev.p * d.coefficient ev := by
  have hsort : sorted d.peaks = true := by
    unfold construct at hs
    by_contra hn
    rw [if_neg hn] at hs
    simp at hs
  rw [← length_eq] at hr
  have hl := length_pos hv
  unfold Data.coefficient
  rw [scatteringXs_eq]
  rcases hd : d.peaks with _ | ⟨p0, ps⟩
  · rw [hd] at hr; simp at hr
  · have h0 : ¬ length ev.v < p0.qv / 2 := by
      intro hn
      obtain ⟨p, hp, hrp⟩ := hr
      rw [hd] at hp hsort
      exact (reachable_iff _ _).1 hrp (sorted_unreachable hsort hn p hp)
    set v := length ev.v
    set n := countPeaks v ps with hn
    have hcount : countPeaks v (p0 :: ps) = n + 1 := by rw [countPeaks, if_neg h0]
    have hf : ∀ u1, weight (scatter d 0 u1 u2 u3 ev) =
        (fun i => ev.p * (n + 1 : ℕ) / (v * v) / d.vol *
          (match (p0 :: ps)[i]? with | some p => d.sv2 p | none => 0)) (if n + 1 > 1 then randomIndex u1 (n + 1) else 0) := by
      intro u1
      obtain ⟨pk, hpk, hrp, hm⟩ := index_get (u := u1) (ps := ps) h0
      obtain ⟨w, _, he⟩ := scatter_free hd (u2 := u2) (u3 := u3) hv h0 hpk hrp (hw pk (hd ▸ hm)).1
        (hw pk (hd ▸ hm)).2
      rw [he]
      simp only [weight]
      rw [← hn] at hpk
      rw [hpk]
      simp only
      rw [max_eq_left]
      · ring
      · have := hF pk (hd ▸ hm)
        have e : ev.p * (d.sv2 pk / (length ev.v * length ev.v) * ((countPeaks (length ev.v) ps + 1 : ℕ) : ℝ) / d.vol) =
          ev.p * (d.sv2 pk / d.vol) * (((countPeaks (length ev.v) ps + 1 : ℕ) : ℝ) / (length ev.v * length ev.v)) := by
          ring
        rw [e]
        exact mul_nonneg this (by positivity)
    simp only [hf]
    have hidx : ∀ F : Nat → ℝ, mean (fun u1 => F (if n + 1 > 1 then randomIndex u1 (n + 1) else 0)) =
        (∑ i ∈ Finset.range (n + 1), F i) / (n + 1 : ℕ) := by
      intro F
      rcases Nat.eq_zero_or_pos n with hz | hz
      · rw [hz]; simp [mean_const]
      · simp only [if_pos (show n + 1 > 1 by omega)]
        exact mean_index (Nat.succ_pos n) F
    have := hidx (fun i => ev.p * (n + 1 : ℕ) / (v * v) / d.vol *
          (match (p0 :: ps)[i]? with | some p => d.sv2 p | none => 0))
    have hsum : ∑ i ∈ Finset.range (countPeaks v (p0 :: ps)),
        (match (p0 :: ps)[i]? with | some p => d.sv2 p | none => 0) = sumReachable v d.sv2 (p0 :: ps) :=
      sum_counted _ _ (hd ▸ hsort)
    rw [this, ← Finset.mul_sum, ← hcount, hsum]
    have hpos : ((countPeaks v (p0 :: ps) : ℕ) : ℝ) ≠ 0 := by rw [hcount]; positivity
    field_simp

/-- the hypotheses of `C37_peak` and `C37_mean` can be met: two peaks, one of which is reached -/
example : ∃ d : Data, construct d = .ok d ∧ (∀ p ∈ d.peaks, p.width = 0 ∧ 0 ≤ p.q) ∧
    (∀ p ∈ d.peaks, 0 ≤ evz.p * (d.sv2 p / d.vol)) ∧ (∃ p ∈ d.peaks, Reachable √(evz.v.dot evz.v) p) ∧
    (∃ p ∈ d.peaks, ¬ Reachable √(evz.v.dot evz.v) p) ∧ 0 < evz.p * d.coefficient evz ∧
    (∀ u1 u2 u3, ∃ ev' s, scatter d 0 u1 u2 u3 evz = .ok (ev', s) ∧ 0 < ev'.p) := by
  have hl : √(evz.v.dot evz.v) = 1 := by rw [← length_eq]; exact evz_length
  have h1 : Reachable 1 (peakAt 1 0) := by rw [reachable_iff, peakAt_qv]; norm_num
  have h3 : ¬ Reachable 1 (peakAt 3 0) := by rw [reachable_iff, peakAt_qv]; norm_num
  have hp : ∀ x, 0 < x → 0 < (demo [peakAt 1 0, peakAt 3 0]).sv2 (peakAt x 0) := fun x hx => sv2_pos hx _ _
  have h0 : ¬ length evz.v < (peakAt 1 0).qv / 2 := by rw [peakAt_qv, evz_length]; norm_num
  have hc : countPeaks (length evz.v) [peakAt 3 0] = 0 := by
    unfold countPeaks; rw [if_pos]; rw [peakAt_qv, evz_length]; norm_num
  refine ⟨demo [peakAt 1 0, peakAt 3 0], ?_, ?_, ?_, ?_, ?_, ?_, ?_⟩
  · simp only [construct, sorted, demo, peakAt_qv]; norm_num
  · have := v2k_pos
    intro p hp
    simp only [demo, List.mem_cons, List.not_mem_nil, or_false] at hp
    rcases hp with rfl | rfl
    · exact ⟨rfl, by simp only [peakAt]; positivity⟩
    · exact ⟨rfl, by simp only [peakAt]; positivity⟩
  · intro p hm
    show 0 ≤ 1 * (_ / (1 : ℝ))
    rw [one_mul, div_one]
    simp only [demo, List.mem_cons, List.not_mem_nil, or_false] at hm
    rcases hm with rfl | rfl
    · exact (hp _ (by norm_num)).le
    · exact (hp _ (by norm_num)).le
  · exact ⟨peakAt 1 0, by simp [demo], by rw [hl]; exact h1⟩
  · exact ⟨peakAt 3 0, by simp [demo], by rw [hl]; exact h3⟩
  · unfold Data.coefficient
    rw [scatteringXs_eq, evz_length]
    have : sumReachable 1 (demo [peakAt 1 0, peakAt 3 0]).sv2 (demo [peakAt 1 0, peakAt 3 0]).peaks =
        (demo [peakAt 1 0, peakAt 3 0]).sv2 (peakAt 1 0) := by
      show sumReachable 1 _ [peakAt 1 0, peakAt 3 0] = _
      rw [sumReachable_cons, sumReachable_cons, if_neg (by rw [peakAt_qv]; norm_num),
        if_pos (by rw [peakAt_qv]; norm_num)]
      simp [sumReachable]
    rw [this]
    show 0 < 1 * (_ / (1 * 1) / (1 : ℝ))
    have := hp 1 one_pos
    simpa using this
  · intro u1 u2 u3
    obtain ⟨w, _, he⟩ := scatter_free (d := demo [peakAt 1 0, peakAt 3 0]) (p0 := peakAt 1 0) (ps := [peakAt 3 0])
      (u1 := u1) (u2 := u2) (u3 := u3) (ev := evz) (pk := peakAt 1 0) rfl evz_ne h0 (by rw [hc]; rfl)
      (by rw [evz_length]; exact h1) rfl (by simp only [peakAt]; have := v2k_pos; positivity)
    refine ⟨_, _, he, ?_⟩
    rw [hc, evz_length]
    show 0 < 1 * (_ / (1 * 1) * ((0 + 1 : ℕ) : ℝ) / (1 : ℝ))
    have := hp 1 one_pos
    simpa using this

/-- the hypotheses of `C37_slow` can be met -/
example : (demo [peakAt 3 0]).peaks ≠ [] ∧ ∀ p ∈ (demo [peakAt 3 0]).peaks, ¬ Reachable √(evz.v.dot evz.v) p := by
  refine ⟨by simp [demo], fun p hp => ?_⟩
  simp only [demo, List.mem_singleton] at hp
  subst hp
  rw [← length_eq, evz_length, reachable_iff, peakAt_qv]; norm_num

/-- C37: a neutron too slow for the first peak of a sorted list is marked as lost, and its scattering
coefficient is 0 -/
theorem C37_slow {d : Data} {dphi u1 u2 u3 : ℝ} {ev : Ev} (hne : d.peaks ≠ [])
    (hr : ∀ p ∈ d.peaks, ¬ Reachable √(ev.v.dot ev.v) p) :
    scatter d dphi u1 u2 u3 ev = .ok ({ ev with p := -1 }, dphi) ∧ d.coefficient ev = 0 := by
  rw [← length_eq] at hr
  have hall : ∀ p ∈ d.peaks, length ev.v < p.qv / 2 := fun p hp => by
    have := hr p hp
    rw [reachable_iff] at this
    exact not_not.1 this
  constructor
  · unfold scatter
    rcases hd : d.peaks with _ | ⟨p0, ps⟩
    · exact absurd hd hne
    · simp only
      rw [if_pos (hall p0 (hd ▸ List.mem_cons_self))]
  · unfold Data.coefficient
    rw [scatteringXs_eq, sumReachable_zero hall]; simp

/-- C37: without focusing the neutrons scattered before make no difference -/
theorem C37_history_partial (d : Data) (hist : List Shot) (u1 u2 u3 : ℝ) (ev : Ev) :
    scatter d (after d 0 hist) u1 u2 u3 ev = scatter d 0 u1 u2 u3 ev := by
  have hstep : ∀ x : Shot, (match scatter d 0 x.u1 x.u2 x.u3 x.ev with
      | .ok (_, s') => s'
      | .error _ => 0) = 0 := by
    intro x
    split
    · next h => exact scatter_zero h
    · rfl
  have : after d 0 hist = 0 := by
    unfold after
    induction hist with
    | nil => rfl
    | cons x xs ih =>
      rw [List.foldl_cons]
      exact (congrArg (fun z => List.foldl _ z xs) (hstep x)).trans ih
  rw [this]


/-- C37: one neutron for which the acceptance covers the whole cone switches focusing off for all later
ones -/
theorem C37_history_false : ¬ ∀ (d : Data) (dphi : ℝ) (hist : List Shot) (u1 u2 u3 : ℝ) (ev : Ev),
    construct d = .ok d → scatter d (after d dphi hist) u1 u2 u3 ev = scatter d dphi u1 u2 u3 ev := by
  intro h
  have hA : 0 < Real.sin (Real.pi / 24) := Real.sin_pos_of_pos_of_lt_pi (by positivity)
    (by have := Real.pi_pos; linarith)
  have hA2 : Real.sin (Real.pi / 24) < 1 / 2 := by
    refine lt_trans (Real.sin_lt (by positivity)) ?_
    have := Real.pi_le_four; linarith
  have hs2 : √2 / 2 ≤ (1 : ℝ) := by
    have := Real.sq_sqrt (show (0 : ℝ) ≤ 2 by norm_num)
    nlinarith [Real.sqrt_nonneg 2]
  have hs1 : 1 ≤ √2 := by
    have := Real.sq_sqrt (show (0 : ℝ) ≤ 2 by norm_num)
    nlinarith [Real.sqrt_nonneg 2]
  set pA := peakAt (2 * Real.sin (Real.pi / 24)) 0 with hpA
  set pB := peakAt (√2) 0 with hpB
  have hqA : pA.qv = 2 * Real.sin (Real.pi / 24) := peakAt_qv _ _
  have hqB : pB.qv = √2 := peakAt_qv _ _
  have hidx0 : randomIndex (1 / 4) 2 = 0 := randomIndex_eq (by norm_num) (by norm_num) (by norm_num)
  have hidx1 : randomIndex (3 / 4) 2 = 1 := randomIndex_eq (by norm_num) (by norm_num) (by norm_num)
  have hcount : countPeaks (length evz.v) [pB] = 1 := by
    unfold countPeaks; rw [if_neg]; · rfl
    rw [hqB, evz_length]; linarith
  have hfirst : ¬ length evz.v < pA.qv / 2 := by rw [hqA, evz_length]; linarith
  have hasA : asinD (pA.qv / (2 * length evz.v)) = some (Real.pi / 24) := by
    rw [hqA, evz_length, mul_one, mul_div_cancel_left₀ _ (two_ne_zero), asinD_ok (by linarith) (by linarith),
      Real.arcsin_sin (by have := Real.pi_pos; linarith) (by have := Real.pi_pos; linarith)]
  have hasB : asinD (pB.qv / (2 * length evz.v)) = some (Real.pi / 4) := by
    rw [hqB, evz_length, mul_one, asinD_ok (by linarith) hs2, ← Real.sin_pi_div_four,
      Real.arcsin_sin (by have := Real.pi_pos; linarith) (by have := Real.pi_pos; linarith)]
  have h6 : Real.sin (60 * (Real.pi / 180) / 2) = 1 / 2 := by
    rw [show (60 : ℝ) * (Real.pi / 180) / 2 = Real.pi / 6 by ring, Real.sin_pi_div_six]
  have h12 : 0 < Real.sin (Real.pi / 12) := Real.sin_pos_of_pos_of_lt_pi (by positivity)
    (by have := Real.pi_pos; linarith)
  have h12' : Real.sin (Real.pi / 12) < 1 / 2 := by
    refine lt_trans (Real.sin_lt (by positivity)) ?_
    have := Real.pi_le_four; linarith
  have hazA : ∀ u, azimuth 60 (Real.pi / 24) u = some (Real.pi * random u (-1) 1, 0) := by
    intro u
    unfold azimuth
    rw [if_neg (by norm_num), h6, show 2 * (Real.pi / 24) = Real.pi / 12 by ring]
    simp only [divD_ok h12.ne']
    rw [if_pos]
    right
    rw [lt_div_iff₀ h12]; linarith
  have hazB : azimuth 60 (Real.pi / 4) (3 / 4) = some (Real.pi, 60) := by
    unfold azimuth
    rw [if_neg (by norm_num), h6, show 2 * (Real.pi / 4) = Real.pi / 2 by ring, Real.sin_pi_div_two]
    simp only [divD_ok (one_ne_zero (α := ℝ))]
    rw [if_neg (by norm_num), show (1 : ℝ) / 2 / 1 = Real.sin (Real.pi / 6) by rw [Real.sin_pi_div_six]; norm_num,
      Real.arcsin_sin (by have := Real.pi_pos; linarith) (by have := Real.pi_pos; linarith),
      show 2 * (Real.pi / 6) = Real.pi / 3 by ring, abs_of_pos (by positivity), random_eq]
    rw [if_pos (by have := Real.pi_pos; linarith)]
    congr 2; ring
  have haz0 : azimuth 0 (Real.pi / 4) (3 / 4) = some (Real.pi / 2, 0) := by
    unfold azimuth; rw [if_pos rfl, random_eq]; congr 2; ring
  have hget1 : ([pA, pB])[1]? = some pB := rfl
  have hafter : after (demo [pA, pB]) 60 [⟨1 / 4, 0, 0, evz⟩] = 0 := by
    unfold after
    simp only [List.foldl_cons, List.foldl_nil]
    have : ∃ e, scatter (demo [pA, pB]) 60 (1 / 4) 0 0 evz = .ok (e, 0) := by
      unfold scatter
      simp only [demo]
      rw [if_neg hfirst, hcount]
      simp only [show 1 + 1 > 1 from by norm_num, if_true, hidx0, List.getElem?_cons_zero]
      rw [if_neg (by simp [hpA, peakAt]), hasA]
      simp only [hazA]
      split
      · exact ⟨_, rfl⟩
      · exact ⟨_, rfl⟩
    obtain ⟨e, he⟩ := this
    rw [he]
  have hval : ∀ dphi al, azimuth dphi (Real.pi / 4) (3 / 4) = some (al, dphi) → ∃ p,
      scatter (demo [pA, pB]) dphi (3 / 4) 0 (3 / 4) evz =
        .ok ({ evz with v := ⟨Real.cos al, Real.sin al, 0⟩, p := p }, dphi) := by
    intro dphi al haz
    unfold scatter
    simp only [demo]
    rw [if_neg hfirst, hcount]
    simp only [show 1 + 1 > 1 from by norm_num, if_true, hidx1, hget1]
    rw [if_neg (by simp [hpB, peakAt]), hasB]
    simp only [haz]
    have ht := turn_z (s := 1) (theta := Real.pi / 4) (al := al) one_pos (by
      rw [show 2 * (Real.pi / 4) = Real.pi / 2 by ring, Real.cos_pi_div_two]; norm_num)
    rw [show 2 * (Real.pi / 4) = Real.pi / 2 by ring, Real.cos_pi_div_two, Real.sin_pi_div_two] at ht
    simp only [one_mul, mul_zero] at ht
    rw [show evz.v = ⟨0, 0, 1⟩ from rfl, ht]
    exact ⟨_, rfl⟩
  have hcon : construct (demo [pA, pB]) = .ok (demo [pA, pB]) := by
    unfold construct
    rw [if_pos]
    simp only [demo, sorted, Bool.and_true, decide_eq_true_eq]
    rw [hqA, hqB]; linarith
  have := h (demo [pA, pB]) 60 [⟨1 / 4, 0, 0, evz⟩] (3 / 4) 0 (3 / 4) evz hcon
  rw [hafter] at this
  obtain ⟨p1, e1⟩ := hval 0 _ haz0
  obtain ⟨p2, e2⟩ := hval 60 _ hazB
  rw [e1, e2] at this
  simp at this

/-! ### C99: line width -/

/-- C99: on average the weight is multiplied by the scattering coefficient when there are no line widths -/
theorem C99_width_partial {d : Data} {u3 : ℝ} {ev : Ev} (hs : construct d = .ok d) (hv : ev.v ≠ 0)
    (hw : ∀ p ∈ d.peaks, p.width = 0 ∧ 0 ≤ p.q) (hF : ∀ p ∈ d.peaks, 0 ≤ ev.p * (d.sv2 p / d.vol))
    (hr : ∃ p ∈ d.peaks, Reachable √(ev.v.dot ev.v) p) :
    mean2 (fun u1 u2 => weight (scatter d 0 u1 u2 u3 ev)) = ev.p * d.coefficient ev := by
  have key : ∀ u1 u2, weight (scatter d 0 u1 u2 u3 ev) = weight (scatter d 0 u1 0 u3 ev) := by
    intro u1 u2
    unfold scatter
    rcases hd : d.peaks with _ | ⟨p0, ps⟩
    · rfl
    · simp only
      split
      · rfl
      · next h0 =>
        obtain ⟨pk, hpk, _, hm⟩ := index_get (u := u1) (ps := ps) h0
        rw [hpk]
        simp only
        rw [(hw pk (hd ▸ hm)).1]
        simp
  unfold mean2
  have : ∀ u1, mean (fun u2 => weight (scatter d 0 u1 u2 u3 ev)) = weight (scatter d 0 u1 0 u3 ev) := by
    intro u1
    simp only [key u1]
    rw [mean_const]
  simp only [this]
  exact C37_mean hs hv hw hF hr

/-- C99: with line widths it is not: neutrons for which the shifted peak cannot be reached are lost -/
theorem C99_width_false : ¬ ∀ (d : Data) (u3 : ℝ) (ev : Ev), construct d = .ok d → ev.v ≠ 0 →
    (∀ p ∈ d.peaks, 0 ≤ p.width ∧ p.width < 1 ∧ 0 ≤ p.q) → (∀ p ∈ d.peaks, 0 ≤ ev.p * (d.sv2 p / d.vol)) →
    (∃ p ∈ d.peaks, Reachable √(ev.v.dot ev.v) p) →
    mean2 (fun u1 u2 => weight (scatter d 0 u1 u2 u3 ev)) = ev.p * d.coefficient ev := by
  intro h
  set pk := peakAt 2 (1 / 2) with hpk
  have hq : pk.qv = 2 := peakAt_qv _ _
  have hpos : 0 < (demo [pk]).sv2 pk := sv2_pos (by norm_num) _ _
  have hl : √(evz.v.dot evz.v) = 1 := by rw [← length_eq]; exact evz_length
  have hreach : Reachable 1 pk := by
    rw [reachable_iff, hq]; norm_num
  have := h (demo [pk]) 0 evz (by simp [construct, sorted, demo]) evz_ne
    (by
      intro p hp
      simp only [demo, List.mem_singleton] at hp
      subst hp
      refine ⟨by simp [hpk, peakAt], by simp only [hpk, peakAt]; norm_num, ?_⟩
      simp only [hpk, peakAt]
      have := v2k_pos; positivity)
    (by
      intro p hp
      have hp' : p = pk := by simpa [demo] using hp
      subst hp'
      show 0 ≤ 1 * (_ / (1 : ℝ))
      rw [one_mul, div_one]; exact hpos.le)
    ⟨pk, by simp [demo], by rw [hl]; exact hreach⟩
  have hcoef : evz.p * (demo [pk]).coefficient evz = (demo [pk]).sv2 pk := by
    unfold Data.coefficient
    rw [scatteringXs_eq, evz_length]
    have : sumReachable 1 (demo [pk]).sv2 (demo [pk]).peaks = (demo [pk]).sv2 pk := by
      show sumReachable 1 (demo [pk]).sv2 [pk] = _
      rw [sumReachable_cons, if_neg (by rw [hq]; norm_num)]
      simp [sumReachable]
    rw [this]
    show 1 * (_ / (1 * 1) / (1 : ℝ)) = _
    simp
  have hsc : ∀ u1 u2, weight (scatter (demo [pk]) 0 u1 u2 0 evz) =
      match asinD (1 / 2 + u2) with
      | none => 0
      | some _ => (demo [pk]).sv2 pk := by
    intro u1 u2
    unfold scatter
    simp only [demo]
    rw [if_neg (by rw [hq, evz_length]; norm_num)]
    simp only [countPeaks, zero_add, gt_iff_lt, lt_self_iff_false, if_false, List.getElem?_cons_zero]
    rw [if_pos (by simp [hpk, peakAt])]
    have e : pk.qv * (1 + pk.width * random u2 (-1) 1) / (2 * length evz.v) = 1 / 2 + u2 := by
      rw [hq, evz_length, random_eq, show pk.width = 1 / 2 from rfl]; ring
    rw [e]
    split
    · next hn => rw [hn]; simp [weight]
    · next t ht =>
      rw [ht]
      simp only [azimuth, if_true]
      obtain ⟨w, hw⟩ := turn_ok evz_ne t (Real.pi * random 0 (-1) 1)
      rw [hw]
      simp only [weight]
      rw [evz_length, show evz.p = 1 from rfl]
      simp only [Nat.cast_one, mul_one, div_one, one_mul]
      exact max_eq_left hpos.le
  rw [hcoef] at this
  unfold mean2 at this
  have hm : mean (fun u2 => match asinD (1 / 2 + u2) with
      | none => (0 : ℝ)
      | some _ => (demo [pk]).sv2 pk) = (1 / 2 - 0) * (demo [pk]).sv2 pk := by
    apply mean_step le_rfl (by norm_num) (by norm_num)
    · intro u h1 h2; linarith
    · intro u h1 h2; rw [asinD_ok (by linarith) (by linarith)]
    · intro u h1 h2; unfold asinD; rw [if_pos (by right; linarith)]
  simp only [hsc] at this
  rw [hm, mean_const] at this
  linarith

/-! ### C100: focusing -/

/-- C100: a neutron that flies horizontally is scattered into the acceptance -/
theorem C100_acceptance {d : Data} {dphi u1 u2 u3 dphi' : ℝ} {ev ev' : Ev} (hy : ev.v.y = 0)
    (hu : 0 ≤ u3 ∧ u3 ≤ 1) (h : scatter d dphi u1 u2 u3 ev = .ok (ev', dphi')) (hon : dphi' ≠ 0)
    (hp : 0 < ev'.p) :
    |ev'.v.y| ≤ √(ev'.v.dot ev'.v) * |Real.sin (dphi / 2 * (Real.pi / 180))| := by
  unfold scatter at h
  split at h
  · simp at h
  · simp only at h
    split at h
    · simp only [Except.ok.injEq, Prod.mk.injEq] at h
      rw [← h.1] at hp; simp only at hp; linarith
    · split at h
      · simp at h
      · split at h
        · simp only [Except.ok.injEq, Prod.mk.injEq] at h
          rw [← h.1] at hp; simp only at hp; linarith
        · next theta _ =>
          split at h
          · simp only [Except.ok.injEq, Prod.mk.injEq] at h
            rw [← h.1] at hp; simp only at hp; linarith
          · next al dp haz =>
            split at h
            · simp only [Except.ok.injEq, Prod.mk.injEq] at h
              rw [← h.1] at hp; simp only at hp; linarith
            · next w ht =>
              simp only [Except.ok.injEq, Prod.mk.injEq] at h
              obtain ⟨h, hd⟩ := h
              subst h
              subst hd
              have h1 := turn_y hy ht
              have h2 := azimuth_sin hu haz hon
              have hw := (turn_some ht).1
              show |w.y| ≤ √(w.dot w) * _
              rw [hw]
              calc |w.y| ≤ √(ev.v.dot ev.v) * (|Real.sin (2 * theta)| * |Real.sin al|) := h1
                _ ≤ _ := by
                    refine mul_le_mul_of_nonneg_left ?_ (Real.sqrt_nonneg _)
                    rw [show dphi / 2 * (Real.pi / 180) = dphi * (Real.pi / 180) / 2 by ring]
                    exact h2

/-- C100: when the acceptance covers every cone that can be reached, the neutron is the same as without
focusing -/
theorem C100_whole_partial {d : Data} {dphi u1 u2 u3 : ℝ} {ev : Ev} (hv : ev.v ≠ 0)
    (hw : ∀ p ∈ d.peaks, p.width = 0 ∧ 0 ≤ p.q)
    (hc : ∀ p ∈ d.peaks, Reachable √(ev.v.dot ev.v) p → ∀ t, Real.sin t = p.q / (2 * kOf ev.v) →
      |Real.sin (2 * t)| < |Real.sin (dphi / 2 * (Real.pi / 180))|) :
    (scatter d dphi u1 u2 u3 ev).map Prod.fst = (scatter d 0 u1 u2 u3 ev).map Prod.fst := by
  have hl := length_pos hv
  rw [← length_eq] at hc
  unfold scatter
  rcases hd : d.peaks with _ | ⟨p0, ps⟩
  · rfl
  · simp only
    split
    · rfl
    · next h0 =>
      obtain ⟨pk, hpk, hr, hm⟩ := index_get (u := u1) (ps := ps) h0
      rw [hpk]
      simp only
      rw [(hw pk (hd ▸ hm)).1]
      simp only [ne_eq, not_true_eq_false, if_false]
      split
      · rfl
      · next theta ht =>
        obtain ⟨_, _, _, hs⟩ := asinD_some ht
        have hcc := hc pk (hd ▸ hm) hr theta (by
          rw [hs, ← kOf_eq, Peak.qv]
          have e := v2k_mul
          have hv2 := v2k_pos
          rw [div_eq_div_iff (by positivity) (by positivity)]
          linear_combination (2 * pk.q * length ev.v) * e)
        rw [show dphi / 2 * (Real.pi / 180) = dphi * (Real.pi / 180) / 2 by ring] at hcc
        have haz : azimuth dphi theta u3 = some (Real.pi * random u3 (-1) 1, 0) := azimuth_whole hcc
        have haz0 : azimuth 0 theta u3 = some (Real.pi * random u3 (-1) 1, 0) := by simp [azimuth]
        rw [haz, haz0]

/-- the hypotheses of `C100_acceptance` can be met: focusing is on and the neutron goes on -/
example : evz.v.y = 0 ∧ ∃ ev', scatter (demo [peakAt (√2) 0]) 60 0 0 0 evz = .ok (ev', 60) ∧ 0 < ev'.p := by
  refine ⟨rfl, ?_⟩
  have hpi := Real.pi_pos
  have hs2 : √2 / 2 ≤ (1 : ℝ) := by
    have := Real.sq_sqrt (show (0 : ℝ) ≤ 2 by norm_num)
    nlinarith [Real.sqrt_nonneg 2]
  have hs1 : 0 < √2 := Real.sqrt_pos.2 (by norm_num)
  have hpos := sv2_pos hs1 0 [peakAt (√2) 0]
  have hasB : asinD ((peakAt (√2) 0).qv / (2 * length evz.v)) = some (Real.pi / 4) := by
    rw [peakAt_qv, evz_length, mul_one, asinD_ok (by linarith) hs2, ← Real.sin_pi_div_four,
      Real.arcsin_sin (by linarith) (by linarith)]
  have haz : ∃ al, azimuth 60 (Real.pi / 4) 0 = some (al, 60) := by
    unfold azimuth
    rw [if_neg (by norm_num), show (60 : ℝ) * (Real.pi / 180) / 2 = Real.pi / 6 by ring, Real.sin_pi_div_six,
      show 2 * (Real.pi / 4) = Real.pi / 2 by ring, Real.sin_pi_div_two]
    simp only [divD_ok (one_ne_zero (α := ℝ))]
    rw [if_neg (by norm_num)]
    exact ⟨_, rfl⟩
  obtain ⟨al, haz⟩ := haz
  obtain ⟨w, hw⟩ := turn_ok evz_ne (Real.pi / 4) al
  refine ⟨{ evz with v := w, p := (demo [peakAt (√2) 0]).sv2 (peakAt (√2) 0) }, ?_, hpos⟩
  unfold scatter
  simp only [demo]
  rw [if_neg (by rw [peakAt_qv, evz_length]; linarith)]
  simp only [countPeaks, zero_add, gt_iff_lt, lt_self_iff_false, if_false, List.getElem?_cons_zero]
  rw [if_neg (by simp [peakAt]), hasB]
  simp only [haz, hw]
  rw [evz_length, show evz.p = 1 from rfl]
  simp only [Nat.cast_one, mul_one, div_one, one_mul]

/-- the hypotheses of `C100_whole_partial` can be met: a small angle and a large acceptance -/
example : evz.v ≠ 0 ∧ (∀ p ∈ (demo [peakAt (1 / 2) 0]).peaks, p.width = 0 ∧ 0 ≤ p.q) ∧
    ∀ p ∈ (demo [peakAt (1 / 2) 0]).peaks, Reachable √(evz.v.dot evz.v) p →
      ∀ t, Real.sin t = p.q / (2 * kOf evz.v) → |Real.sin (2 * t)| < |Real.sin (180 / 2 * (Real.pi / 180))| := by
  refine ⟨evz_ne, ?_, ?_⟩
  · intro p hp
    simp only [demo, List.mem_singleton] at hp
    subst hp
    exact ⟨rfl, by simp only [peakAt]; have := v2k_pos; positivity⟩
  · intro p hp _ t ht
    simp only [demo, List.mem_singleton] at hp
    subst hp
    have hv := v2k_pos
    have ht' : Real.sin t = 1 / 4 := by
      rw [ht, evz_k]; simp only [peakAt]; field_simp; norm_num
    rw [show (180 : ℝ) / 2 * (Real.pi / 180) = Real.pi / 2 by ring, Real.sin_pi_div_two, abs_one, Real.sin_two_mul,
      ht', abs_mul]
    have := Real.abs_cos_le_one t
    rw [show |(2 : ℝ) * (1 / 4)| = 1 / 2 by norm_num]
    linarith

/-- C100: otherwise the weight within the acceptance is too large: the part of the cone that is covered is
not taken into account -/
theorem C100_weight_false : ¬ ∀ (d : Data) (dphi u1 u2 : ℝ) (ev : Ev), construct d = .ok d →
    (∀ p ∈ d.peaks, p.width = 0) →
    mean (fun u3 => weightWithin (dphi / 2) (scatter d dphi u1 u2 u3 ev)) =
      mean (fun u3 => weightWithin (dphi / 2) (scatter d 0 u1 u2 u3 ev)) := by
  intro h
  have hpi := Real.pi_pos
  have hs2 : √2 / 2 ≤ (1 : ℝ) := by
    have := Real.sq_sqrt (show (0 : ℝ) ≤ 2 by norm_num)
    nlinarith [Real.sqrt_nonneg 2]
  have hs1 : 0 < √2 := Real.sqrt_pos.2 (by norm_num)
  set pB := peakAt (√2) 0 with hpB
  have hqB : pB.qv = √2 := peakAt_qv _ _
  have hpos : 0 < (demo [pB]).sv2 pB := sv2_pos hs1 _ _
  set X := (demo [pB]).sv2 pB
  have hasB : asinD (pB.qv / (2 * length evz.v)) = some (Real.pi / 4) := by
    rw [hqB, evz_length, mul_one, asinD_ok (by linarith) hs2, ← Real.sin_pi_div_four,
      Real.arcsin_sin (by linarith) (by linarith)]
  have h6 : Real.sin (60 / 2 * (Real.pi / 180)) = 1 / 2 := by
    rw [show (60 : ℝ) / 2 * (Real.pi / 180) = Real.pi / 6 by ring, Real.sin_pi_div_six]
  have hval : ∀ dphi al u, azimuth dphi (Real.pi / 4) u = some (al, dphi) →
      weightWithin (60 / 2) (scatter (demo [pB]) dphi 0 0 u evz) = if |Real.sin al| ≤ 1 / 2 then X else 0 := by
    intro dphi al u haz
    have ht := turn_z (s := 1) (theta := Real.pi / 4) (al := al) one_pos (by
      rw [show 2 * (Real.pi / 4) = Real.pi / 2 by ring, Real.cos_pi_div_two]; norm_num)
    rw [show 2 * (Real.pi / 4) = Real.pi / 2 by ring, Real.cos_pi_div_two, Real.sin_pi_div_two] at ht
    simp only [one_mul, mul_zero] at ht
    have hsc : scatter (demo [pB]) dphi 0 0 u evz =
        .ok ({ evz with v := ⟨Real.cos al, Real.sin al, 0⟩, p := X }, dphi) := by
      unfold scatter
      simp only [demo]
      rw [if_neg (by rw [hqB, evz_length]; linarith)]
      simp only [countPeaks, zero_add, gt_iff_lt, lt_self_iff_false, if_false, List.getElem?_cons_zero]
      rw [if_neg (by simp [hpB, peakAt]), hasB]
      simp only [haz]
      rw [evz_length, show evz.v = ⟨0, 0, 1⟩ from rfl, ht, show evz.p = 1 from rfl]
      simp only [Nat.cast_one, mul_one, div_one, one_mul]
      rfl
    rw [hsc]
    simp only [weightWithin]
    have hdot : V3.dot (⟨Real.cos al, Real.sin al, 0⟩ : V3 ℝ) ⟨Real.cos al, Real.sin al, 0⟩ = 1 := by
      simp only [V3.dot]; linear_combination Real.sin_sq_add_cos_sq al
    rw [hdot, h6, Real.sqrt_one, one_mul, max_eq_left hpos.le]
  have := h (demo [pB]) 60 0 0 evz (by simp [construct, sorted, demo]) (by
    intro p hp
    simp only [demo, List.mem_singleton] at hp
    subst hp; rfl)
  have hL : mean (fun u3 => weightWithin (60 / 2) (scatter (demo [pB]) 60 0 0 u3 evz)) = X := by
    rw [← mean_const X]
    apply mean_congr
    intro u hu0 hu1
    have h6' : Real.sin (60 * (Real.pi / 180) / 2) = 1 / 2 := by rw [← h6]; congr 1; ring
    have haz : ∃ al, azimuth 60 (Real.pi / 4) u = some (al, 60) := by
      unfold azimuth
      rw [if_neg (by norm_num), h6', show 2 * (Real.pi / 4) = Real.pi / 2 by ring, Real.sin_pi_div_two]
      simp only [divD_ok (one_ne_zero (α := ℝ))]
      rw [if_neg (by norm_num)]
      exact ⟨_, rfl⟩
    obtain ⟨al, haz⟩ := haz
    rw [hval 60 al u haz, if_pos]
    have := azimuth_sin ⟨hu0.le, hu1.le⟩ haz (by norm_num)
    rw [h6', show 2 * (Real.pi / 4) = Real.pi / 2 by ring, Real.sin_pi_div_two, abs_one, one_mul,
      abs_of_pos (by norm_num : (0 : ℝ) < 1 / 2)] at this
    exact this
  have hR : ∀ u, weightWithin (60 / 2) (scatter (demo [pB]) 0 0 0 u evz) =
      if |Real.sin (Real.pi * (2 * u - 1))| ≤ 1 / 2 then X else 0 := by
    intro u
    rw [hval 0 (Real.pi * (2 * u - 1)) u (by unfold azimuth; rw [if_pos rfl, random_eq]; congr 3; ring)]
  rw [hL] at this
  simp only [hR] at this
  -- on (0, 1/4) and (3/4, 1) at most X; on (1/12, 5/12) nothing
  have hbig : ∀ u, 1 / 12 < u → u < 5 / 12 → 1 / 2 < |Real.sin (Real.pi * (2 * u - 1))| := by
    intro u h1 h2
    have e : Real.sin (Real.pi * (2 * u - 1)) = - Real.sin (2 * Real.pi * u) := by
      rw [show Real.pi * (2 * u - 1) = 2 * Real.pi * u - Real.pi by ring, Real.sin_sub_pi]
    rw [e, abs_neg]
    refine lt_of_lt_of_le ?_ (le_abs_self _)
    rw [show Real.sin (2 * Real.pi * u) = Real.cos (|2 * Real.pi * u - Real.pi / 2|) by
      rw [Real.cos_abs, Real.cos_sub_pi_div_two], ← Real.cos_pi_div_three]
    apply Real.cos_lt_cos_of_nonneg_of_le_pi_div_two (abs_nonneg _) (by linarith)
    rw [abs_lt]; constructor <;> nlinarith
  have hle := mean_gap (f := fun u => if |Real.sin (Real.pi * (2 * u - 1))| ≤ 1 / 2 then X else 0) (c := X)
    (a := 1 / 12) (b := 5 / 12) (by norm_num) (by norm_num) (by norm_num)
    (fun u h1 h2 => by rw [if_neg (not_le.2 (hbig u h1 h2))]) (fun u => by
      split
      · exact ⟨hpos.le, le_rfl⟩
      · exact ⟨le_rfl, hpos.le⟩)
    (by
      have hm : Measurable fun u : ℝ => |Real.sin (Real.pi * (2 * u - 1))| := by fun_prop
      exact Measurable.ite (measurableSet_le hm measurable_const) measurable_const measurable_const)
  rw [← this] at hle
  linarith

end Verif.Powder
