import Verif.Lemmas.McPowderN
import Verif.Props.McStas
import Mathlib.Tactic.NormNum
import Mathlib.Tactic.FieldSimp
/-!
Properties of the powder sample with many lines (C318 - C322).
-/

namespace Verif.McPowderN
open McStas McSample Kinem Solid Homog Flight
open McGuide (K2V V2K)
open Classical

/-! ### C318 -/

/-- C318: a neutron that a line scatters keeps its speed, its place and its time, and the change of its velocity has the length that belongs
to the line, spread by the width of the line -/
theorem C318_bragg {c : Sample} {d_phi l lf ul xi ua d' : ℝ} {e e' : Event ℝ} (hv : e.v ≠ 0) (hn : c.peaks ≠ [])
    (h : c.coherent d_phi (length e.v) l lf e ul xi ua = .ok (e', d')) (ha : e'.p ≠ -1) :
    ∃ pk ∈ c.peaks, length e'.v = length e.v ∧ length (e'.v - e.v) = |pk.qv * (1 + pk.wv * xi)| ∧ e'.r = e.r ∧ e'.t = e.t := by
  have hl := length_pos hv
  have hn' : c.peaks.length ≠ 0 := fun h => hn (List.length_eq_zero_iff.1 h)
  unfold Sample.coherent at h
  rw [if_neg hn'] at h
  dsimp only at h
  generalize (if c.peaks.length > 1 then ⌊(c.peaks.length : ℝ) * ul⌋₊ else 0) = k at h
  cases hk : c.peaks[k]? with
  | none => rw [hk] at h; simp at h
  | some pk =>
    rw [hk] at h
    dsimp only at h
    have hq : (if pk.wv ≠ 0 then pk.qv * (1 + pk.wv * xi) else pk.qv) = pk.qv * (1 + pk.wv * xi) := by
      by_cases h0 : pk.wv = 0
      · rw [if_neg (by simpa using h0), h0]; ring
      · rw [if_pos h0]
    rw [hq, num_div (by positivity : 2 * length e.v ≠ 0)] at h
    simp only [bind, Except.bind] at h
    set a := pk.qv * (1 + pk.wv * xi) / (2 * length e.v) with hadef
    by_cases h1 : |a| > 1
    · rw [if_pos h1] at h
      simp only [Except.ok.injEq, Prod.mk.injEq] at h
      exact absurd (by rw [← h.1]; rfl) ha
    rw [if_neg h1] at h
    cases hcn : cone d_phi (Real.arcsin a) ua with
    | error x => rw [hcn] at h; simp at h
    | ok r =>
      obtain ⟨d1, al, a0⟩ := r
      rw [hcn] at h
      dsimp only at h
      obtain ⟨b1, b2⟩ := braggOut_eq hv (Real.arcsin a) a0
      obtain ⟨b3, b4⟩ := bragg_length b1 b2
      have hs : Real.sin (Real.arcsin a) = a := by
        rw [gt_iff_lt, not_lt, abs_le] at h1
        exact Real.sin_arcsin h1.1 h1.2
      have hfin : 2 * length e.v * |a| = |pk.qv * (1 + pk.wv * xi)| := by
        rw [hadef, abs_div, abs_of_pos (by positivity : 0 < 2 * length e.v)]
        field_simp
      refine ⟨pk, List.mem_of_getElem? hk, ?_⟩
      cases hw : c.way (length e.v) { e with v := braggOut e.v (Real.arcsin a) a0 } with
      | error x => rw [hw] at h; simp at h
      | ok o =>
        rw [hw] at h
        cases o with
        | none =>
          simp only [Except.ok.injEq, Prod.mk.injEq] at h
          exact absurd (by rw [← h.1]; rfl) ha
        | some l1 =>
          dsimp only at h
          cases hd : num (divD (c.peaks.length * lf * (pk.s2 / (length e.v * length e.v)) *
              Real.exp (-(c.my_a_v / length e.v + c.scat (length e.v)) * (l + l1))) (1 - (c.frac + c.tfrac))) with
          | error x => rw [hd] at h; simp at h
          | ok w =>
            rw [hd] at h
            simp only [Except.ok.injEq, Prod.mk.injEq] at h
            rw [← h.1]
            refine ⟨b3, ?_, rfl, rfl⟩
            rw [← hfin, ← hs, ← b4, hs]

/-- C318: for the lines of a table without widths the wavevector changes by the length of the reciprocal lattice vector, up to a part
1e-7 (the constants of the code) -/
theorem C318_wavevector {p : Par} {lines : List Line} {c : Sample} (hc : p.init lines = .ok c) {d_phi l lf ul xi ua d' : ℝ} {e e' : Event ℝ}
    (hv : e.v ≠ 0) (hn : lines ≠ []) (hw : ∀ x ∈ lines, x.w = 0)
    (h : c.coherent d_phi (length e.v) l lf e ul xi ua = .ok (e', d')) (ha : e'.p ≠ -1) :
    ∃ x ∈ lines, abs (V2K * length (e'.v - e.v) - |x.q|) ≤ 1e-7 * |x.q| := by
  obtain ⟨V0, -, hp, -⟩ := init_ok hc
  obtain ⟨pk, hpk, -, h2, -⟩ := C318_bragg hv (by rw [hp]; simpa using hn) h ha
  rw [hp, List.mem_map] at hpk
  obtain ⟨x, hx, rfl⟩ := hpk
  refine ⟨x, hx, ?_⟩
  rw [h2]
  dsimp only
  rw [hw x hx, zero_mul, add_zero, mul_one, abs_mul]
  unfold V2K K2V
  rw [abs_of_pos (by norm_num : (0:ℝ) < 629.719), show (1.58801e-3 * (|x.q| * 629.719) - |x.q| : ℝ) = |x.q| * (1.58801e-3 * 629.719 - 1) by ring, abs_mul, abs_abs]
  have : |(1.58801e-3 * 629.719 - 1 : ℝ)| ≤ 1e-7 := by rw [abs_le]; norm_num
  nlinarith [abs_nonneg x.q]

/-- `C318_bragg` applies: a neutron that is scattered backwards in the box -/
example (xi ua : ℝ) : ∃ e' d', (boxOf (1 / 4) (1 / 4) [⟨1, 2, 0⟩] 1 0 1).coherent 0 (length (⟨0, 0, 1⟩ : V3 ℝ)) 0 1
    ⟨⟨1 / 2, 0, -1 / 2⟩, ⟨0, 0, 1⟩, 0, 0, 0, 1⟩ 0 xi ua = .ok (e', d') ∧ e'.p ≠ -1 := by
  rw [unit_z]
  have hway : (boxOf (1 / 4) (1 / 4) [⟨1, 2, 0⟩] 1 0 1).way 1 ⟨⟨1 / 2, 0, -1 / 2⟩, ⟨0, 0, -1⟩, 0, 0, 0, 1⟩ = .ok (some (1 / 2)) := by
    unfold Sample.way Sample.outer Sample.inner boxOf
    simp only [if_true, box_in.2.2.1, box_in.2.2.2.1, bind, Except.bind]
    unfold Sample.exit Times.clip
    norm_num
  have hcone : cone 0 (Real.arcsin 1) ua = .ok (0, 0, Real.pi * (2 * ua - 1)) := by unfold cone; simp
  unfold Sample.coherent
  rw [if_neg (by simp [boxOf])]
  have hpk : (boxOf (1 / 4) (1 / 4) [⟨1, 2, 0⟩] 1 0 1).peaks = [⟨1, 2, 0⟩] := rfl
  simp only [hpk, List.length_singleton, lt_self_iff_false, gt_iff_lt, if_false, List.getElem?_cons_zero, ne_eq, not_true_eq_false]
  rw [num_div (by norm_num)]
  simp only [bind, Except.bind]
  rw [if_neg (by norm_num), show (2 / (2 * 1) : ℝ) = 1 by norm_num]
  simp only [hcone]
  simp only [Real.arcsin_one, braggOut_back one_ne_zero, hway]
  rw [num_div (by unfold boxOf; norm_num)]
  simp only [not_true_eq_false, if_false]
  refine ⟨_, _, rfl, ?_⟩
  unfold boxOf
  norm_num
  intro h
  have := Real.exp_pos (-((boxOf (1 / 4) (1 / 4) [⟨1, 2, 0⟩] 1 0 1).scat 1) / 2)
  have h2 : ∀ x : ℝ, 0 < Real.exp x := Real.exp_pos
  first
  | linarith [h2 (-1)]
  | (unfold Sample.scat at h; norm_num at h; linarith [h2 (-1)])

/-! ### C319 -/

/-- C319, partial: a neutron that flies along z and is focused keeps the angle with the horizontal plane within half of `d_phi`.
Missing: the neutrons behind it, see `C319_history_false`. -/
theorem C319_band_partial {vz d theta ua d' alpha alpha0 : ℝ} (hz : vz ≠ 0) (h0 : 0 ≤ ua) (h1 : ua ≤ 1)
    (h : cone d theta ua = .ok (d', alpha, alpha0)) (hd : d' ≠ 0) :
    |(braggOut ⟨0, 0, vz⟩ theta alpha0).y| ≤ |vz| * |Real.sin (d * (Real.pi / 180) / 2)| := by
  rw [braggOut_y hz]
  unfold cone at h
  split at h
  swap
  · simp only [Except.ok.injEq, Prod.mk.injEq] at h; exact absurd h.1.symm hd
  set S := Real.sin (d * (Real.pi / 180) / 2)
  by_cases hs : Real.sin (2 * theta) = 0
  · rw [hs]; simp only [abs_zero, mul_zero, zero_mul]; positivity
  rw [divD_ok hs] at h
  dsimp only at h
  split at h
  · simp only [Except.ok.injEq, Prod.mk.injEq] at h; exact absurd h.1.symm hd
  next hr =>
  push Not at hr
  simp only [Except.ok.injEq, Prod.mk.injEq] at h
  obtain ⟨-, ha, ha0⟩ := h
  set A := Real.arcsin (S / Real.sin (2 * theta)) with hA
  have hA2 : |A| ≤ Real.pi / 2 := abs_le.2 ⟨Real.neg_pi_div_two_le_arcsin _, Real.arcsin_le_pi_div_two _⟩
  have hal : alpha = 2 * |A| := by rw [← ha, abs_mul]; norm_num
  rw [abs_mul, abs_of_pos (by norm_num : (0:ℝ) < 2)] at ha0
  have key : ∀ b, |b| ≤ |A| → |Real.sin b| ≤ |S / Real.sin (2 * theta)| := by
    intro b hb
    have e1 : |S / Real.sin (2 * theta)| = Real.sin |A| := by
      rw [← Real.abs_sin_eq_sin_abs_of_abs_le_pi (by linarith [Real.pi_pos]), hA, Real.sin_arcsin hr.1 hr.2]
    rw [e1, Real.abs_sin_eq_sin_abs_of_abs_le_pi (by linarith [Real.pi_pos])]
    exact Real.sin_le_sin_of_le_of_le_pi_div_two (by linarith [abs_nonneg b, Real.pi_pos]) hA2 hb
  have hsin : |Real.sin alpha0| ≤ |S / Real.sin (2 * theta)| := by
    have hnn := abs_nonneg A
    rw [← ha0]
    split
    · next hgt =>
      rw [add_comm, Real.sin_add_pi, abs_neg]
      exact key _ (by rw [abs_le]; constructor <;> nlinarith)
    · next hle =>
      exact key _ (by rw [abs_le]; constructor <;> nlinarith)
  calc |vz| * |Real.sin (2 * theta)| * |Real.sin alpha0| ≤ |vz| * |Real.sin (2 * theta)| * |S / Real.sin (2 * theta)| := by gcongr
    _ = |vz| * |S| := by
      rw [abs_div]
      have := abs_pos.2 hs
      field_simp

/-! ### C320 -/

/-- C320: the cross section of a line is that of a powder for the wavelength of the neutron -/
theorem C320_section {pack V0 Xf v : ℝ} {l : Line} (hv : v ≠ 0) (hV : V0 ≠ 0) (hq : l.q ≠ 0) (hD : l.DW ≠ 0) :
    section2 pack V0 Xf l / (v * v) = pack * l.DW * Xf * powderLine (2 * Real.pi / (V2K * v)) V0 l.q l.j l.F2 := by
  unfold section2 powderLine V2K
  rw [if_pos hD]
  have := Real.pi_ne_zero
  field_simp
  ring

/-- C320, partial: the cross sections of the sample for a neutron of speed `v`, in 1/m.  Missing: that lines which are not possible for the neutron do
not count, see `C320_edge_false`. -/
theorem C320_total_partial {p : Par} {lines : List Line} {c : Sample} (hc : p.init lines = .ok c) {v V0 : ℝ} (hv : v ≠ 0) (hV : p.volume = .ok V0)
    (hl : ∀ l ∈ lines, l.q ≠ 0 ∧ l.DW ≠ 0) :
    c.scat v = p.pack * p.sigma_inc / V0 * 100 +
      (lines.map fun l => p.pack * l.DW * (if p.barns then 100 else 1) * powderLine (2 * Real.pi / (V2K * v)) V0 l.q l.j l.F2).sum ∧
    c.my_a_v / v = p.pack * p.sigma_abs / V0 * 100 * (2200 / v) := by
  have hV0 : V0 ≠ 0 := by
    unfold Par.volume at hV
    dsimp only at hV
    rcases McRotor.ite_or hV with ⟨-, hV⟩ | ⟨h, hV⟩
    · simp at hV
    · rw [Except.ok.injEq] at hV; rw [← hV]; intro h0; exact h h0.le
  obtain ⟨V1, hV1, -, h1, h2, h3⟩ := init_ok hc
  rw [hV, Except.ok.injEq] at hV1
  subst hV1
  refine ⟨?_, by rw [h2]; ring⟩
  unfold Sample.scat
  rw [h1, h3, add_comm]
  congr 1
  clear hc h1
  induction lines with
  | nil => simp
  | cons a t ih =>
    rw [List.map_cons, List.map_cons, List.sum_cons, List.sum_cons, add_div, ih fun l h => hl l (List.mem_cons_of_mem _ h),
      C320_section hv hV0 (hl a List.mem_cons_self).1 (hl a List.mem_cons_self).2]

/-- C320: the fractions of the neutrons that are transmitted and scattered incoherently leave room for the lines, and are kept -/
theorem C320_fractions {p : Par} {lines : List Line} {c : Sample} (hc : p.init lines = .ok c) : c.frac = p.frac ∧ c.tfrac = p.tfrac ∧ p.frac + p.tfrac ≤ 1 := by
  unfold Par.init at hc
  dsimp only at hc
  generalize (if p.h ≠ 0 ∧ p.yheight = 0 then p.h else p.yheight) = y at hc
  generalize (if p.yheight_i = 0 then y else p.yheight_i) = yi at hc
  cases hr : p.rect y with
  | error x => rw [hr] at hc; simp [bind, Except.bind] at hc
  | ok b =>
    rw [hr] at hc
    simp only [bind, Except.bind] at hc
    rcases McRotor.ite_or hc with ⟨-, hc⟩ | ⟨-, hc⟩
    · simp at hc
    rcases McRotor.ite_or hc with ⟨-, hc⟩ | ⟨h, hc⟩
    · simp at hc
    cases hV : p.volume with
    | error x => rw [hV] at hc; simp at hc
    | ok V0 =>
      rw [hV] at hc
      simp only [Except.ok.injEq] at hc
      exact ⟨by rw [← hc], by rw [← hc], not_lt.1 h⟩

/-! ### C319, the weight -/

/-- C319, partial: the mean over the angles that are chosen, with the weight of the focusing, is the integral over those angles of the cone for which
the neutron stays in the band.  Missing: as in `C319_band_partial`. -/
theorem C319_mean_partial {d theta : ℝ} (hd : d ≠ 0) (hs : Real.sin (2 * theta) ≠ 0)
    (hr : |Real.sin (d * (Real.pi / 180) / 2)| ≤ |Real.sin (2 * theta)|) {g : ℝ → ℝ}
    (hg : IntervalIntegrable g MeasureTheory.volume (-Real.pi / 2) (3 * Real.pi / 2)) :
    mean (fun ua => match cone d theta ua with
      | .ok (d', alpha, alpha0) => (if d' ≠ 0 then alpha / Real.pi else 1) * g alpha0
      | .error _ => 0) =
    (∫ b in {b : ℝ | b ∈ Set.Icc (-Real.pi / 2) (3 * Real.pi / 2) ∧ |Real.sin (2 * theta) * Real.sin b| ≤ |Real.sin (d * (Real.pi / 180) / 2)|}, g b) /
      (2 * Real.pi) := by
  have hp := Real.pi_pos
  set S := Real.sin (d * (Real.pi / 180) / 2) with hS
  set T := Real.sin (2 * theta) with hT
  have hTa := abs_pos.2 hs
  have har : |S / T| ≤ 1 := by rw [abs_div]; exact (div_le_one hTa).2 hr
  rw [abs_le] at har
  set A := |Real.arcsin (S / T)| with hA
  have hA0 : 0 ≤ A := abs_nonneg _
  have hA2 : A ≤ Real.pi / 2 := abs_le.2 ⟨Real.neg_pi_div_two_le_arcsin _, Real.arcsin_le_pi_div_two _⟩
  have hsA : Real.sin A = |S| / |T| := by
    rw [hA, ← Real.abs_sin_eq_sin_abs_of_abs_le_pi (by linarith), Real.sin_arcsin har.1 har.2, abs_div]
  have hset : {b : ℝ | b ∈ Set.Icc (-Real.pi / 2) (3 * Real.pi / 2) ∧ |T * Real.sin b| ≤ |S|} = Set.Icc (-A) A ∪ Set.Icc (Real.pi - A) (Real.pi + A) := by
    rw [← band_set hA0 hA2, hsA]
    ext b
    simp only [Set.mem_setOf_eq, abs_mul]
    rw [le_div_iff₀ hTa, mul_comm |T|]
  have hc : ∀ ua, cone d theta ua = .ok (d, 2 * A, if 2 * ua * (2 * A) > 2 * A then Real.pi + (2 * ua * (2 * A) - 1.5 * (2 * A))
      else 2 * ua * (2 * A) - 0.5 * (2 * A)) := by
    intro ua
    unfold cone
    rw [if_pos hd, ← hS, ← hT, divD_ok hs]
    dsimp only
    rw [if_neg (by push Not; exact har), abs_mul, abs_of_pos (by norm_num : (0:ℝ) < 2)]
  have hm : Set.uIcc (-Real.pi / 2) (3 * Real.pi / 2) = Set.Icc (-Real.pi / 2) (3 * Real.pi / 2) := Set.uIcc_of_le (by linarith)
  have g1 : IntervalIntegrable g MeasureTheory.volume (-A) A := hg.mono_set (by
    rw [hm, Set.uIcc_of_le (by linarith)]; exact Set.Icc_subset_Icc (by linarith) (by linarith))
  have g2 : IntervalIntegrable g MeasureTheory.volume (Real.pi - A) (Real.pi + A) := hg.mono_set (by
    rw [hm, Set.uIcc_of_le (by linarith)]; exact Set.Icc_subset_Icc (by linarith) (by linarith))
  have hint : ∫ b in Set.Icc (-A) A ∪ Set.Icc (Real.pi - A) (Real.pi + A), g b = (∫ b in (-A)..A, g b) + ∫ b in (Real.pi - A)..(Real.pi + A), g b := by
    rw [MeasureTheory.setIntegral_union₀, intervalIntegral.integral_of_le (by linarith), intervalIntegral.integral_of_le (by linarith),
      MeasureTheory.integral_Icc_eq_integral_Ioc, MeasureTheory.integral_Icc_eq_integral_Ioc]
    · have hsub : Set.Icc (-A) A ∩ Set.Icc (Real.pi - A) (Real.pi + A) ⊆ {Real.pi / 2} := by
        rintro b ⟨⟨_, h2⟩, h3, _⟩
        simp only [Set.mem_singleton_iff]
        linarith
      exact MeasureTheory.measure_mono_null hsub (MeasureTheory.measure_singleton _)
    · exact measurableSet_Icc.nullMeasurableSet
    · exact (intervalIntegrable_iff_integrableOn_Icc_of_le (by linarith)).1 g1
    · exact (intervalIntegrable_iff_integrableOn_Icc_of_le (by linarith)).1 g2
  rw [hset, hint]
  simp only [hc, if_pos hd]
  rw [mean_mul]
  rcases eq_or_lt_of_le hA0 with h0 | h0
  · rw [← h0]; simp
  have := mean_halves (g := g) (f := fun ua => g (if 2 * ua * (2 * A) > 2 * A then Real.pi + (2 * ua * (2 * A) - 1.5 * (2 * A))
      else 2 * ua * (2 * A) - 0.5 * (2 * A))) (a := -A) (b := 3 * A) (a' := Real.pi - 3 * A) (b' := Real.pi + A)
    (fun u hu0 hu1 => by rw [if_neg (by nlinarith)]; congr 1; ring)
    (fun u hu0 hu1 => by rw [if_pos (by nlinarith)]; congr 1; ring)
    (by rw [show (-A + 3 * A) / 2 = A by ring]; exact g1)
    (by rw [show (Real.pi - 3 * A + (Real.pi + A)) / 2 = Real.pi - A by ring]; exact g2) (by linarith) (by linarith)
  rw [this, show (-A + 3 * A) / 2 = A by ring, show (Real.pi - 3 * A + (Real.pi + A)) / 2 = Real.pi - A by ring,
    show 3 * A - -A = 4 * A by ring, show Real.pi + A - (Real.pi - 3 * A) = 4 * A by ring]
  field_simp
  ring

/-- C319, partial: if the whole cone is within the band, all its angles are chosen alike.  Missing: as in `C319_band_partial`. -/
theorem C319_whole_partial {d theta : ℝ} (hs : Real.sin (2 * theta) ≠ 0) (hr : |Real.sin (2 * theta)| < |Real.sin (d * (Real.pi / 180) / 2)|) (g : ℝ → ℝ) :
    mean (fun ua => match cone d theta ua with
      | .ok (d', alpha, alpha0) => (if d' ≠ 0 then alpha / Real.pi else 1) * g alpha0
      | .error _ => 0) = (∫ b in (-Real.pi)..Real.pi, g b) / (2 * Real.pi) := by
  have hp := Real.pi_pos
  have hc : ∀ ua, cone d theta ua = .ok (0, 0, Real.pi * (2 * ua - 1)) := by
    intro ua
    unfold cone
    split
    · rw [divD_ok hs]
      dsimp only
      rw [if_pos]
      have hTa := abs_pos.2 hs
      have : 1 < |Real.sin (d * (Real.pi / 180) / 2) / Real.sin (2 * theta)| := by
        rw [abs_div, lt_div_iff₀ hTa, one_mul]; exact hr
      rcases lt_abs.1 this with h | h
      · right; exact h
      · left; linarith
    · rfl
  simp only [hc, ne_eq, not_true_eq_false, if_false, one_mul]
  rw [← mean_affine (-Real.pi) Real.pi g, mean_mul]
  rw [show (Real.pi - -Real.pi) = 2 * Real.pi by ring, mul_comm, mul_div_assoc, div_self (by positivity), mul_one]
  congr 1
  funext u
  congr 1
  ring

/-- `C319_band_partial` applies: a cone at right angles and a band of 60 degrees -/
example (ua : ℝ) : ∃ d' al a0, cone 60 (Real.pi / 4) ua = .ok (d', al, a0) ∧ d' ≠ 0 := by
  have h1 : Real.sin (2 * (Real.pi / 4)) = 1 := by rw [show 2 * (Real.pi / 4) = Real.pi / 2 by ring, Real.sin_pi_div_two]
  have h2 : Real.sin (60 * (Real.pi / 180) / 2) = 1 / 2 := by rw [show 60 * (Real.pi / 180) / 2 = Real.pi / 6 by ring, Real.sin_pi_div_six]
  unfold cone
  rw [if_pos (by norm_num), h1, h2, divD_ok one_ne_zero]
  dsimp only
  rw [if_neg (by norm_num)]
  exact ⟨_, _, _, rfl, by norm_num⟩

/-- `C319_mean_partial` and `C319_whole_partial` apply: a cone at right angles and one close to the forward direction with a band of 60 degrees -/
example : Real.sin (2 * (Real.pi / 4)) ≠ 0 ∧ |Real.sin (60 * (Real.pi / 180) / 2)| ≤ |Real.sin (2 * (Real.pi / 4))| ∧
    ∃ t : ℝ, Real.sin (2 * t) ≠ 0 ∧ |Real.sin (2 * t)| < |Real.sin (60 * (Real.pi / 180) / 2)| := by
  have h1 : Real.sin (2 * (Real.pi / 4)) = 1 := by rw [show 2 * (Real.pi / 4) = Real.pi / 2 by ring, Real.sin_pi_div_two]
  have h2 : Real.sin (60 * (Real.pi / 180) / 2) = 1 / 2 := by rw [show 60 * (Real.pi / 180) / 2 = Real.pi / 6 by ring, Real.sin_pi_div_six]
  refine ⟨by rw [h1]; norm_num, by rw [h1, h2]; norm_num, Real.arcsin (1 / 4) / 2, ?_, ?_⟩ <;>
    rw [show 2 * (Real.arcsin (1 / 4) / 2) = Real.arcsin (1 / 4) by ring, Real.sin_arcsin (by norm_num) (by norm_num)]
  · norm_num
  · rw [h2]; norm_num

/-- C319, partial: the readings of the neutrons that are focused have the mean of those that are not, over the angles within the band.  `(b / π + 1) / 2` is the
random number for which a neutron that is not focused gets the angle `b`.  Missing: as in `C319_band_partial`. -/
theorem C319_sample_partial {c : Sample} {d v l lf ul xi : ℝ} {e : Event ℝ} {pk : Peak} (hne : c.peaks.length ≠ 0)
    (hk : c.peaks[if c.peaks.length > 1 then ⌊c.peaks.length * ul⌋₊ else 0]? = some pk) (hv : v ≠ 0)
    (harg : |(if pk.wv ≠ 0 then pk.qv * (1 + pk.wv * xi) else pk.qv) / (2 * v)| ≤ 1)
    (hd : d ≠ 0) (hs : Real.sin (2 * Real.arcsin ((if pk.wv ≠ 0 then pk.qv * (1 + pk.wv * xi) else pk.qv) / (2 * v))) ≠ 0)
    (hr : |Real.sin (d * (Real.pi / 180) / 2)| ≤ |Real.sin (2 * Real.arcsin ((if pk.wv ≠ 0 then pk.qv * (1 + pk.wv * xi) else pk.qv) / (2 * v)))|)
    {g : Event ℝ → ℝ} (hg : ∀ (e : Event ℝ) (q : ℝ), g { e with p := q } = g e)
    (hint : IntervalIntegrable (fun b => reading g (c.coherent 0 v l lf e ul xi ((b / Real.pi + 1) / 2))) MeasureTheory.volume (-Real.pi / 2) (3 * Real.pi / 2)) :
    mean (fun ua => reading g (c.coherent d v l lf e ul xi ua)) =
      (∫ b in {b : ℝ | b ∈ Set.Icc (-Real.pi / 2) (3 * Real.pi / 2) ∧
        |Real.sin (2 * Real.arcsin ((if pk.wv ≠ 0 then pk.qv * (1 + pk.wv * xi) else pk.qv) / (2 * v))) * Real.sin b| ≤ |Real.sin (d * (Real.pi / 180) / 2)|},
        reading g (c.coherent 0 v l lf e ul xi ((b / Real.pi + 1) / 2))) / (2 * Real.pi) := by
  have hp := Real.pi_pos
  have hv2 : 2 * v ≠ 0 := by positivity
  rw [← C319_mean_partial hd hs hr hint]
  apply mean_congr
  intro ua h0 h1
  generalize hx : (if pk.wv ≠ 0 then pk.qv * (1 + pk.wv * xi) else pk.qv) = x at *
  have hun : ∀ d' u d2 alpha alpha0, cone d' (Real.arcsin (x / (2 * v))) u = .ok (d2, alpha, alpha0) → 0 ≤ alpha →
      reading g (c.coherent d' v l lf e ul xi u) = (if d2 ≠ 0 then alpha / Real.pi else 1) * reading g (match c.way v { e with v := braggOut e.v (Real.arcsin (x / (2 * v))) alpha0 } with
        | .error x => .error x
        | .ok none => .ok (absorb { e with v := braggOut e.v (Real.arcsin (x / (2 * v))) alpha0 }, 0)
        | .ok (some l_1) => match num (divD (c.peaks.length * lf * (pk.s2 / (v * v)) * Real.exp (-(c.my_a_v / v + c.scat v) * (l + l_1))) (1 - (c.frac + c.tfrac))) with
          | .error x => .error x
          | .ok w => .ok ({ e with v := braggOut e.v (Real.arcsin (x / (2 * v))) alpha0, p := e.p * w }, 0)) := by
    intro d' u d2 alpha alpha0 hc hal
    unfold Sample.coherent
    rw [if_neg hne]
    dsimp only
    rw [hk]
    simp only [bind, Except.bind, hx]
    rw [num_div hv2]
    dsimp only
    rw [if_neg (not_lt.2 harg), hc]
    dsimp only
    cases c.way v { e with v := braggOut e.v (Real.arcsin (x / (2 * v))) alpha0 } with
    | error _ => simp [reading]
    | ok o =>
      cases o with
      | none => simp [reading, absorb]
      | some l_1 =>
        dsimp only
        cases num (divD (c.peaks.length * lf * (pk.s2 / (v * v)) * Real.exp (-(c.my_a_v / v + c.scat v) * (l + l_1))) (1 - (c.frac + c.tfrac))) with
        | error _ => simp [reading]
        | ok w =>
          have hgv : ∀ q q' : ℝ, g { e with v := braggOut e.v (Real.arcsin (x / (2 * v))) alpha0, p := q } =
              g { e with v := braggOut e.v (Real.arcsin (x / (2 * v))) alpha0, p := q' } := by
            intro q q'
            have := hg { e with v := braggOut e.v (Real.arcsin (x / (2 * v))) alpha0, p := q' } q
            exact this
          dsimp only
          by_cases hd2 : d2 = 0
          · simp [hd2]
          · simp only [reading, ne_eq, hd2, not_false_eq_true, if_true]
            rw [hgv (e.p * (w * (alpha / Real.pi))) (e.p * w)]
            rcases hal.eq_or_lt with h | h
            · rw [← h]; simp
            · have ha : 0 < alpha / Real.pi := by positivity
              by_cases hneg : e.p * w < 0
              · rw [if_pos hneg, if_pos (by rw [← mul_assoc]; exact mul_neg_of_neg_of_pos hneg ha), mul_zero]
              · rw [if_neg hneg, if_neg (by rw [← mul_assoc]; exact not_lt.2 (mul_nonneg (not_lt.1 hneg) ha.le))]
                ring
  have hTa := abs_pos.2 hs
  have har : |Real.sin (d * (Real.pi / 180) / 2) / Real.sin (2 * Real.arcsin (x / (2 * v)))| ≤ 1 := by rw [abs_div]; exact (div_le_one hTa).2 hr
  rw [abs_le] at har
  obtain ⟨al, al0, hc⟩ : ∃ al al0, cone d (Real.arcsin (x / (2 * v))) ua = .ok (d, |al|, al0) := by
    unfold cone
    rw [if_pos hd, divD_ok hs]
    dsimp only
    rw [if_neg (by rintro (h | h) <;> linarith)]
    exact ⟨_, _, rfl⟩
  rw [hun d ua d |al| al0 hc (abs_nonneg _), hc]
  dsimp only
  have h2 : cone 0 (Real.arcsin (x / (2 * v))) ((al0 / Real.pi + 1) / 2) = .ok (0, 0, al0) := by
    unfold cone
    rw [if_neg (by simp)]
    congr 3
    field_simp
    ring
  rw [hun 0 _ 0 0 al0 h2 le_rfl]
  simp

/-- example: a neutron in the middle of a cylinder, a line with a scattering angle of 90 degrees, a band of 10 degrees -/
example : ∃ (c : Sample) (e : Event ℝ) (pk : Peak), c.peaks = [pk] ∧ 0 < e.p ∧ pk.wv = 0 ∧ |pk.qv / (2 * 1)| ≤ 1 ∧
    Real.sin (2 * Real.arcsin (pk.qv / (2 * 1))) = 1 ∧
    (∃ w : ℝ, 0 < w ∧ ∀ᵐ b : ℝ, reading (fun _ => 1) (c.coherent 0 1 0 1 e 0 0 ((b / Real.pi + 1) / 2)) = w) ∧
    IntervalIntegrable (fun b => reading (fun _ => 1) (c.coherent 0 1 0 1 e 0 0 ((b / Real.pi + 1) / 2))) MeasureTheory.volume (-Real.pi / 2) (3 * Real.pi / 2) := by
  have hp := Real.pi_pos
  have harc : Real.arcsin (2 * Real.sin (Real.pi / 4) / (2 * 1)) = Real.pi / 4 := by
    rw [mul_one, mul_div_cancel_left₀ _ two_ne_zero, Real.arcsin_sin (by linarith) (by linarith)]
  have hc : ∀ b : ℝ, Real.cos b ≠ 0 → reading (fun _ => 1) (Sample.coherent ⟨false, 1, 0, 0, 2, 0, 0, 2, 0, false, 1 / 4, 1 / 4, [⟨1, 2 * Real.sin (Real.pi / 4), 0⟩], 0, 0, 0⟩ 0 1 0 1
      ⟨0, ⟨0, 0, 1⟩, 0, 0, 0, 1⟩ 0 0 ((b / Real.pi + 1) / 2)) = 2 := by
    intro b hb
    obtain ⟨V, hV⟩ : ∃ V, V = braggOut ⟨0, 0, 1⟩ (Real.pi / 4) b := ⟨_, rfl⟩
    have hx : V.x ≠ 0 := by
      rw [hV]
      unfold braggOut
      dsimp only
      rw [if_neg (by simp [V3.cross]), show 2 * (Real.pi / 4) = Real.pi / 2 by ring]
      unfold rotate
      simp [V3.cross, V3.dot, hb, McStas.norm]
    have cyl : ∀ R, ∃ o, cylinderIntersect 0 V R 2 = some o ∧ (R = 1 → ∃ q, o = some q) := by
      intro R
      rcases C165_cylinder_partial (p := 0) (v := V) (.inl hx) R (h := 2) (by norm_num) with ⟨h1, h2⟩ | ⟨k1, k2, t0, t1, h1, -⟩
      · exact ⟨_, h1, fun hR => absurd (by rw [hR]; unfold InCylinder; norm_num) (h2 0)⟩
      · exact ⟨_, h1, fun _ => ⟨_, rfl⟩⟩
    obtain ⟨o1, e1, e2⟩ := cyl 1
    obtain ⟨q, rfl⟩ := e2 rfl
    obtain ⟨o0, e0, -⟩ := cyl 0
    have hcone : cone 0 (Real.pi / 4) ((b / Real.pi + 1) / 2) = .ok (0, 0, b) := by
      unfold cone
      rw [if_neg (by simp)]
      congr 3
      field_simp
      ring
    unfold Sample.coherent
    rw [if_neg (by simp)]
    simp only [List.length_singleton, gt_iff_lt, lt_irrefl, if_false, List.getElem?_cons_zero, bind, Except.bind, ne_eq, not_true_eq_false]
    rw [num_div (by norm_num)]
    dsimp only
    rw [harc, if_neg (by rw [mul_one, mul_div_cancel_left₀ _ two_ne_zero]; exact not_lt.2 (Real.abs_sin_le_one _)), hcone]
    dsimp only
    unfold Sample.way Sample.outer Sample.inner
    simp only [← hV, e1, e0, num, bind, Except.bind, Except.map, Option.map, Bool.false_eq_true, if_false]
    norm_num [divD, Sample.scat, reading]
  have hae : ∀ᵐ b : ℝ, reading (fun _ => 1) (Sample.coherent ⟨false, 1, 0, 0, 2, 0, 0, 2, 0, false, 1 / 4, 1 / 4, [⟨1, 2 * Real.sin (Real.pi / 4), 0⟩], 0, 0, 0⟩ 0 1 0 1
      ⟨0, ⟨0, 0, 1⟩, 0, 0, 0, 1⟩ 0 0 ((b / Real.pi + 1) / 2)) = 2 := by
    have hcount : {b : ℝ | Real.cos b = 0}.Countable := by
      apply Set.Countable.mono _ (Set.countable_range fun k : ℤ => (2 * (k : ℝ) + 1) * Real.pi / 2)
      intro b hb
      obtain ⟨k, hk⟩ := Real.cos_eq_zero_iff.1 hb
      exact ⟨k, hk.symm⟩
    filter_upwards [(hcount.ae_notMem MeasureTheory.volume)] with b hb
    exact hc b hb
  refine ⟨_, _, _, rfl, by norm_num, rfl, ?_, ?_, ⟨2, by norm_num, hae⟩, ?_⟩
  · rw [mul_one, mul_div_cancel_left₀ _ two_ne_zero]; exact Real.abs_sin_le_one _
  · dsimp only
    rw [harc, show 2 * (Real.pi / 4) = Real.pi / 2 by ring, Real.sin_pi_div_two]
  · apply IntervalIntegrable.congr_ae (f := fun _ => (2 : ℝ)) intervalIntegrable_const
    filter_upwards [MeasureTheory.ae_restrict_of_ae hae] with b hb
    exact hb.symm

/-- C319 is false for more than one neutron: a neutron of which the whole cone is in the band ends the focusing for all neutrons behind it.
Here the first neutron is scattered backwards; with a band of 10 degrees the next one then goes straight up. -/
theorem C319_history_false : ∃ (c : Sample) (e : Event ℝ), e.v = ⟨0, 0, 1⟩ ∧
    (∀ xi ua u1 u2, ∃ e', c.trace ⟨false, 0⟩ 10 e (1 / 4) (3 / 4) 0 xi ua u1 u2 = .ok (e', 0) ∧ e'.v = ⟨0, 0, -1⟩ ∧ 0 < e'.p) ∧
    ∀ xi ua u2, ∃ e', c.trace ⟨false, 0⟩ 0 e (1 / 4) (3 / 8) 0 xi ua 0 u2 = .ok (e', 0) ∧ e'.v = ⟨0, 1, 0⟩ ∧ 0 < e'.p := by
  obtain ⟨b1, b2, b3, b4, b5, b6⟩ := box_in
  have hsp : √((0:ℝ) * 0 + 0 * 0 + 1 * 1) = 1 := by norm_num
  have hpt : (boxOf (1 / 4) (1 / 4) [⟨1, 2, 0⟩] 1 0 1).point ⟨1, 2, 2, 3⟩ (1 / 4) = 1 / 2 := by
    unfold Sample.point boxOf; norm_num [abs_of_neg]
  have hen : (boxOf (1 / 4) (1 / 4) [⟨1, 2, 0⟩] 1 0 1).enter (1, 3) none = ⟨1, 2, 2, 3⟩ := by
    unfold Sample.enter boxOf Times.clip; norm_num
  have hpr : propDt ⟨false, 0⟩ (1 / 2 + 1) ⟨⟨1 / 2, 0, -2⟩, ⟨0, 0, 1⟩, 0, 0, 0, 1⟩ = ⟨⟨1 / 2, 0, -1 / 2⟩, ⟨0, 0, 1⟩, 0, 0, 3 / 2, 1⟩ := by
    rw [prop_at (by norm_num)]; unfold outAt; ext <;> norm_num
  have hpi := Real.pi_pos
  refine ⟨boxOf (1 / 4) (1 / 4) [⟨1, 2, 0⟩] 1 0 1, ⟨⟨1 / 2, 0, -2⟩, ⟨0, 0, 1⟩, 0, 0, 0, 1⟩, rfl, fun xi ua u1 u2 => ?_, fun xi ua u2 => ?_⟩
  · have hS : Real.sin (10 * (Real.pi / 180) / 2) ≠ 0 := (Real.sin_pos_of_pos_of_lt_pi (by positivity) (by linarith)).ne'
    have hcone : cone 10 (Real.arcsin 1) ua = .ok (0, 0, Real.pi * (2 * ua - 1)) := by
      unfold cone
      rw [if_pos (by norm_num), Real.arcsin_one, show 2 * (Real.pi / 2) = Real.pi by ring, Real.sin_pi]
      simp only [divD, if_true]
      rw [if_neg hS]
    have hway : (boxOf (1 / 4) (1 / 4) [⟨1, 2, 0⟩] 1 0 1).way 1 ⟨⟨1 / 2, 0, -1 / 2⟩, ⟨0, 0, -1⟩, 0, 0, 3 / 2, 1⟩ = .ok (some (1 / 2)) := by
      unfold Sample.way Sample.outer Sample.inner boxOf
      simp only [if_true, b3, b4, bind, Except.bind]
      unfold Sample.exit Times.clip
      norm_num
    unfold Sample.trace
    simp only [hsp]
    have ho : (boxOf (1 / 4) (1 / 4) [⟨1, 2, 0⟩] 1 0 1).outer ⟨1 / 2, 0, -2⟩ ⟨0, 0, 1⟩ = .ok (some (1, 3)) := by
      unfold Sample.outer boxOf; simp only [if_true, b1]
    have hi : (boxOf (1 / 4) (1 / 4) [⟨1, 2, 0⟩] 1 0 1).inner ⟨1 / 2, 0, -2⟩ ⟨0, 0, 1⟩ = .ok none := by
      unfold Sample.inner boxOf; simp only [if_true, b2]
    simp only [ho, hi, bind, Except.bind, hen, hpt]
    rw [if_pos (by norm_num), if_neg (by norm_num), if_neg (by unfold boxOf; norm_num), if_neg (by unfold boxOf; norm_num), hpr]
    unfold Sample.coherent
    rw [if_neg (by simp [boxOf])]
    have hpk : (boxOf (1 / 4) (1 / 4) [⟨1, 2, 0⟩] 1 0 1).peaks = [⟨1, 2, 0⟩] := rfl
    simp only [hpk, List.length_singleton, lt_self_iff_false, gt_iff_lt, if_false, List.getElem?_cons_zero, ne_eq, not_true_eq_false]
    rw [num_div (by norm_num)]
    simp only [bind, Except.bind]
    rw [if_neg (by norm_num), show (2 / (2 * 1) : ℝ) = 1 by norm_num]
    simp only [hcone]
    simp only [Real.arcsin_one, braggOut_back one_ne_zero, hway]
    rw [num_div (by unfold boxOf; norm_num)]
    simp only [not_true_eq_false, if_false]
    refine ⟨_, rfl, rfl, ?_⟩
    unfold boxOf
    norm_num
    positivity
  · have hway : (boxOf (1 / 4) (1 / 4) [⟨1, 2, 0⟩] 1 0 1).way 1 ⟨⟨1 / 2, 0, -1 / 2⟩, ⟨0, 1, 0⟩, 0, 0, 3 / 2, 1⟩ = .ok (some 1) := by
      unfold Sample.way Sample.outer Sample.inner boxOf
      simp only [if_true, b5, b6, bind, Except.bind]
      unfold Sample.exit Times.clip
      norm_num
    unfold Sample.trace
    simp only [hsp]
    have ho : (boxOf (1 / 4) (1 / 4) [⟨1, 2, 0⟩] 1 0 1).outer ⟨1 / 2, 0, -2⟩ ⟨0, 0, 1⟩ = .ok (some (1, 3)) := by
      unfold Sample.outer boxOf; simp only [if_true, b1]
    have hi : (boxOf (1 / 4) (1 / 4) [⟨1, 2, 0⟩] 1 0 1).inner ⟨1 / 2, 0, -2⟩ ⟨0, 0, 1⟩ = .ok none := by
      unfold Sample.inner boxOf; simp only [if_true, b2]
    simp only [ho, hi, bind, Except.bind, hen, hpt]
    rw [if_pos (by norm_num), if_neg (by norm_num), if_neg (by unfold boxOf; norm_num), if_pos (by unfold boxOf; norm_num), hpr]
    unfold Sample.incoherent
    simp only [ne_eq, not_true_eq_false, if_false, circle_up, num, bind, Except.bind]
    have h1 : √((0:ℝ) * 0 + 1 * 1 + 0 * 0) = 1 := by norm_num
    rw [h1, divD_ok one_ne_zero]
    simp only [div_one, mul_one, hway]
    rw [divD_ok (by unfold boxOf; norm_num)]
    refine ⟨_, rfl, rfl, ?_⟩
    unfold boxOf
    norm_num
    positivity

/-- `C320_total_partial` and `C318_wavevector` apply: a box with one line -/
example : ∃ c, Par.init ⟨0, 0, 1, 1, 10, 1, 1, 0.2, 0.1, 1, 1, 0, 0, 0, 0, 0, 0, 0, false, true⟩ [⟨1, 2, 6, 1, 0⟩] = .ok c := by
  unfold Par.init Par.rect Par.volume
  norm_num [bind, Except.bind]

/-! ### C320, the edge -/

/-- C320 is false below the edge: a neutron that is too slow for all lines is attenuated by them, although they cannot scatter it, and
comes out with a fraction of the weight although nothing scatters and nothing absorbs it -/
theorem C320_edge_false : ∃ (c : Sample) (e : Event ℝ), c.my_a_v = 0 ∧ c.my_inc = 0 ∧ (∀ pk ∈ c.peaks, 2 * length e.v < pk.qv ∧ pk.wv = 0) ∧ e.p = 1 ∧
    ∀ d_phi ud ul xi ua u1 u2, mean (fun ut => reading (fun _ => 1) (c.trace ⟨false, 0⟩ d_phi e ud ut ul xi ua u1 u2)) = Real.exp (-2) := by
  obtain ⟨b1, b2, b3, b4, b5, b6⟩ := box_in
  have hsp : √((0:ℝ) * 0 + 0 * 0 + 1 * 1) = 1 := by norm_num
  refine ⟨boxOf 0 (1 / 2) [⟨1, 3, 0⟩] 1 0 0, ⟨⟨1 / 2, 0, -2⟩, ⟨0, 0, 1⟩, 0, 0, 0, 1⟩, rfl, rfl, ?_, rfl, fun d_phi ud ul xi ua u1 u2 => ?_⟩
  · intro pk hpk
    simp only [boxOf, List.mem_singleton] at hpk
    subst hpk
    dsimp only
    rw [unit_z]; norm_num
  have hen : (boxOf 0 (1 / 2) [⟨1, 3, 0⟩] 1 0 0).enter (1, 3) none = ⟨1, 2, 2, 3⟩ := by
    unfold Sample.enter boxOf Times.clip; norm_num
  have ho : (boxOf 0 (1 / 2) [⟨1, 3, 0⟩] 1 0 0).outer ⟨1 / 2, 0, -2⟩ ⟨0, 0, 1⟩ = .ok (some (1, 3)) := by
    unfold Sample.outer boxOf; simp only [if_true, b1]
  have hi : (boxOf 0 (1 / 2) [⟨1, 3, 0⟩] 1 0 0).inner ⟨1 / 2, 0, -2⟩ ⟨0, 0, 1⟩ = .ok none := by
    unfold Sample.inner boxOf; simp only [if_true, b2]
  rw [mean_three (a := 1 / 2) (b := 1 / 2) (A := Real.exp (-2) * 2) (B := 0) (C := 0) (by norm_num) le_rfl (by norm_num)]
  · ring
  · intro u h0 h1
    unfold Sample.trace
    simp only [hsp, ho, hi, bind, Except.bind, hen]
    rw [if_pos (by norm_num), if_neg (by norm_num), if_pos (by unfold boxOf; exact h1), num_div (by unfold boxOf; norm_num)]
    rw [prop_at (by norm_num)]
    unfold reading outAt Sample.scat boxOf
    norm_num
    rw [if_neg (by push Not; positivity)]
    ring
  · intro u h0 h1; linarith
  · intro u h0 h1
    unfold Sample.trace
    simp only [hsp, ho, hi, bind, Except.bind, hen]
    rw [if_pos (by norm_num), if_neg (by norm_num), if_neg (by unfold boxOf; simp only; linarith), if_neg (by unfold boxOf; simp only; linarith)]
    unfold Sample.coherent
    rw [if_neg (by simp [boxOf])]
    have hpk : (boxOf 0 (1 / 2) [⟨1, 3, 0⟩] 1 0 0).peaks = [⟨1, 3, 0⟩] := rfl
    simp only [hpk, List.length_singleton, lt_self_iff_false, gt_iff_lt, if_false, List.getElem?_cons_zero, ne_eq, not_true_eq_false]
    rw [num_div (by norm_num)]
    simp only [bind, Except.bind]
    rw [if_pos (by norm_num)]
    unfold reading absorb
    norm_num

/-! ### C321 -/

/-- C321, partial: for a neutron that comes from outside and hits a sample without a hollow, the mean of any reading over the choice of the kind, of the line and of
the point is what a single scattering gives: the transmitted neutrons, the incoherent ones from all points of the flight path and the
coherent ones of each line that is possible.  `d` is the direction of the incoherent neutrons, `li` and `lk` the ways to the exit.
Missing: a hollow, see `C321_hollow_false` and `C321_start_false`; no lines, see `C321_nolines_false`; the focusing (its weight is that of `C319_mean_partial`) and
gravity. -/
theorem C321_partial {c : Sample} {e : Event ℝ} {t0 t3 : ℝ} (hc : c.concentric = false) (ho : c.outer e.r e.v = .ok (some (t0, t3)))
    (hi : c.inner e.r e.v = .ok none) (h0 : 0 ≤ t0) (h3 : t0 < t3) (hv : e.v ≠ 0) (hp : 0 ≤ e.p)
    (hT : 0 < c.tfrac) (hF : 0 < c.frac) (h1 : c.frac + c.tfrac < 1) (hn : c.peaks ≠ []) (hs : ∀ pk ∈ c.peaks, 0 ≤ pk.s2) (hinc : 0 ≤ c.my_inc)
    {g : Event ℝ → ℝ} (hg : ∀ e' p, g { e' with p := p } = g e')
    {xi ua u1 u2 : ℝ} {d : V3 ℝ} (hd : targetCircle ⟨0, 0, 1⟩ 0 u1 u2 = some (d, 4 * Real.pi)) (hd1 : length d = 1) {li : ℝ → ℝ} {lk : ℕ → ℝ → ℝ}
    {th : Peak → ℝ} (hth : ∀ pk, th pk = Real.arcsin (pk.qv * (1 + pk.wv * xi) / (2 * length e.v)))
    (hli : ∀ x, 0 < x → x < t3 - t0 → c.way (length e.v) (outAt e (t0 + x) (length e.v • d) e.p) = .ok (some (li x)))
    (hlk : ∀ k pk, c.peaks[k]? = some pk → |pk.qv * (1 + pk.wv * xi)| ≤ 2 * length e.v → ∀ x, 0 < x → x < t3 - t0 →
      c.way (length e.v) (outAt e (t0 + x) (braggOut e.v (th pk) (Real.pi * (2 * ua - 1))) e.p) = .ok (some (lk k x)))
    {S : ℝ} (hS : S = c.my_a_v / length e.v + c.scat (length e.v)) {I : ℝ → ℝ}
    (hI : ∀ x, I x = c.my_inc * Real.exp (-S * (length e.v * x + li x)) * g (outAt e (t0 + x) (length e.v • d) e.p)) {C : ℕ → Peak → ℝ → ℝ}
    (hC : ∀ k pk x, C k pk x = pk.s2 / (length e.v * length e.v) * Real.exp (-S * (length e.v * x + lk k x)) *
      g (outAt e (t0 + x) (braggOut e.v (th pk) (Real.pi * (2 * ua - 1))) e.p))
    (hIi : IntervalIntegrable I MeasureTheory.volume 0 (t3 - t0))
    (hCi : ∀ k pk, c.peaks[k]? = some pk → IntervalIntegrable (C k pk) MeasureTheory.volume 0 (t3 - t0)) :
    mean (fun ut => mean fun ul => mean fun ud => reading g (c.trace ⟨false, 0⟩ 0 e ud ut ul xi ua u1 u2)) =
      e.p * Real.exp (-S * (length e.v * (t3 - t0))) * g (outAt e t3 e.v e.p) +
      e.p * (∫ x in (0:ℝ)..(t3 - t0), length e.v * I x) +
      e.p * ∑ k ∈ Finset.range c.peaks.length, (match c.peaks[k]? with
        | some pk => if |pk.qv * (1 + pk.wv * xi)| ≤ 2 * length e.v then ∫ x in (0:ℝ)..(t3 - t0), length e.v * C k pk x else 0
        | none => 0) := by
  have hl := length_pos hv
  set v := length e.v with hvdef
  have hn0 : 0 < c.peaks.length := List.length_pos_iff.2 hn
  have hnr : (0:ℝ) < c.peaks.length := by exact_mod_cast hn0
  have hD : 0 < t3 - t0 := by linarith
  have hen : c.enter (t0, t3) none = ⟨t0, (t3 + t0) / 2, (t3 + t0) / 2, t3⟩ := by
    unfold Sample.enter Times.clip
    rw [hc]
    simp only [Bool.false_eq_true, if_false]
    rw [if_neg (by linarith), if_neg (by linarith)]
  have hfull : v * (t3 - (t3 + t0) / 2 + (t3 + t0) / 2 - t0) = v * (t3 - t0) := by ring
  have htr : ∀ ud ut ul, c.trace ⟨false, 0⟩ 0 e ud ut ul xi ua u1 u2 =
      if ut < c.tfrac then (.ok ({ outAt e t3 e.v e.p with p := e.p * (Real.exp (-S * (v * (t3 - t0))) / c.tfrac) }, 0))
      else if ut < c.tfrac + c.frac then
        (c.incoherent 0 v (v * c.point ⟨t0, (t3 + t0) / 2, (t3 + t0) / 2, t3⟩ ud) (v * (t3 - t0))
          (propDt ⟨false, 0⟩ (c.point ⟨t0, (t3 + t0) / 2, (t3 + t0) / 2, t3⟩ ud + t0) e) u1 u2).map fun e => (e, 0)
      else c.coherent 0 v (v * c.point ⟨t0, (t3 + t0) / 2, (t3 + t0) / 2, t3⟩ ud) (v * (t3 - t0))
          (propDt ⟨false, 0⟩ (c.point ⟨t0, (t3 + t0) / 2, (t3 + t0) / 2, t3⟩ ud + t0) e) ul xi ua := by
    intro ud ut ul
    unfold Sample.trace
    simp only [ho, hi, bind, Except.bind, hen, speed_eq, ← hvdef, hfull]
    rw [if_pos (by linarith), if_neg (by linarith), prop_at (by linarith), num_div hT.ne', ← hS]
    split
    · rfl
    split
    · unfold Except.map; rfl
    · rfl
  have hpt1 : ∀ u, 0 < u → u < 1 / 2 → c.point ⟨t0, (t3 + t0) / 2, (t3 + t0) / 2, t3⟩ u = (1 - 2 * u) * ((t3 - t0) / 2) := by
    intro u hu0 hu1
    unfold Sample.point
    rw [hc]
    simp only [Bool.false_eq_true, if_false]
    rw [if_pos (by linarith), abs_of_neg (by linarith)]
    ring
  have hpt2 : ∀ u, 1 / 2 < u → u < 1 → c.point ⟨t0, (t3 + t0) / 2, (t3 + t0) / 2, t3⟩ u = u * (t3 - t0) := by
    intro u hu0 hu1
    unfold Sample.point
    rw [hc]
    simp only [Bool.false_eq_true, if_false]
    rw [if_neg (by linarith)]
    ring
  -- incoherent scattering at a point
  have hinc' : ∀ x, 0 < x → x < t3 - t0 → reading g ((c.incoherent 0 v (v * x) (v * (t3 - t0)) (propDt ⟨false, 0⟩ (x + t0) e) u1 u2).map fun e => (e, 0)) =
      e.p * (v * (t3 - t0)) / c.frac * I x := by
    intro x hx0 hx1
    have hpi := Real.pi_pos
    rw [prop_at (by linarith), add_comm x t0]
    unfold Sample.incoherent
    have hdl : √(d.x * d.x + d.y * d.y + d.z * d.z) = 1 := by rw [speed_eq, hd1]
    simp only [ne_eq, not_true_eq_false, if_false, hd, num, bind, Except.bind, hdl]
    rw [divD_ok one_ne_zero]
    simp only [div_one]
    have hvel : (⟨d.x * v, d.y * v, d.z * v⟩ : V3 ℝ) = v • d := by ext <;> simp only [V3.smul_x, V3.smul_y, V3.smul_z] <;> ring
    have hev : ({ outAt e (t0 + x) e.v e.p with v := (⟨d.x * v, d.y * v, d.z * v⟩ : V3 ℝ) } : Event ℝ) = outAt e (t0 + x) (v • d) e.p := by
      rw [hvel]; rfl
    rw [hev]
    simp only [hli x hx0 hx1]
    rw [divD_ok hF.ne', ← hS]
    simp only [Except.map]
    have := Real.exp_nonneg (-S * (v * x + li x))
    refine (reading_ok hg (e' := outAt e (t0 + x) (v • d) e.p) (by simp only [hvel]; rfl) ?_).trans ?_
    · show 0 ≤ e.p * _
      positivity
    · rw [hI]
      show e.p * _ * _ = _
      field_simp
  -- coherent scattering by a line at a point
  have hcoh : ∀ k pk, c.peaks[k]? = some pk → ∀ ul, (if c.peaks.length > 1 then ⌊(c.peaks.length : ℝ) * ul⌋₊ else 0) = k →
      ∀ x, 0 < x → x < t3 - t0 → reading g (c.coherent 0 v (v * x) (v * (t3 - t0)) (propDt ⟨false, 0⟩ (x + t0) e) ul xi ua) =
        if |pk.qv * (1 + pk.wv * xi)| ≤ 2 * v then e.p * (c.peaks.length * (v * (t3 - t0))) / (1 - (c.frac + c.tfrac)) * C k pk x else 0 := by
    intro k pk hk ul hul x hx0 hx1
    rw [prop_at (by linarith), add_comm x t0]
    unfold Sample.coherent
    rw [if_neg hn0.ne']
    dsimp only
    rw [hul, hk]
    have hq : (if pk.wv ≠ 0 then pk.qv * (1 + pk.wv * xi) else pk.qv) = pk.qv * (1 + pk.wv * xi) := by
      by_cases h0 : pk.wv = 0
      · rw [if_neg (by simpa using h0), h0]; ring
      · rw [if_pos h0]
    dsimp only
    rw [hq, num_div (by positivity : 2 * v ≠ 0)]
    simp only [bind, Except.bind]
    have hab : |pk.qv * (1 + pk.wv * xi) / (2 * v)| = |pk.qv * (1 + pk.wv * xi)| / (2 * v) := by
      rw [abs_div, abs_of_pos (by positivity : 0 < 2 * v)]
    by_cases hb : |pk.qv * (1 + pk.wv * xi)| ≤ 2 * v
    · rw [if_pos hb, if_neg (by rw [hab, gt_iff_lt, not_lt, div_le_one (by positivity)]; exact hb), ← hth]
      have hcone : cone 0 (th pk) ua = .ok (0, 0, Real.pi * (2 * ua - 1)) := by unfold cone; simp
      rw [hcone]
      dsimp only
      have hev : ({ outAt e (t0 + x) e.v e.p with v := braggOut (outAt e (t0 + x) e.v e.p).v (th pk) (Real.pi * (2 * ua - 1)) } : Event ℝ) =
          outAt e (t0 + x) (braggOut e.v (th pk) (Real.pi * (2 * ua - 1))) e.p := rfl
      rw [hev, hlk k pk hk hb x hx0 hx1]
      dsimp only
      rw [num_div (by linarith), ← hS]
      simp only [ne_eq, not_true_eq_false, if_false]
      have h1' : 0 < 1 - (c.frac + c.tfrac) := by linarith
      have hs2 := hs pk (List.mem_of_getElem? hk)
      have := Real.exp_nonneg (-S * (v * x + lk k x))
      refine (reading_ok hg (e' := outAt e (t0 + x) (braggOut e.v (th pk) (Real.pi * (2 * ua - 1))) e.p) rfl ?_).trans ?_
      · show 0 ≤ e.p * _
        positivity
      · rw [hC]
        show e.p * _ * _ = _
        field_simp
    · rw [if_neg hb, if_pos (by rw [hab, gt_iff_lt, one_lt_div (by positivity)]; exact not_le.1 hb)]
      unfold reading absorb
      norm_num
  -- the three kinds
  rw [mean_three (a := c.tfrac) (b := c.tfrac + c.frac) (A := e.p * (Real.exp (-S * (v * (t3 - t0))) / c.tfrac) * g (outAt e t3 e.v e.p))
    (B := (∫ x in (0:ℝ)..(t3 - t0), e.p * (v * (t3 - t0)) / c.frac * I x) / (t3 - t0))
    (C := (∑ k ∈ Finset.range c.peaks.length, (match c.peaks[k]? with
        | some pk => (∫ x in (0:ℝ)..(t3 - t0), (if |pk.qv * (1 + pk.wv * xi)| ≤ 2 * v then
            e.p * (c.peaks.length * (v * (t3 - t0))) / (1 - (c.frac + c.tfrac)) * C k pk x else 0)) / (t3 - t0)
        | none => 0)) / c.peaks.length) hT.le (by linarith) (by linarith)]
  · have e1 : c.tfrac * (e.p * (Real.exp (-S * (v * (t3 - t0))) / c.tfrac) * g (outAt e t3 e.v e.p)) =
        e.p * Real.exp (-S * (v * (t3 - t0))) * g (outAt e t3 e.v e.p) := by field_simp
    have e2 : (c.tfrac + c.frac - c.tfrac) * ((∫ x in (0:ℝ)..(t3 - t0), e.p * (v * (t3 - t0)) / c.frac * I x) / (t3 - t0)) =
        e.p * (∫ x in (0:ℝ)..(t3 - t0), v * I x) := by
      rw [intervalIntegral.integral_const_mul, intervalIntegral.integral_const_mul]
      field_simp
      ring
    rw [e1, e2]
    congr 1
    rw [mul_div_assoc', div_eq_iff hnr.ne', Finset.mul_sum, mul_assoc, Finset.sum_mul, Finset.mul_sum]
    refine Finset.sum_congr rfl fun k hk => ?_
    cases hpk : c.peaks[k]? with
    | none => simp
    | some pk =>
      dsimp only
      have h1' : 0 < 1 - (c.frac + c.tfrac) := by linarith
      by_cases hb : |pk.qv * (1 + pk.wv * xi)| ≤ 2 * v
      · simp only [if_pos hb]
        rw [intervalIntegral.integral_const_mul, intervalIntegral.integral_const_mul]
        rw [show 1 - (c.tfrac + c.frac) = 1 - (c.frac + c.tfrac) by ring]
        field_simp
      · simp only [if_neg hb]
        simp
  · intro u hu0 hu1
    simp only [htr, if_pos hu1, mean_const]
    refine reading_ok hg (e' := outAt e t3 e.v e.p) rfl ?_
    show 0 ≤ e.p * _
    positivity
  · intro u hu0 hu1
    simp only [htr, if_neg (not_lt.2 hu0.le), if_pos hu1, mean_const]
    refine mean_point hD (hIi.const_mul _) (fun w hw0 hw1 => ?_) (fun w hw0 hw1 => ?_)
    · rw [hpt1 w hw0 hw1]; exact hinc' _ (by nlinarith) (by nlinarith)
    · rw [hpt2 w hw0 hw1]; exact hinc' _ (by nlinarith) (by nlinarith)
  · intro u hu0 hu1
    simp only [htr, if_neg (not_lt.2 (by linarith : c.tfrac ≤ u)), if_neg (not_lt.2 hu0.le)]
    rw [← mean_line hn0]
    refine mean_congr fun ul hul0 hul1 => ?_
    have hk : (if c.peaks.length > 1 then ⌊(c.peaks.length : ℝ) * ul⌋₊ else 0) < c.peaks.length := by
      split
      · rw [Nat.floor_lt (by positivity)]; nlinarith
      · exact hn0
    generalize hkk : (if c.peaks.length > 1 then ⌊(c.peaks.length : ℝ) * ul⌋₊ else 0) = k at hk
    rw [List.getElem?_eq_getElem hk]
    dsimp only
    have hpk : c.peaks[k]? = some c.peaks[k] := List.getElem?_eq_getElem hk
    have hint : IntervalIntegrable (fun x => if |c.peaks[k].qv * (1 + c.peaks[k].wv * xi)| ≤ 2 * v then
            e.p * (c.peaks.length * (v * (t3 - t0))) / (1 - (c.frac + c.tfrac)) * C k c.peaks[k] x else 0) MeasureTheory.volume 0 (t3 - t0) := by
      split
      · exact (hCi k _ hpk).const_mul _
      · exact intervalIntegrable_const
    refine mean_point hD hint (fun w hw0 hw1 => ?_) (fun w hw0 hw1 => ?_)
    · rw [hpt1 w hw0 hw1]; exact hcoh k _ hpk ul hkk _ (by nlinarith) (by nlinarith)
    · rw [hpt2 w hw0 hw1]; exact hcoh k _ hpk ul hkk _ (by nlinarith) (by nlinarith)

/-- `C321_partial` applies: a box with a line that scatters backwards and with incoherent scattering upwards -/
example (xi ua u2 : ℝ) : mean (fun ut => mean fun ul => mean fun ud =>
    reading (fun _ => 1) ((boxOf (1 / 4) (1 / 4) [⟨1, 2, 0⟩] 1 0 1).trace ⟨false, 0⟩ 0 ⟨⟨1 / 2, 0, -2⟩, ⟨0, 0, 1⟩, 0, 0, 0, 1⟩ ud ut ul xi ua 0 u2)) =
    Real.exp (-4) + (∫ x in (0:ℝ)..2, Real.exp (-2 * (x + 1))) + ∫ x in (0:ℝ)..2, Real.exp (-2 * (x + x)) := by
  obtain ⟨b1, b2, -⟩ := box_in
  have hv : (⟨0, 0, 1⟩ : V3 ℝ) ≠ 0 := fun h => by have := congrArg V3.z h; simp at this
  have hz : ∀ x : ℝ, 0 < x → x < 2 → ∀ w : V3 ℝ, outAt (⟨⟨1 / 2, 0, -2⟩, ⟨0, 0, 1⟩, 0, 0, 0, 1⟩ : Event ℝ) (1 + x) w 1 = ⟨⟨1 / 2, 0, x - 1⟩, w, 0, 0, 1 + x, 1⟩ := by
    intro x _ _ w
    unfold outAt
    ext <;> simp <;> ring
  have h := C321_partial (c := boxOf (1 / 4) (1 / 4) [⟨1, 2, 0⟩] 1 0 1) (e := ⟨⟨1 / 2, 0, -2⟩, ⟨0, 0, 1⟩, 0, 0, 0, 1⟩) (t0 := 1) (t3 := 3) rfl
    (by unfold Sample.outer boxOf; simp only [if_true, b1]) (by unfold Sample.inner boxOf; simp only [if_true, b2]) (by norm_num) (by norm_num)
    hv (by norm_num) (by unfold boxOf; norm_num) (by unfold boxOf; norm_num) (by unfold boxOf; norm_num) (by unfold boxOf; simp)
    (by intro pk hpk; simp only [boxOf, List.mem_singleton] at hpk; subst hpk; norm_num) (by unfold boxOf; norm_num) (g := fun _ => 1) (fun _ _ => rfl)
    (xi := xi) (ua := ua) (circle_up u2) (by rw [length_eq]; simp [V3.dot]) (li := fun _ => 1) (lk := fun _ x => x) (fun _ => rfl)
    (fun x h0 h1 => by
      rw [show (3 : ℝ) - 1 = 2 by norm_num] at h1
      rw [unit_z, show (1 : ℝ) • (⟨0, 1, 0⟩ : V3 ℝ) = ⟨0, 1, 0⟩ by ext <;> simp, hz x h0 h1]
      unfold Sample.way Sample.outer Sample.inner boxOf
      simp only [if_true, bind, Except.bind]
      rw [box_up (by linarith) (by linarith), box_line]
      unfold Sample.exit Times.clip
      norm_num)
    (fun k pk hk hb x h0 h1 => by
      rw [show (3 : ℝ) - 1 = 2 by norm_num] at h1
      have hpk : pk = ⟨1, 2, 0⟩ := by
        have := List.mem_of_getElem? hk
        simpa [boxOf] using this
      subst hpk
      dsimp only
      rw [unit_z, show (2 * (1 + 0 * xi) / (2 * 1) : ℝ) = 1 by norm_num, Real.arcsin_one, braggOut_back one_ne_zero, hz x h0 h1]
      unfold Sample.way Sample.outer Sample.inner boxOf
      simp only [if_true, bind, Except.bind]
      rw [box_back (by linarith) (by linarith), box_line']
      unfold Sample.exit Times.clip
      simp only [Except.ok.injEq, Option.some.injEq]
      rw [if_pos (by linarith : x - 1 - 1 < 0)]
      ring)
    rfl (fun _ => rfl) (fun _ _ _ => rfl) (Continuous.intervalIntegrable (by fun_prop) _ _)
    (fun _ _ _ => Continuous.intervalIntegrable (by fun_prop) _ _)
  rw [h]
  dsimp only
  rw [unit_z]
  unfold Sample.scat boxOf
  norm_num

/-- C321 is false without lines: the neutrons that are chosen for the lines go on with their weight, and so 1.9 times as many neutrons come out of a
transparent sample as go in (with the default `frac` 0 and the default `tfrac` 0.1) -/
theorem C321_nolines_false : ∃ (c : Sample) (e : Event ℝ), c.frac = 0 ∧ c.tfrac = 0.1 ∧ c.peaks = [] ∧ c.sum = 0 ∧ c.my_a_v = 0 ∧ c.my_inc = 0 ∧ e.p = 1 ∧
    ∀ d_phi ud ul xi ua u1 u2, 0 ≤ ud → ud ≤ 1 →
      mean (fun ut => reading (fun _ => 1) (c.trace ⟨false, 0⟩ d_phi e ud ut ul xi ua u1 u2)) = 1.9 := by
  obtain ⟨b1, b2, b3, b4, b5, b6⟩ := box_in
  have hsp : √((0:ℝ) * 0 + 0 * 0 + 1 * 1) = 1 := by norm_num
  refine ⟨boxOf 0 0.1 [] 0 0 0, ⟨⟨1 / 2, 0, -2⟩, ⟨0, 0, 1⟩, 0, 0, 0, 1⟩, rfl, rfl, rfl, rfl, rfl, rfl, rfl, fun d_phi ud ul xi ua u1 u2 hu0 hu1 => ?_⟩
  have hen : (boxOf 0 0.1 [] 0 0 0).enter (1, 3) none = ⟨1, 2, 2, 3⟩ := by
    unfold Sample.enter boxOf Times.clip; norm_num
  have ho : (boxOf 0 0.1 [] 0 0 0).outer ⟨1 / 2, 0, -2⟩ ⟨0, 0, 1⟩ = .ok (some (1, 3)) := by
    unfold Sample.outer boxOf; simp only [if_true, b1]
  have hi : (boxOf 0 0.1 [] 0 0 0).inner ⟨1 / 2, 0, -2⟩ ⟨0, 0, 1⟩ = .ok none := by
    unfold Sample.inner boxOf; simp only [if_true, b2]
  rw [mean_three (a := 0.1) (b := 0.1) (A := 10) (B := 0) (C := 1) (by norm_num) le_rfl (by norm_num)]
  · norm_num
  · intro u h0 h1
    unfold Sample.trace
    simp only [hsp, ho, hi, bind, Except.bind, hen]
    rw [if_pos (by norm_num), if_neg (by norm_num), if_pos (by unfold boxOf; exact h1), num_div (by unfold boxOf; norm_num)]
    rw [prop_at (by norm_num)]
    unfold reading outAt Sample.scat boxOf
    norm_num
  · intro u h0 h1; linarith
  · intro u h0 h1
    unfold Sample.trace
    simp only [hsp, ho, hi, bind, Except.bind, hen]
    rw [if_pos (by norm_num), if_neg (by norm_num), if_neg (by unfold boxOf; simp only; linarith), if_neg (by unfold boxOf; simp only; linarith)]
    unfold Sample.coherent
    rw [if_pos (by simp [boxOf])]
    have hpt : 0 ≤ (boxOf 0 0.1 [] 0 0 0).point ⟨1, 2, 2, 3⟩ ud + 1 := by
      unfold Sample.point boxOf
      simp only [Bool.false_eq_true, if_false]
      split
      · have := abs_nonneg (2 * ud - 1); linarith
      · next h => norm_num; linarith
    rw [prop_at hpt]
    unfold reading outAt
    norm_num

/-- C321 is false behind a hollow: the way before the scattering counts the hollow as material.  Here a neutron crosses 1.5 m of material and
2 m of hollow before it is scattered, and 1 m of material behind; it is attenuated for 4.5 m. -/
theorem C321_hollow_false : ∃ (c : Sample) (e : Event ℝ), e.v = ⟨0, 0, 1⟩ ∧ e.p = 1 ∧ 0 < c.my_inc ∧ 0 < c.my_a_v ∧ c.peaks = [] ∧ c.sum = 0 ∧
    (∀ s, 0 ≤ s → s ≤ 9 / 2 → ((InBox e.r e.v ⟨c.xwidth, c.yheight, c.zthick⟩ s ∧ ¬ InBox e.r e.v ⟨c.xwidth_i, c.yheight_i, c.zthick_i⟩ s) ↔
      (1 ≤ s ∧ s < 2) ∨ 4 < s)) ∧
    ∀ ul xi ua u2, ∃ e', c.trace ⟨false, 0⟩ 0 e (3 / 4) (3 / 8) ul xi ua 0 u2 = .ok (e', 0) ∧ e'.r = e.r + (9 / 2 : ℝ) • e.v ∧ e'.v = ⟨0, 1, 0⟩ ∧
      (∀ s, 0 ≤ s → ((InBox e'.r e'.v ⟨c.xwidth, c.yheight, c.zthick⟩ s ∧ ¬ InBox e'.r e'.v ⟨c.xwidth_i, c.yheight_i, c.zthick_i⟩ s) ↔ s ≤ 1)) ∧
      e'.p = 2 * c.my_inc / c.frac * Real.exp (-(c.my_a_v + c.my_inc) * (9 / 2)) := by
  obtain ⟨b1, b2, b3, b4, -⟩ := hollow_in
  have hsp : √((0:ℝ) * 0 + 0 * 0 + 1 * 1) = 1 := by norm_num
  refine ⟨hollowOf (1 / 4) (1 / 4) [] 0 1 1, ⟨⟨0, 0, -3⟩, ⟨0, 0, 1⟩, 0, 0, 0, 1⟩, rfl, rfl, ?_, ?_, rfl, rfl, ?_, fun ul xi ua u2 => ?_⟩
  · unfold hollowOf; norm_num
  · unfold hollowOf; norm_num
  · intro s h0 h1
    unfold InBox hollowOf
    simp only [abs_le]
    constructor
    · rintro ⟨⟨-, -, h2, h3⟩, h4⟩
      by_contra hc
      push Not at hc
      refine h4 ⟨by norm_num, by norm_num, ?_, ?_⟩
      · have := hc.1 (by linarith); linarith
      · linarith [hc.2]
    · rintro (⟨h2, h3⟩ | h2)
      · refine ⟨⟨by norm_num, by norm_num, by linarith, by linarith⟩, fun h => by linarith [h.2.2.1]⟩
      · refine ⟨⟨by norm_num, by norm_num, by linarith, by linarith⟩, fun h => by linarith [h.2.2.2]⟩
  have hen : (hollowOf (1 / 4) (1 / 4) [] 0 1 1).enter (1, 5) (some (2, 4)) = ⟨1, 2, 4, 5⟩ := by
    unfold Sample.enter hollowOf Times.clip; norm_num
  have ho : (hollowOf (1 / 4) (1 / 4) [] 0 1 1).outer ⟨0, 0, -3⟩ ⟨0, 0, 1⟩ = .ok (some (1, 5)) := by
    unfold Sample.outer hollowOf; simp only [if_true, b1]
  have hi : (hollowOf (1 / 4) (1 / 4) [] 0 1 1).inner ⟨0, 0, -3⟩ ⟨0, 0, 1⟩ = .ok (some (2, 4)) := by
    unfold Sample.inner hollowOf; simp only [if_true, b2]
  have hpt : (hollowOf (1 / 4) (1 / 4) [] 0 1 1).point ⟨1, 2, 4, 5⟩ (3 / 4) = 7 / 2 := by
    unfold Sample.point hollowOf; norm_num
  have hpr : propDt ⟨false, 0⟩ (7 / 2 + 1) ⟨⟨0, 0, -3⟩, ⟨0, 0, 1⟩, 0, 0, 0, 1⟩ = ⟨⟨0, 0, 3 / 2⟩, ⟨0, 0, 1⟩, 0, 0, 9 / 2, 1⟩ := by
    rw [prop_at (by norm_num)]; unfold outAt; ext <;> norm_num
  have hway : (hollowOf (1 / 4) (1 / 4) [] 0 1 1).way 1 ⟨⟨0, 0, 3 / 2⟩, ⟨0, 1, 0⟩, 0, 0, 9 / 2, 1⟩ = .ok (some 1) := by
    unfold Sample.way Sample.outer Sample.inner hollowOf
    simp only [if_true, b3, b4, bind, Except.bind]
    unfold Sample.exit Times.clip
    norm_num
  unfold Sample.trace
  simp only [hsp, ho, hi, bind, Except.bind, hen, hpt]
  rw [if_pos (by norm_num), if_neg (by norm_num), if_neg (by unfold hollowOf; norm_num), if_pos (by unfold hollowOf; norm_num), hpr]
  unfold Sample.incoherent
  simp only [ne_eq, not_true_eq_false, if_false, circle_up, num, bind, Except.bind]
  have h1 : √((0:ℝ) * 0 + 1 * 1 + 0 * 0) = 1 := by norm_num
  rw [h1, divD_ok one_ne_zero]
  simp only [div_one, mul_one, hway]
  rw [divD_ok (by unfold hollowOf; norm_num)]
  refine ⟨_, rfl, ?_, rfl, ?_, ?_⟩
  · ext <;> norm_num
  · intro s h0
    unfold InBox hollowOf
    simp only [abs_le]
    constructor
    · rintro ⟨⟨-, ⟨-, h⟩, -⟩, -⟩; linarith
    · intro h
      refine ⟨⟨by norm_num, ⟨by linarith, by linarith⟩, by norm_num⟩, fun h => ?_⟩
      have := h.2.2.2
      norm_num at this
  · have hpi := Real.pi_ne_zero
    unfold Sample.scat hollowOf
    norm_num
    field_simp
    norm_num

/-- C321 is false for a neutron that starts in the hollow: half of the neutrons are scattered there, where there is no material -/
theorem C321_start_false : ∃ (c : Sample) (e : Event ℝ), e.v = ⟨0, 0, 1⟩ ∧ InBox e.r e.v ⟨c.xwidth_i, c.yheight_i, c.zthick_i⟩ 0 ∧
    ∀ ud ul xi ua u2, 0 ≤ ud → ud < 1 / 2 →
      ∃ e', c.trace ⟨false, 0⟩ 0 e ud (3 / 8) ul xi ua 0 u2 = .ok (e', 0) ∧ e'.r = e.r ∧ e'.v = ⟨0, 1, 0⟩ ∧ 0 < e'.p := by
  obtain ⟨-, -, -, -, b1, b2, b3, b4⟩ := hollow_in
  have hsp : √((0:ℝ) * 0 + 0 * 0 + 1 * 1) = 1 := by norm_num
  refine ⟨hollowOf (1 / 4) (1 / 4) [] 0 1 1, ⟨⟨0, 0, 0⟩, ⟨0, 0, 1⟩, 0, 0, 0, 1⟩, rfl, by unfold InBox hollowOf; norm_num, fun ud ul xi ua u2 hu0 hu1 => ?_⟩
  have hen : (hollowOf (1 / 4) (1 / 4) [] 0 1 1).enter (-2, 2) (some (-1, 1)) = ⟨0, 0, 1, 2⟩ := by
    unfold Sample.enter hollowOf Times.clip; norm_num
  have ho : (hollowOf (1 / 4) (1 / 4) [] 0 1 1).outer ⟨0, 0, 0⟩ ⟨0, 0, 1⟩ = .ok (some (-2, 2)) := by
    unfold Sample.outer hollowOf; simp only [if_true, b1]
  have hi : (hollowOf (1 / 4) (1 / 4) [] 0 1 1).inner ⟨0, 0, 0⟩ ⟨0, 0, 1⟩ = .ok (some (-1, 1)) := by
    unfold Sample.inner hollowOf; simp only [if_true, b2]
  have hpt : (hollowOf (1 / 4) (1 / 4) [] 0 1 1).point ⟨0, 0, 1, 2⟩ ud = 0 := by
    unfold Sample.point hollowOf
    simp only [Bool.false_eq_true, if_false]
    rw [if_pos (by linarith)]; ring
  have hpr : propDt ⟨false, 0⟩ (0 + 0) ⟨⟨0, 0, 0⟩, ⟨0, 0, 1⟩, 0, 0, 0, 1⟩ = ⟨⟨0, 0, 0⟩, ⟨0, 0, 1⟩, 0, 0, 0, 1⟩ := by
    rw [prop_at (by norm_num)]; unfold outAt; ext <;> norm_num
  have hway : (hollowOf (1 / 4) (1 / 4) [] 0 1 1).way 1 ⟨⟨0, 0, 0⟩, ⟨0, 1, 0⟩, 0, 0, 0, 1⟩ = .ok (some 0) := by
    unfold Sample.way Sample.outer Sample.inner hollowOf
    simp only [if_true, b3, b4, bind, Except.bind]
    unfold Sample.exit Times.clip
    norm_num
  unfold Sample.trace
  simp only [hsp, ho, hi, bind, Except.bind, hen, hpt]
  rw [if_pos (by norm_num), if_neg (by norm_num), if_neg (by unfold hollowOf; norm_num), if_pos (by unfold hollowOf; norm_num), hpr]
  unfold Sample.incoherent
  simp only [ne_eq, not_true_eq_false, if_false, circle_up, num, bind, Except.bind]
  have h1 : √((0:ℝ) * 0 + 1 * 1 + 0 * 0) = 1 := by norm_num
  rw [h1, divD_ok one_ne_zero]
  simp only [div_one, mul_one, hway]
  rw [divD_ok (by unfold hollowOf; norm_num)]
  refine ⟨_, rfl, rfl, rfl, ?_⟩
  unfold hollowOf
  have := Real.pi_pos
  norm_num

/-! ### C322 -/

/-- C322, partial: a table in which all spacings are different is read as it is.  Missing: what follows the table in the memory, see
`C322_memory_false`, and lines that are given more than once, see `C322_groups_false`. -/
theorem C322_partial {before behind : ℤ} (hb : behind ≠ 1) {rows : List (Line × ℝ)}
    (hx : ∀ x ∈ rows, x.1.q ≠ 0 ∧ x.1.F2 ≠ 0 ∧ x.2 ≠ 0) (hp : rows.Pairwise (fun a b => Far a.1.q b.1.q)) :
    readLines before behind (rows.map some) = rows.map (·.1) := by
  unfold readLines
  cases rows with
  | nil => rfl
  | cons x rows =>
    obtain ⟨x, jr⟩ := x
    rw [List.pairwise_cons] at hp
    obtain ⟨h2, h3, h4⟩ := hx _ List.mem_cons_self
    have hs : |x.q - x.q| < 0.0001 * |x.q| ∧ |x.F2 - x.F2| < 0.0001 * |x.F2| ∧ jr = jr := by
      rw [sub_self, sub_self, abs_zero]
      have := abs_pos.2 h2
      have := abs_pos.2 h3
      exact ⟨by positivity, by positivity, rfl⟩
    rw [List.map_cons, readRows]
    by_cases hr : rows = []
    · subst hr
      simp only [List.map_nil, readRows, List.map_cons]
      unfold Loop.step
      simp only [if_true, hs, and_self, List.nil_append, not_true_eq_false, zero_add, List.isEmpty_nil, or_true]
      split
      · next h =>
        rcases h with h | h
        · exact setOne_last [] h.symm
        · exact absurd h.symm hb
      · rfl
    · have he : ((rows.map some).isEmpty : Bool) = false := by simpa using hr
      have hst : Loop.step before behind (rows.map some).isEmpty ⟨[], 0, 0, 0, 0⟩ (x, jr) = ⟨[x], x.q, jr, x.F2, 1⟩ := by
        unfold Loop.step
        simp only [if_true, hs, and_self, List.nil_append, not_true_eq_false, zero_add, he, Bool.false_eq_true, or_self, if_false]
      rw [hst, readRows_far hb rows _ [] x rfl rfl h2 h4 h3 ?_ hp.2]
      · simp
      · exact fun z hz => ⟨hp.1 z hz, hx z (List.mem_cons_of_mem _ hz)⟩

/-- `C322_partial` applies: a table of two lines -/
example : ∀ rows : List (Line × ℝ), rows = [(⟨1, 1, 2, 1, 0⟩, 2), (⟨1, 2, 6, 1, 0⟩, 6)] →
    (∀ x ∈ rows, x.1.q ≠ 0 ∧ x.1.F2 ≠ 0 ∧ x.2 ≠ 0) ∧ rows.Pairwise (fun a b => Far a.1.q b.1.q) := by
  rintro rows rfl
  constructor
  · intro x hx
    simp only [List.mem_cons, List.not_mem_nil, or_false] at hx
    rcases hx with rfl | rfl <;> norm_num
  · simp only [List.pairwise_cons, List.mem_cons, List.not_mem_nil, or_false, forall_eq]
    unfold Far
    norm_num

/-- C322 is false: the multiplicity of the last line depends on what is found in the memory behind the table -/
theorem C322_memory_false (before : ℤ) : readLines before 0 [some (⟨1, 1, 6, 1, 0⟩, 6)] = [⟨1, 1, 6, 1, 0⟩] ∧
    readLines before 1 [some (⟨1, 1, 6, 1, 0⟩, 6)] = [⟨1, 1, 1, 1, 0⟩] := by
  constructor <;> unfold readLines readRows Loop.step <;> norm_num [readRows, setOne]

/-- C322 is false for lines that are given as often as their multiplicity says: this is noticed for the line that comes first in the table, but
not for the second one, and a last line that comes once spoils the first one -/
theorem C322_groups_false (before : ℤ) :
    (readLines before 0 [some (⟨1, 2, 2, 1, 0⟩, 2), some (⟨1, 2, 2, 1, 0⟩, 2)]).map (·.j) = [1, 1] ∧
    (readLines before 0 [some (⟨1, 1, 2, 1, 0⟩, 2), some (⟨1, 2, 2, 1, 0⟩, 2), some (⟨1, 2, 2, 1, 0⟩, 2)]).map (·.j) = [2, 2, 2] ∧
    (readLines before 0 [some (⟨1, 1, 2, 1, 0⟩, 2), some (⟨1, 1, 2, 1, 0⟩, 2), some (⟨1, 2, 2, 1, 0⟩, 2)]).map (·.j) = [2, 1, 1] := by
  refine ⟨?_, ?_, ?_⟩ <;> unfold readLines <;> norm_num [readRows, Loop.step, setOne]

/-- C322: the spacing may be given as the distance, as half of its inverse or as the wavevector, and the strength as the structure factor or
its square -/
theorem C322_columns {Dd DW j d F DWf w : ℝ} (hd : 0 < d) :
    let A : Fin 8 → Option ℝ := fun i => [some j, some d, some (F * F), some DWf, some w, none, none, none].getD i none
    let B : Fin 8 → Option ℝ := fun i => [some j, none, some (F * F), some DWf, some w, some (1 / (2 * d)), none, none].getD i none
    let C : Fin 8 → Option ℝ := fun i => [some j, none, none, some DWf, some w, none, some (2 * Real.pi / d), some F].getD i none
    row Dd DW A = row Dd DW B ∧ row Dd DW A = row Dd DW C := by
  have hpi := Real.pi_pos
  have e2 : 2 * Real.pi / (2 * Real.pi / d) = d := by field_simp
  have p2 : 0 < 2 * Real.pi / d := by positivity
  intro A B C
  constructor
  · unfold row
    simp only [A, B, Fin.isValue, Fin.val_zero, Fin.val_one, List.getD_eq_getElem?_getD]
    simp [hd]
  · unfold row
    simp only [A, C, Fin.isValue]
    simp [p2, e2, hd]

/-- C322: a row with all numbers is read as it is; a row without spacing or without multiplicity is left out -/
theorem C322_row {Dd DW j d F2 DWf w : ℝ} (hj : 0 < j) (hd : 0 < d) (hF : 0 ≤ F2) (hD : 0 < DWf) (hw : 0 < w) :
    row Dd DW (fun i => [some j, some d, some F2, some DWf, some w, none, none, none].getD i none) = some (⟨F2, 2 * Real.pi / d, ⌊j⌋, DWf, w⟩, j) ∧
    row Dd DW (fun i => [some j, none, some F2, some DWf, some w, none, none, none].getD i none) = none ∧
    row Dd DW (fun i => [none, some d, some F2, some DWf, some w, none, none, none].getD i none) = none := by
  have hpi := Real.pi_pos
  have hq : ¬ (2 * Real.pi / d = 0) := by positivity
  refine ⟨?_, ?_, ?_⟩ <;> unfold row <;> simp [hj, hd, hF, hD, hw, hj.ne', hd.ne', Real.pi_ne_zero]

/-- C322: the width and the Debye-Waller factor of the parameters are used where the table has none -/
theorem C322_defaults {Dd DW j d F2 : ℝ} (hj : 0 < j) (hd : 0 < d) (hF : 0 ≤ F2) (hD : 0 < DW) (hw : 0 < Dd) :
    row Dd DW (fun i => [some j, some d, some F2, none, none, none, none, none].getD i none) = some (⟨F2, 2 * Real.pi / d, ⌊j⌋, DW, Dd⟩, j) := by
  unfold row
  simp [hj, hd, hF, hD, hw, hj.ne', hd.ne', Real.pi_ne_zero, hw.le]

example : (0 : ℝ) < 8 ∧ (0 : ℝ) < 2.1 ∧ (0 : ℝ) ≤ 3 ∧ (0 : ℝ) < 0.9 ∧ (0 : ℝ) < 0.01 := by norm_num

end Verif.McPowderN
