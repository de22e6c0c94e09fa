import Verif.Lemmas.McGen
import Verif.Props.McSource
/-!
Property theorems about `Source_gen` of McStas: C303, C304, C305.
-/

namespace Verif.McGen
open McStas Kinem McGuide McConst McSource Homog Solid Flight
open Classical

/-- a cold source of 10 cm x 12 cm with two temperatures, 2 m before a guide -/
noncomputable def cold : Gen :=
  { defaults with w := 0.1, h := 0.12, dist := 2, xw := 0.03, yh := 0.05, Lmin := 1, Lmax := 5, T1 := 296.16, I1 := 8.5e11, T2 := 40.68, I2 := 5.2e11 }

/-- a neutron at rest -/
def still : Event ℝ := ⟨0, 0, 0, 0, 0, 1⟩

theorem cold_init : cold.init = .ok ⟨cold, 3, 2, 0.12 * 0.1 * 1e4 * 4⟩ := by
  have hab : cold.abs = cold := by
    norm_num [Gen.abs, cold, abs_of_pos, defaults]
  have hr : cold.range = .ok (3, 2) := by
    unfold Gen.range
    have hw : cold.waves = (1, 5) := by
      norm_num [Gen.waves, Gen.energies, cold, defaults, Gen.table]
    have ht : cold.table = (1, 5) := rfl
    simp only [hw, ht]
    norm_num [cold, defaults]
  unfold Gen.init
  rw [hr]
  simp only [bind, Except.bind, hab]
  have hp : cold.pIn |3| |2| = some (0.12 * 0.1 * 1e4 * 4) := by
    norm_num [Gen.pIn, cold, defaults]
  rw [hp]
  norm_num [cold, defaults]

/-! ### C303 the spectrum of Source_gen -/

/-- **C303**, what holds: the mean weight over the wave lengths is the area of the source in square centimetres times the solid angle of the target (seen from the
center of the source) times the sum of the fluxes of the Maxwell spectra in the interval of wave lengths. -/
theorem C303_spectrum_partial (c : Gen) (s : Ready) (hs : c.init = .ok s) (hf : c.flux = none) (hT : 0 < c.T1) (hI : c.I1 ≠ 0) (hv : 0 ≤ c.verbose)
    (hd : c.dist ≠ 0) (hl : s.dL < s.L0) (e : Event ℝ) (u1 u2 u3 u4 u5 : ℝ) (h4 : 0 ≤ u4 ∧ u4 ≤ 1) (h5 : 0 ≤ u5 ∧ u5 ≤ 1) :
    ∃ X Y, InRect |c.xw| |c.yh| X Y ∧ mean (fun u => score (s.trace e u1 u2 u3 u4 u5 u) (·.p)) =
      (if c.radius ≠ 0 then Real.pi * c.radius ^ 2 else |c.h| * |c.w|) * 1e4 * (|c.xw| * |c.yh| * solid |c.dist| 0 0 X Y) *
        (part |c.I1| c.T1 (lambda02 c.T1) (s.L0 - s.dL) (s.L0 + s.dL) + part c.I2 c.T2 (lambda02 c.T2) (s.L0 - s.dL) (s.L0 + s.dL) +
          part c.I3 c.T3 (lambda02 c.T3) (s.L0 - s.dL) (s.L0 + s.dL)) := by
  obtain ⟨L0, dL, p, -, hd0, -, hp, rfl, -, hx, hy⟩ := init_spec hs
  simp only at hl ⊢
  have hI' : 0 < |c.I1| := abs_pos.2 hI
  have hd' : 0 < |c.dist| := abs_pos.2 hd
  have hlo : 0 < L0 - dL := by linarith
  have hhi : 0 < L0 + dL := by linarith
  refine ⟨_, _, in_rect hx hy h4.1 h4.2 h5.1 h5.2, ?_⟩
  have hpe : p = (if c.radius ≠ 0 then Real.pi * c.radius ^ 2 else |c.h| * |c.w|) * 1e4 * (L0 + dL - (L0 - dL)) := by
    have hf' : c.abs.flux = none := hf
    unfold Gen.pIn at hp
    rw [hf'] at hp
    have h1 : (c.abs.I1 > 0 ∧ c.abs.T1 ≥ 0) ∨ (none : Option Flux).isSome = true := Or.inl ⟨hI', hT.le⟩
    have h2 : ¬ (c.abs.T1 = 0 ∧ c.abs.I1 ≠ 0) := fun h => hT.ne' h.1
    simp only [if_pos h1, if_neg h2, Option.bind_eq_bind, Option.bind_some, Option.some.injEq] at hp
    rw [← hp]
    by_cases hr : c.radius = 0
    · have : ¬ c.abs.radius ≠ 0 := by simp [Gen.abs, hr]
      rw [if_neg this, if_neg (not_not.2 hr)]
      simp only [Gen.abs]
      ring
    · have : c.abs.radius ≠ 0 := abs_ne_zero.2 hr
      rw [if_pos this, if_pos hr]
      simp only [Gen.abs]
      rw [abs_mul_abs_self]
      ring
  have htr : ∀ u, 0 < u → u < 1 → score ((⟨c.abs, L0, dL, p⟩ : Ready).trace e u1 u2 u3 u4 u5 u) (·.p) =
      (if c.radius ≠ 0 then Real.pi * c.radius ^ 2 else |c.h| * |c.w|) * 1e4 *
        (|c.xw| * |c.yh| * solid |c.dist| 0 0 (-(|c.xw| * (2 * u4 - 1) / 2)) (-(|c.yh| * (2 * u5 - 1) / 2))) *
        ((L0 + dL - (L0 - dL)) * (one |c.I1| c.T1 (L0 - dL + u * (L0 + dL - (L0 - dL))) + one c.I2 c.T2 (L0 - dL + u * (L0 + dL - (L0 - dL))) +
          one c.I3 c.T3 (L0 - dL + u * (L0 + dL - (L0 - dL))))) := by
    intro u hu0 hu1
    have hpos : 0 < L0 + dL * (2 * u - 1) := by nlinarith
    rw [trace_eq (c := c.abs) hv hd' hx hy e u1 u2 u3 u4 u5 u hpos]
    simp only [score]
    rw [spectrum_eq c.abs hf hT hI' hpos, hpe, show L0 + dL * (2 * u - 1) = L0 - dL + u * (L0 + dL - (L0 - dL)) by ring]
    simp only [Gen.abs]
    ring
  rw [mean_congr htr, mean_mul]
  congr 1
  rw [mean_affine (L0 - dL) (L0 + dL) (fun l => one |c.I1| c.T1 l + one c.I2 c.T2 l + one c.I3 c.T3 l)]
  have hint := fun I T => one_integrable I T hlo hhi
  rw [intervalIntegral.integral_add ((hint _ _).add (hint _ _)) (hint _ _), intervalIntegral.integral_add (hint _ _) (hint _ _),
    one_integral _ _ hlo hhi, one_integral _ _ hlo hhi, one_integral _ _ hlo hhi]

/-- the cold source -/
example : ∃ s, cold.init = .ok s ∧ cold.flux = none ∧ 0 < cold.T1 ∧ cold.I1 ≠ 0 ∧ 0 ≤ cold.verbose ∧ cold.dist ≠ 0 ∧ s.dL < s.L0 := by
  refine ⟨_, cold_init, rfl, ?_⟩
  norm_num [cold, defaults]

/-- **C303** The square of the wave length of a temperature is 949 / T, to one part in a thousand, and a spectrum is normalised: the part below `l` tends
to 0 for short and to 1 for long wave lengths. -/
theorem C303_normal (T : ℝ) (hT : 0 < T) : |lambda02 T - 949 / T| ≤ 949 / T / 1000 ∧
    Filter.Tendsto (below (lambda02 T)) Filter.atTop (nhds 1) ∧ Filter.Tendsto (below (lambda02 T)) (nhdsWithin 0 (Set.Ioi 0)) (nhds 0) := by
  have h := lambda02_pos hT
  have e : below (lambda02 T) = maxwellBelow (949 / lambda02 T) := funext fun l => below_eq h.ne' l
  rw [e]
  exact ⟨lambda02_near hT, C190_all _ (by positivity)⟩

example : (0 : ℝ) < 296.16 := by norm_num

/-- **C303** is false for the other temperatures if the first is 0, that is none: the second flux does not change the weight of a neutron. -/
theorem C303_second_false : ¬ ∀ (c : Gen) (s s' : Ready), 0 < c.T2 → 0 < c.I2 → c.T1 = 0 → c.init = .ok s → ({ c with I2 := 2 * c.I2 } : Gen).init = .ok s' →
    ∀ (e f f' : Event ℝ), s.trace e 0.5 0.5 0.5 0.5 0.5 0.5 = .ok f → s'.trace e 0.5 0.5 0.5 0.5 0.5 0.5 = .ok f' → 0 < f.p → f.p < f'.p := by
  intro H
  let c : Gen := { defaults with w := 1, h := 1, dist := 1, xw := 1, yh := 1, Lmin := 1, Lmax := 3, T2 := 300, I2 := 1 }
  have hi : ∀ q : ℝ, ({ c with I2 := q } : Gen).init = .ok ⟨{ c with I2 := q }, 2, 1, 1 / 4 / Real.pi⟩ := by
    intro q
    have hab : ({ c with I2 := q } : Gen).abs = { c with I2 := q } := by
      norm_num [Gen.abs, c, abs_of_pos, defaults]
    have hr : ({ c with I2 := q } : Gen).range = .ok (2, 1) := by
      unfold Gen.range
      have hw : ({ c with I2 := q } : Gen).waves = (1, 3) := by
        norm_num [Gen.waves, Gen.energies, c, defaults, Gen.table]
      have ht : ({ c with I2 := q } : Gen).table = (1, 3) := rfl
      simp only [hw, ht]
      norm_num [c, defaults]
    unfold Gen.init
    rw [hr]
    simp only [bind, Except.bind, hab]
    have hp : ({ c with I2 := q } : Gen).pIn |2| |1| = some (1 / 4 / Real.pi) := by
      norm_num [Gen.pIn, c, defaults]
    rw [hp]
    norm_num [c, defaults]
  have ht : ∀ q : ℝ, ∃ f, (⟨{ c with I2 := q }, 2, 1, 1 / 4 / Real.pi⟩ : Ready).trace still 0.5 0.5 0.5 0.5 0.5 0.5 = .ok f ∧
      f.p = 1 / 4 / Real.pi := by
    intro q
    refine ⟨_, trace_eq (by norm_num [c, defaults]) (by norm_num [c, defaults]) (by norm_num [c, defaults]) (by norm_num [c, defaults]) still _ _ _ _ _ _
      (by norm_num), ?_⟩
    norm_num [c, defaults, Gen.spectrum, solid]
  obtain ⟨f, h1, h2⟩ := ht 1
  obtain ⟨f', h3, h4⟩ := ht (2 * 1)
  have := H c _ _ (by norm_num [c, defaults]) (by norm_num [c, defaults]) rfl (hi 1) (hi (2 * 1)) still f f' h1 h3
    (by rw [h2]; have := Real.pi_pos; positivity)
  rw [h2, h4] at this
  exact lt_irrefl _ this

/-! ### C304 the range of the wave lengths of Source_gen -/

/-- **C304** is false: a mean wave length with a spread, the documented way to give a range, ends the program, because the mean is set to 0 at the start. -/
theorem C304_mean_false : ¬ ∀ c : Gen, 0 < c.dLambda → c.dLambda < c.Lambda0 → c.E0 = 0 → c.dE = 0 → c.Emin = 0 → c.Emax = 0 → c.Lmin = 0 → c.Lmax = 0 →
    c.flux = none → 0 < c.w → 0 < c.h → 0 < c.dist → 0 < c.xw → 0 < c.yh → ∃ s, c.init = .ok s := by
  intro H
  let c : Gen := { defaults with w := 1, h := 1, dist := 1, xw := 1, yh := 1, Lambda0 := 5, dLambda := 1 }
  obtain ⟨s, hs⟩ := H c (by norm_num [c, defaults]) (by norm_num [c, defaults]) rfl rfl rfl rfl rfl rfl rfl (by norm_num [c, defaults])
    (by norm_num [c, defaults]) (by norm_num [c, defaults]) (by norm_num [c, defaults]) (by norm_num [c, defaults])
  have hr : c.range = .error .cppException := by
    unfold Gen.range
    have hw : c.waves = (0, 0) := by
      norm_num [Gen.waves, Gen.energies, c, defaults, Gen.table]
    have ht : c.table = (0, 0) := rfl
    simp only [hw, ht]
    norm_num [c, defaults]
  unfold Gen.init at hs
  rw [hr] at hs
  cases hs

/-- **C304** is false also without a spread: a source with one wave length is accepted and all its neutrons are absorbed. -/
theorem C304_single_false : ∃ (c : Gen) (s : Ready), c.Lambda0 = 5 ∧ c.dLambda = 0 ∧ c.init = .ok s ∧
    ∀ (e : Event ℝ) (u1 u2 u3 u4 u5 u6 : ℝ), ∃ f, s.trace e u1 u2 u3 u4 u5 u6 = .ok f ∧ f.p = -1 := by
  let c : Gen := { defaults with w := 1, h := 1, dist := 1, xw := 1, yh := 1, Lambda0 := 5 }
  have hr : c.range = .ok (0, 0) := by
    unfold Gen.range
    have hw : c.waves = (0, 0) := by
      norm_num [Gen.waves, Gen.energies, c, defaults, Gen.table]
    have ht : c.table = (0, 0) := rfl
    simp only [hw, ht]
    norm_num [c, defaults]
  have hab : c.abs = c := by norm_num [Gen.abs, c, abs_of_pos, defaults]
  have hi : c.init = .ok ⟨c, 0, 0, 1 / 4 / Real.pi⟩ := by
    unfold Gen.init
    rw [hr]
    simp only [bind, Except.bind, hab]
    have hp : c.pIn |0| |0| = some (1 / 4 / Real.pi) := by
      norm_num [Gen.pIn, c, defaults]
    rw [hp]
    norm_num [c, defaults]
  refine ⟨c, _, rfl, rfl, hi, fun e u1 u2 u3 u4 u5 u6 => ⟨_, trace_absorbed (by norm_num [c, defaults]) (by norm_num [c, defaults])
    (by norm_num [c, defaults]) (by norm_num [c, defaults]) e _ _ _ _ _ _ (by norm_num), rfl⟩⟩

/-- **C304**, what holds: with limits for the wave length and nothing else, or with limits for the energy, the wave lengths of all neutrons are
within the limits (81.81 over the square of the wave length is the energy). -/
theorem C304_partial (c : Gen) (s : Ready) (hs : c.init = .ok s) (hf : c.flux = none) (hE : c.E0 = 0 ∧ c.dE = 0) (hv : 0 ≤ c.verbose) (hd : c.dist ≠ 0)
    (lo hi : ℝ) (hlim : (c.Emin = 0 ∧ c.Emax = 0 ∧ lo = c.Lmin ∧ hi = c.Lmax) ∨ (0 < c.Emin ∧ c.Emin ≤ c.Emax ∧ 0 < lo ∧ 0 < hi ∧
      c.Emax = 81.81 / lo ^ 2 ∧ c.Emin = 81.81 / hi ^ 2)) (h0 : 0 < lo) (hlh : lo ≤ hi) (e : Event ℝ) (u1 u2 u3 u4 u5 u6 : ℝ) (h6 : 0 ≤ u6 ∧ u6 ≤ 1) :
    ∃ f L, s.trace e u1 u2 u3 u4 u5 u6 = .ok f ∧ lo ≤ L ∧ L ≤ hi ∧ Wave f L ∧ L = lo + (hi - lo) * u6 := by
  obtain ⟨L0, dL, p, hr, hd0, hdl, hp, rfl, -, hx, hy⟩ := init_spec hs
  have hd' : 0 < |c.dist| := abs_pos.2 hd
  have hw : c.waves = (lo, hi) := by
    unfold Gen.waves Gen.energies
    rcases hlim with ⟨h1, h2, rfl, rfl⟩ | ⟨h1, h2, h3, h4, h5, h6⟩
    · rw [h1, h2, hE.1, hE.2]
      norm_num
      unfold Gen.table
      rw [hf]
    · simp only [ge_iff_le, h2, gt_iff_lt, h1, and_self, if_true]
      rw [if_pos ⟨by linarith, by linarith⟩]
      have e1 : (c.Emax + c.Emin) / 2 + (c.Emax - c.Emin) / 2 = c.Emax := by ring
      have e2 : (c.Emax + c.Emin) / 2 - (c.Emax - c.Emin) / 2 = c.Emin := by ring
      rw [e1, e2, h5, h6]
      congr 1
      · rw [show (81.81 : ℝ) / (81.81 / lo ^ 2) = lo ^ 2 by field_simp, Real.sqrt_sq h3.le]
      · rw [show (81.81 : ℝ) / (81.81 / hi ^ 2) = hi ^ 2 by field_simp, Real.sqrt_sq h4.le]
  have hL : L0 = (hi + lo) / 2 ∧ dL = (hi - lo) / 2 := by
    unfold Gen.range at hr
    simp only [hw] at hr
    have hhi : hi > 0 := by linarith
    rw [if_pos hhi] at hr
    split_ifs at hr
    cases hr
    exact ⟨rfl, rfl⟩
  obtain ⟨rfl, rfl⟩ := hL
  have el : (hi + lo) / 2 + (hi - lo) / 2 * (2 * u6 - 1) = lo + (hi - lo) * u6 := by ring
  have hpos : 0 < (hi + lo) / 2 + (hi - lo) / 2 * (2 * u6 - 1) := by rw [el]; nlinarith [h6.1, h6.2]
  refine ⟨_, lo + (hi - lo) * u6, trace_eq (c := c.abs) hv hd' hx hy e u1 u2 u3 u4 u5 u6 hpos, ?_, ?_, ⟨by rw [← el]; exact hpos, ?_⟩, rfl⟩
  · nlinarith [h6.1]
  · nlinarith [h6.2]
  · simp only [el]
    rw [el] at hpos
    have := Real.pi_pos
    exact aim_length hd' (mul_nonneg (by norm_num [K2V]) (by positivity))

/-- the cold source -/
example : cold.flux = none ∧ (cold.E0 = 0 ∧ cold.dE = 0) ∧ 0 ≤ cold.verbose ∧ cold.dist ≠ 0 ∧ cold.Emin = 0 ∧ cold.Emax = 0 ∧ (0 : ℝ) < 1 ∧
    1 = cold.Lmin ∧ 5 = cold.Lmax := by
  refine ⟨rfl, ⟨rfl, rfl⟩, ?_⟩
  norm_num [cold, defaults]

/-! ### C305 where the neutrons of Source_gen start and where they fly -/

/-- **C305**, what holds: for a distance that is not 0 and a flat source, a neutron starts on the disk, or if height and width are given in the rectangle, and
flies through the target; its time is left alone. -/
theorem C305_partial (c : Gen) (s : Ready) (hs : c.init = .ok s) (hv : 0 ≤ c.verbose) (hd : c.dist ≠ 0) (hlen : c.len = 0) (e : Event ℝ)
    (u1 u2 u3 u4 u5 u6 : ℝ) (h : ∀ u ∈ [u1, u2, u4, u5], 0 ≤ u ∧ u ≤ 1) (hl : 0 < s.L0 + s.dL * (2 * u6 - 1)) :
    ∃ f X Y, s.trace e u1 u2 u3 u4 u5 u6 = .ok f ∧ InRect |c.xw| |c.yh| X Y ∧ Through |c.dist| X Y f ∧ f.r.z = 0 ∧ f.t = e.t ∧
      (if c.h = 0 ∨ c.w = 0 then f.r.x ^ 2 + f.r.y ^ 2 ≤ c.radius ^ 2 else InRect |c.w| |c.h| f.r.x f.r.y) := by
  obtain ⟨L0, dL, p, -, hd0, hdl, hp, rfl, -, hx, hy⟩ := init_spec hs
  have hd' : 0 < |c.dist| := abs_pos.2 hd
  have k1 := h u1 (by simp); have k2 := h u2 (by simp); have k4 := h u4 (by simp); have k5 := h u5 (by simp)
  have hz : (c.abs.point u1 u2 u3).z = 0 := by
    unfold Gen.point
    exact if_neg (not_not.2 hlen)
  have hpi := Real.pi_pos
  refine ⟨_, _, _, trace_eq (c := c.abs) hv hd' hx hy e u1 u2 u3 u4 u5 u6 hl, in_rect hx hy k4.1 k4.2 k5.1 k5.2,
    aim_through (x := (c.abs.point u1 u2 u3).x) (y := (c.abs.point u1 u2 u3).y) (v := K2V * (2 * Real.pi / (L0 + dL * (2 * u6 - 1)))) hd'
      (mul_pos (by norm_num [K2V]) (by simp only at hl; positivity)) _ (by ext <;> simp [hz]) rfl, hz, rfl, ?_⟩
  unfold Gen.point
  by_cases hh : c.h = 0 ∨ c.w = 0
  · have : c.abs.h = 0 ∨ c.abs.w = 0 := by simpa [Gen.abs] using hh
    simp only [if_pos this, if_pos hh]
    have := on_disk (R := c.abs.radius) (u1 := u1) k2.1 k2.2
    simpa [Gen.abs] using this
  · have : ¬ (c.abs.h = 0 ∨ c.abs.w = 0) := by simpa [Gen.abs] using hh
    simp only [if_neg this, if_neg hh]
    simp only [not_or] at hh
    have hw : 0 < |c.w| := abs_pos.2 hh.2
    have hh' : 0 < |c.h| := abs_pos.2 hh.1
    have := in_rect hw hh' k1.1 k1.2 k2.1 k2.2
    unfold InRect at this ⊢
    rw [abs_neg, abs_neg] at this
    exact this

/-- the cold source -/
example : ∃ s, cold.init = .ok s ∧ 0 ≤ cold.verbose ∧ cold.dist ≠ 0 ∧ cold.len = 0 ∧ 0 < s.L0 + s.dL * (2 * 0.1 - 1) := by
  refine ⟨_, cold_init, ?_⟩
  norm_num [cold, defaults]

/-- with the distance 0 a neutron that is not absorbed does not fly forward -/
theorem never_forward {c : Gen} {s : Ready} (hs : c.init = .ok s) (hd : c.dist = 0) (hv : 0 ≤ c.verbose) {e f : Event ℝ} {u1 u2 u3 u4 u5 u6 : ℝ}
    (ht : s.trace e u1 u2 u3 u4 u5 u6 = .ok f) : f.v.z = 0 ∨ f.p = -1 := by
  obtain ⟨L0, dL, p, -, hd0, hdl, hp, rfl, -, hx, hy⟩ := init_spec hs
  unfold Ready.trace at ht
  rw [if_pos (show (c.abs.verbose ≥ 0) from hv)] at ht
  simp only at ht
  cases ha : c.abs.aimAt u4 u5 with
  | error er => rw [ha] at ht; cases ht
  | ok q =>
    rw [ha] at ht
    simp only [bind, Except.bind] at ht
    split_ifs at ht with h1
    · cases ht; exact Or.inr rfl
    · have hz : c.abs.dist = 0 := by simp [Gen.abs, hd]
      unfold aim at ht
      rw [hz] at ht
      simp only [mul_zero, Option.bind_eq_bind] at ht
      generalize hrf : √((q.1 - (c.abs.point u1 u2 u3).x) * (q.1 - (c.abs.point u1 u2 u3).x) + (q.2.1 - (c.abs.point u1 u2 u3).y) *
        (q.2.1 - (c.abs.point u1 u2 u3).y) + 0) = rf at ht
      by_cases h0 : rf = 0
      · simp [divD, h0] at ht
      · simp only [divD, h0, if_false, Option.bind_some, zero_div] at ht
        cases ht
        exact Or.inl rfl

/-- a source of 1 m x 1 m with the wave lengths 1 to 3 and a target of 1 x 1 -/
noncomputable def square (dist len radius : ℝ) : Gen :=
  { defaults with w := 1, h := 1, dist := dist, xw := 1, yh := 1, Lmin := 1, Lmax := 3, len := len, radius := radius, I1 := 1 }

theorem square_init {dist len radius : ℝ} (hd : 0 ≤ dist) (hr : 0 ≤ radius) : (square dist len radius).init =
    .ok ⟨square dist len radius, 2, 1, if radius ≠ 0 then radius * radius * Real.pi * 20000 else 20000⟩ := by
  have hab : (square dist len radius).abs = square dist len radius := by
    simp [Gen.abs, square, abs_of_nonneg hd, abs_of_nonneg hr, defaults]
  have hra : (square dist len radius).range = .ok (2, 1) := by
    unfold Gen.range
    have hw : (square dist len radius).waves = (1, 3) := by
      norm_num [Gen.waves, Gen.energies, square, defaults, Gen.table]
    have ht : (square dist len radius).table = (1, 3) := rfl
    simp only [hw, ht]
    norm_num [square, defaults]
  unfold Gen.init
  rw [hra]
  simp only [bind, Except.bind, hab]
  have hp : (square dist len radius).pIn |2| |1| = some (if radius ≠ 0 then radius * radius * Real.pi * 20000 else 20000) := by
    by_cases h0 : radius = 0
    · norm_num [Gen.pIn, square, defaults, h0]
    · norm_num [Gen.pIn, square, defaults, h0]
      ring
  rw [hp]
  norm_num [square, defaults]

/-- **C305** is false for divergences: with the distance 0, for which the size of the target is documented to be a divergence, no neutron flies forward. -/
theorem C305_divergence_false : ¬ ∀ (c : Gen) (s : Ready), c.init = .ok s → c.dist = 0 → 0 ≤ c.verbose →
    ∃ (e f : Event ℝ) (u1 u2 u3 u4 u5 u6 : ℝ), s.trace e u1 u2 u3 u4 u5 u6 = .ok f ∧ 0 ≤ f.p ∧ 0 < f.v.z := by
  intro H
  have hi := square_init (dist := 0) (len := 0) (radius := 0) le_rfl le_rfl
  obtain ⟨e, f, u1, u2, u3, u4, u5, u6, ht, hp, hz⟩ := H _ _ hi rfl (by norm_num [square, defaults])
  rcases never_forward hi rfl (by norm_num [square, defaults]) ht with h | h <;> linarith

/-- **C305** is false for a source with a length: a neutron may miss the target, because the direction is computed as if it started in the plane z = 0. -/
theorem C305_length_false : ¬ ∀ (c : Gen) (s : Ready), c.init = .ok s → 0 < c.dist → 0 ≤ c.verbose → ∀ (e f : Event ℝ) (u1 u2 u3 u4 u5 u6 : ℝ),
    (∀ u ∈ [u1, u2, u3, u4, u5, u6], 0 ≤ u ∧ u ≤ 1) → s.trace e u1 u2 u3 u4 u5 u6 = .ok f → 0 ≤ f.p →
    ∃ X Y, InRect c.xw c.yh X Y ∧ Through c.dist X Y f := by
  intro H
  have hi := square_init (dist := 1) (len := 1) (radius := 0) zero_le_one le_rfl
  have ht := trace_eq (c := square 1 1 0) (L0 := 2) (dL := 1) (p := if (0 : ℝ) ≠ 0 then 0 * 0 * Real.pi * 20000 else 20000) (by norm_num [square, defaults]) (by norm_num [square])
    (by norm_num [square]) (by norm_num [square]) still 0 0.5 0 0 0.5 0.5 (by norm_num)
  have hp := Real.pi_pos
  obtain ⟨X, Y, hin, T, hT, hr⟩ := H _ _ hi (by norm_num [square]) (by norm_num [square, defaults]) _ _ 0 0.5 0 0 0.5 0.5
    (by norm_num) ht (by
      simp only [ne_eq, not_true_eq_false, if_false, Gen.spectrum, square, defaults, solid]
      norm_num
      positivity)
  have hx := congrArg V3.x hr
  have hz := congrArg V3.z hr
  have hX : |X| ≤ 1 / 2 := hin.1
  norm_num [square, Gen.point, defaults] at hx hz
  rw [abs_le] at hX
  linarith [hX.2]

/-- **C305** is false for the area if the radius is given together with height and width: the neutrons start in the same rectangle, but the weight is that of
the disk. -/
theorem C305_area_false : ¬ ∀ (c : Gen) (s s' : Ready) (r : ℝ), c.init = .ok s → ({ c with radius := r } : Gen).init = .ok s' → c.h ≠ 0 → c.w ≠ 0 →
    ∀ (e f f' : Event ℝ) (u1 u2 u3 u4 u5 u6 : ℝ), s.trace e u1 u2 u3 u4 u5 u6 = .ok f → s'.trace e u1 u2 u3 u4 u5 u6 = .ok f' →
    f.r = f'.r ∧ f.v = f'.v → f.p = f'.p := by
  intro H
  have hi := square_init (dist := 1) (len := 0) (radius := 0) zero_le_one le_rfl
  have hi' := square_init (dist := 1) (len := 0) (radius := 1) zero_le_one zero_le_one
  have ht := trace_eq (c := square 1 0 0) (L0 := 2) (dL := 1) (p := if (0 : ℝ) ≠ 0 then 0 * 0 * Real.pi * 20000 else 20000) (by norm_num [square, defaults]) (by norm_num [square])
    (by norm_num [square]) (by norm_num [square]) still 0.5 0.5 0.5 0.5 0.5 0.5 (by norm_num)
  have ht' := trace_eq (c := square 1 0 1) (L0 := 2) (dL := 1) (p := if (1 : ℝ) ≠ 0 then 1 * 1 * Real.pi * 20000 else 20000) (by norm_num [square, defaults]) (by norm_num [square])
    (by norm_num [square]) (by norm_num [square]) still 0.5 0.5 0.5 0.5 0.5 0.5 (by norm_num)
  have := H _ _ _ 1 hi hi' (by norm_num [square]) (by norm_num [square]) still _ _ _ _ _ _ _ _ ht ht' ⟨by simp [Gen.point, square], by simp [Gen.point, square]⟩
  norm_num [square, defaults, Gen.spectrum, solid] at this
  have hp := Real.pi_gt_three
  linarith

end Verif.McGen
