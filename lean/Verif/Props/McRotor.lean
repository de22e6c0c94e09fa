import Verif.Lemmas.McRotor
/-!
Property theorems: the Fermi chopper with coated and curved slits.
-/

namespace Verif.McRotor
open McStas Kinem McGuide McWavy
open Classical

/-! ### C285 -/

/-- C285: with straight slits the functions give the coordinates in a frame that turns around y; it is the same after the time 1/nu and
upside down after half of it -/
theorem C285_frame {f : Frame} (hC : f.C = 0) :
    (∀ a b T, f.xrot (f.fixed a b T).x (f.fixed a b T).z T = a ∧ f.zrot (f.fixed a b T).x (f.fixed a b T).z T = b) ∧
    (∀ nu, nu ≠ 0 → f.omega = 2 * Real.pi * nu → ∀ X Z T, f.xrot X Z (T + 1 / nu) = f.xrot X Z T ∧ f.zrot X Z (T + 1 / nu) = f.zrot X Z T ∧
      f.xrot X Z (T + 1 / (2 * nu)) = -f.xrot X Z T ∧ f.zrot X Z (T + 1 / (2 * nu)) = -f.zrot X Z T) := by
  constructor
  · intro a b T
    rw [xrot_straight hC]
    unfold Frame.zrot Frame.fixed Frame.theta
    have := Real.sin_sq_add_cos_sq (f.omega * T + f.ph0)
    constructor
    · linear_combination a * this
    · linear_combination b * this
  · intro nu hnu ho X Z T
    have h1 : f.omega * (T + 1 / nu) + f.ph0 = (f.omega * T + f.ph0) + 2 * Real.pi := by rw [ho]; field_simp; ring
    have h2 : f.omega * (T + 1 / (2 * nu)) + f.ph0 = (f.omega * T + f.ph0) + Real.pi := by rw [ho]; field_simp; ring
    simp only [xrot_straight hC]
    unfold Frame.zrot
    rw [h1, h2, Real.cos_add_two_pi, Real.sin_add_two_pi, Real.cos_add_pi, Real.sin_add_pi]
    refine ⟨rfl, rfl, by ring, by ring⟩

example : ∃ f : Frame, f.C = 0 ∧ f.omega = 2 * Real.pi * 100 ∧ (f.fixed 1 0 0).x = 1 :=
  ⟨⟨2 * Real.pi * 100, 0, 0, 1⟩, rfl, rfl, by simp [Frame.fixed, Frame.theta]⟩

/-- C285, partial: a wall of a curved slit is an arc with the radius 1/C in each half of the slit, with its centre beside the end of the
slit.  Missing: the wall is one arc (`C285_arc_false`), the curvature that is asked for (`C285_memory_false`) -/
theorem C285_half_partial {f : Frame} (hC : f.C ≠ 0) (hL : |f.C| * f.L ≤ 2) {k : ℝ} {T : ℝ} {r : V3 ℝ} (h : f.xrot r.x r.z T = k) :
    (|f.along T r| < f.L / 2 → (f.across T r - (k - 1 / f.C)) ^ 2 + (f.L / 2 - |f.along T r|) ^ 2 = (1 / f.C) ^ 2) ∧
    (f.L / 2 ≤ |f.along T r| → f.across T r = k) := by
  unfold Frame.xrot at h
  simp only at h
  rw [if_pos hC] at h
  constructor
  · intro hz
    have hz' : |f.zrot r.x r.z T| < f.L / 2 := hz
    rw [if_pos hz'] at h
    have hb : (f.L / 2 - |f.along T r|) * f.C * ((f.L / 2 - |f.along T r|) * f.C) ≤ 1 := by
      have h1 : |(f.L / 2 - |f.along T r|) * f.C| ≤ 1 := by
        rw [abs_mul, abs_of_pos (by linarith)]
        have h2 : (f.L / 2 - |f.along T r|) * |f.C| ≤ f.L / 2 * |f.C| :=
          mul_le_mul_of_nonneg_right (by linarith [abs_nonneg (f.along T r)]) (abs_nonneg _)
        linarith
      have h3 := abs_le.1 h1
      nlinarith
    have hs := Real.mul_self_sqrt (sub_nonneg.2 hb)
    have h4 : √(1 - (f.L / 2 - |f.along T r|) * f.C * ((f.L / 2 - |f.along T r|) * f.C)) = 1 - f.C * (k - f.across T r) := by
      have h5 : f.across T r + (1 - √(1 - (f.L / 2 - |f.along T r|) * f.C * ((f.L / 2 - |f.along T r|) * f.C))) / f.C = k := h
      rw [← h5]
      field_simp
      ring
    rw [h4] at hs
    field_simp
    linear_combination 4 * hs
  · intro hz
    have hz' : ¬ |f.zrot r.x r.z T| < f.L / 2 := not_lt.2 hz
    rw [if_neg hz'] at h
    exact h

example : (1 : ℝ) ≠ 0 ∧ |(1 : ℝ)| * (8 / 5) ≤ 2 ∧ |(⟨0, 0, 1, 8 / 5⟩ : Frame).along 0 ⟨0, 0, 1 / 5⟩| < (8 / 5 : ℝ) / 2 := by
  refine ⟨one_ne_zero, by norm_num, ?_⟩
  simp only [Frame.along, Frame.theta]
  norm_num

/-- C285 is false of the code: the wall of a curved slit is not an arc of a circle (the middle is a corner) -/
theorem C285_arc_false : ∃ f : Frame, f.C ≠ 0 ∧ |f.C| * f.L ≤ 2 ∧ 0 < f.L ∧
    ¬ ∃ a b ρ : ℝ, ∀ r : V3 ℝ, |f.along 0 r| < f.L / 2 → f.xrot r.x r.z 0 = 0 → (f.across 0 r - a) ^ 2 + (f.along 0 r - b) ^ 2 = ρ ^ 2 := by
  refine ⟨⟨0, 0, 1, 8 / 5⟩, one_ne_zero, by norm_num, by norm_num, ?_⟩
  rintro ⟨a, b, ρ, h⟩
  have hx : ∀ x z q : ℝ, |z| < 4 / 5 → 0 ≤ q → q * q = 1 - (4 / 5 - |z|) * (4 / 5 - |z|) → x = q - 1 →
      (x - a) ^ 2 + (z - b) ^ 2 = ρ ^ 2 := by
    intro x z q hz hq hq2 hx
    have := h ⟨x, 0, z⟩ (by simp only [Frame.along, Frame.theta]; norm_num; linarith) (by
      unfold Frame.xrot Frame.zrot
      simp only [zero_mul, add_zero, Real.cos_zero, Real.sin_zero, mul_one, mul_zero, sub_zero]
      rw [if_pos one_ne_zero, if_pos (by linarith)]
      rw [show (1 : ℝ) - (8 / 5 / 2 - |z|) * (8 / 5 / 2 - |z|) = q * q by rw [hq2]; ring, Real.sqrt_mul_self hq, hx]
      ring)
    simpa [Frame.along, Frame.across, Frame.theta] using this
  have p1 := hx (-2 / 5) 0 (3 / 5) (by norm_num) (by norm_num) (by norm_num) (by norm_num)
  have p2 := hx (-1 / 5) (1 / 5) (4 / 5) (by norm_num [abs_of_pos]) (by norm_num) (by norm_num [abs_of_pos]) (by norm_num)
  have p3 := hx (-1 / 5) (-(1 / 5)) (4 / 5) (by rw [abs_neg]; norm_num [abs_of_pos]) (by norm_num)
    (by rw [abs_neg]; norm_num [abs_of_pos]) (by norm_num)
  have p4 := hx (-1 / 13) (27 / 65) (12 / 13) (by norm_num [abs_of_pos]) (by norm_num) (by norm_num [abs_of_pos]) (by norm_num)
  have hb : b = 0 := by linarith
  subst hb
  have ha : a = -1 / 5 := by linarith
  subst ha
  norm_num at p1 p4
  linarith

/-- the defaults of the component -/
noncomputable def standard : Par :=
  ⟨0, 0.04, 100, 0, 0, 0.00022475, 200, 0, 0.02176, 2.33, 0, 2e-3, 0.012, 0.95, 0, 0, 0.08, 0, 0, 0, 0, 0, 0⟩

/-- C285 is false of the code: with the defaults (curvature 0) the curvature of the slits is whatever the memory held before -/
theorem C285_memory_false : standard.curvature = 0 ∧ ∀ mem, ∃ c s, setup mem standard = .ok (c, s) ∧ c.C = mem := by
  refine ⟨rfl, fun mem => ?_⟩
  unfold setup
  simp only
  rw [if_neg (by norm_num [standard, Par.compat, Par.span]), if_neg (by norm_num [standard, Par.compat]),
    if_neg (by norm_num [standard, Par.compat, Par.slitW]), if_neg (by norm_num [standard, Par.compat])]
  exact ⟨_, _, rfl, by simp [standard, Par.compat]⟩

/-! ### C286 -/

/-- C286, partial: if the parameters are accepted, the package of slits fits into the cylinder and the rest of the parameters have a sense.
Missing: no more slits are removed than necessary (`C286_slits_false`) -/
theorem C286_partial {mem : ℝ} {p : Par} {c : Fc} {s : St} (h : setup mem p = .ok (c, s)) :
    0 < c.radius ∧ 0 < c.w ∧ 0 < c.height ∧ c.Nslit * c.w ≤ 2 * c.radius ∧ c.length ≤ 2 * c.radius ∧ 0 < c.eff ∧ c.eff ≤ 1 ∧ 0 < c.W ∧
    0 < c.Qc ∧ 0 ≤ c.m ∧ (c.m = 0 → c.R0 = 0) ∧ c.omega = 2 * Real.pi * c.nu ∧ (p.curvature ≠ 0 → c.C = p.curvature ∧ |c.C| * c.length ≤ 2) := by
  unfold setup at h
  simp only at h
  rcases ite_or h with ⟨-, h⟩ | ⟨c1, h⟩
  · simp at h
  rcases ite_or h with ⟨-, h⟩ | ⟨c2, h⟩
  · simp at h
  rcases ite_or h with ⟨-, h⟩ | ⟨c3, h⟩
  · simp at h
  rcases ite_or h with ⟨-, h⟩ | ⟨c4, h⟩
  · simp at h
  simp only [Except.ok.injEq, Prod.mk.injEq] at h
  obtain ⟨rfl, rfl⟩ := h
  have hq : p.compat.curvature = p.curvature := rfl
  rw [← hq]
  generalize p.compat = q at *
  simp only
  have hr : 0 < q.radius := not_le.1 c2
  have hw : 0 < q.slitW := not_le.1 c3
  have hn : q.slits * q.slitW ≤ 2 * q.radius := by
    unfold Par.slits
    split
    · have := Int.floor_le (q.radius / q.slitW)
      have h1 : (⌊q.radius / q.slitW⌋ : ℝ) * q.slitW ≤ q.radius := by rwa [← le_div_iff₀ hw]
      linarith
    · next hh => linarith [not_lt.1 hh]
  have hf : q.full ≤ 2 * q.radius := by
    unfold Par.full
    have : √(q.radius * q.radius - q.slits * q.slitW * q.slits * q.slitW / 4) ≤ q.radius := by
      apply Real.sqrt_le_iff.2
      exact ⟨hr.le, by nlinarith [sq_nonneg (q.slits * q.slitW)]⟩
    linarith
  have hl : q.len ≤ 2 * q.radius := by
    unfold Par.len
    split
    · exact hf
    · split
      · exact hf
      · linarith
  refine ⟨hr, hw, abs_pos.2 (not_le.1 c1).ne', hn, hl, ?_, ?_, ?_, ?_, ?_, ?_, trivial, ?_⟩
  · split
    · norm_num
    · next hh => push Not at hh; exact hh.1
  · split
    · norm_num
    · next hh => push Not at hh; exact hh.2
  · split
    · norm_num
    · next hh => exact not_le.1 hh
  · split
    · norm_num
    · next hh => exact not_le.1 hh
  · split
    · exact le_rfl
    · next hh => push Not at hh; exact hh.2.le
  · intro hm
    split at hm
    · next hh => rw [if_pos hh]
    · next hh => push Not at hh; exact absurd hm hh.2.ne'
  · intro hc
    rw [if_pos hc]
    refine ⟨rfl, ?_⟩
    have h1 : |q.radius * q.curvature| ≤ 1 := by
      by_contra hh
      exact c4 ⟨hc, not_le.1 hh⟩
    rw [abs_mul, abs_of_pos hr] at h1
    have h2 : |q.curvature| * q.len ≤ |q.curvature| * (2 * q.radius) := mul_le_mul_of_nonneg_left hl (abs_nonneg _)
    linarith

example : ∃ c s, setup 0 standard = .ok (c, s) := by
  obtain ⟨c, s, h, -⟩ := C285_memory_false.2 0
  exact ⟨c, s, h⟩

/-- C286: parameters that have a sense are used as they are -/
theorem C286_same {p : Par} (h : p.Good) (mem : ℝ) :
    setup mem p = .ok (⟨2 * Real.pi * p.nu, p.curvature, p.radius, p.height, p.nu, p.w, p.Nslit, p.R0, p.Qc, p.alpha, p.m, p.W, p.length, p.eff,
      p.zeroTime⟩, ⟨p.ph0, 0, 0, 0⟩) := by
  obtain ⟨hh, hr, hw, hn, hN, hl, hm, hQ, hW, he, he', hwi, g1, g2, g3, g4, hc, hc'⟩ := h
  have hq : p.compat = p := by
    cases p
    simp_all [Par.compat]
  have hsp : p.span = p.height := by unfold Par.span; rw [if_pos hh]; ring
  have hsw : p.slitW = p.w := by unfold Par.slitW; rw [if_neg (by intro h; linarith [h.1])]
  have hn0 : p.n0 = p.Nslit := by unfold Par.n0; rw [if_neg (by linarith)]
  have hsl : p.slits = p.Nslit := by unfold Par.slits; rw [hsw, hn0, if_neg (by linarith)]
  have hln : p.len = p.length := by
    unfold Par.len; rw [hsl, if_neg (by linarith), if_neg (by linarith)]
  have hcr : ¬ (p.curvature ≠ 0 ∧ 1 < |p.radius * p.curvature|) := by
    rintro ⟨-, h⟩
    rw [abs_mul, abs_of_pos hr] at h
    rw [le_div_iff₀ hr] at hc'
    linarith
  unfold setup
  simp only [hq, hsp, hsw, hsl, hln]
  rw [if_neg (by linarith), if_neg (by linarith), if_neg (by linarith), if_neg hcr, if_pos hc, abs_of_pos hh,
    if_neg (by push Not; exact ⟨hQ, hm⟩), if_neg (by linarith), if_neg (by push Not; exact ⟨hQ, hm⟩), if_neg (by linarith),
    if_neg (by push Not; exact ⟨he, he'⟩)]

example : (Par.mk 0 0.04 100 0 0 0.00022475 200 1 0.02176 2.33 1 2e-3 0.012 0.95 0 0 0.08 0 0 0 0 10 0).Good := by
  unfold Par.Good
  norm_num [abs_of_pos]

/-- C286: with `time` instead of a phase the slits are along the beam at this time -/
theorem C286_time {p : Par} (h : p.phase = 0) (ht : p.time ≠ 0) : ∃ k : ℤ, 2 * Real.pi * p.nu * p.time + p.ph0 = k * (2 * Real.pi) := by
  unfold Par.ph0 fmod DEG2RAD
  rw [if_pos ⟨h, ht⟩]
  split
  · exact ⟨-⌊-p.time * p.nu * 360 / 360⌋, by push_cast; ring⟩
  · exact ⟨-⌈-p.time * p.nu * 360 / 360⌉, by push_cast; ring⟩

example : { standard with time := 0.001 }.phase = 0 ∧ { standard with time := 0.001 }.time ≠ 0 := by
  constructor
  · rfl
  · norm_num

/-- C286 is false of the code: 100 slits of 1 mm do not fit into a cylinder with a diameter of 80 mm, but 80 do; 40 are left -/
theorem C286_slits_false : ∃ (p : Par) (c : Fc) (s : St), setup 0 p = .ok (c, s) ∧ p.Nslit = 100 ∧ c.w = 1 / 1000 ∧ 80 * c.w ≤ 2 * c.radius ∧
    c.Nslit = 40 := by
  refine ⟨{ standard with w := 1 / 1000, Nslit := 100 }, ?_⟩
  have hw : (Par.compat { standard with w := 1 / 1000, Nslit := 100 }).slitW = 1 / 1000 := by
    unfold Par.slitW
    rw [if_neg (by norm_num [standard, Par.compat])]
    rfl
  have hn : (Par.compat { standard with w := 1 / 1000, Nslit := 100 }).slits = 40 := by
    unfold Par.slits
    rw [hw, if_pos (by norm_num [standard, Par.compat, Par.n0])]
    norm_num [standard, Par.compat]
  unfold setup
  simp only [hw, hn]
  rw [if_neg (by norm_num [standard, Par.compat, Par.span]), if_neg (by norm_num [standard, Par.compat]),
    if_neg (by norm_num), if_neg (by norm_num [standard, Par.compat])]
  exact ⟨_, _, rfl, trivial, rfl, by norm_num [standard, Par.compat], rfl⟩

/-! ### C287 -/

/-- C287: the search gives a time in the interval, or -3 if there is no change of sign, or -2; -1 never -/
theorem C287_range (f : ℝ → ℝ) {dt : ℝ} (hd : 0 ≤ dt) :
    (ridder f dt = -3 ∧ 0 < f 0 * f dt) ∨ (f 0 * f dt ≤ 0 ∧ (ridder f dt = -2 ∨ (0 ≤ ridder f dt ∧ ridder f dt ≤ dt))) :=
  ridder_cases f hd

example : ridder (fun s => s + 1) 1 = -3 := by
  rcases C287_range (fun s => s + 1) (dt := 1) zero_le_one with ⟨h, -⟩ | ⟨h, -⟩
  · exact h
  · norm_num at h

/-- C287, partial: for a function that is linear in the interval, as for a chopper at rest, the time is exact.  Missing: an estimate of the error for
a chopper that turns -/
theorem C287_line_partial {a b dt : ℝ} (hd : 0 ≤ dt) (h : a * (a + b * dt) ≤ 0) (hb : b ≠ 0 ∨ a ≠ 0) :
    0 ≤ ridder (fun s => a + b * s) dt ∧ ridder (fun s => a + b * s) dt ≤ dt ∧ a + b * ridder (fun s => a + b * s) dt = 0 := by
  rcases lt_or_eq_of_le h with h | h
  · rcases C287_range (fun s => a + b * s) hd with ⟨-, h'⟩ | ⟨-, h'⟩
    · simp only [mul_zero, add_zero] at h'; linarith
    · have hb0 : b ≠ 0 := by
        rintro rfl
        rw [zero_mul, add_zero] at h
        have := mul_self_nonneg a
        linarith
      have hl := ridder_line h hd
      rcases h' with h' | h'
      · exfalso
        rw [hl] at h'
        have hab : -a = -2 * b := by rw [div_eq_iff hb0] at h'; exact h'
        have ha : a = 2 * b := by linarith
        rw [ha] at h
        have : 0 ≤ 2 * b * (2 * b + b * dt) := by nlinarith [mul_self_nonneg b, mul_nonneg (mul_self_nonneg b) hd]
        linarith
      · refine ⟨h'.1, h'.2, ?_⟩
        rw [hl]
        field_simp
        ring
  · by_cases ha : a = 0
    · rw [ridder_first (by simp [ha])]
      exact ⟨le_rfl, hd, by simp [ha]⟩
    · have h1 : a + b * dt = 0 := by
        rcases mul_eq_zero.1 h with h | h
        · exact absurd h ha
        · exact h
      rw [ridder_last (by exact h1) (by simpa using ha)]
      exact ⟨hd, le_rfl, h1⟩

example : ridder (fun s => -1 + 3 * s) 1 = 1 / 3 := by
  have := (C287_line_partial (a := -1) (b := 3) (dt := 1) zero_le_one (by norm_num) (Or.inl (by norm_num))).2.2
  linarith

/-! ### C288 -/

/-- C288, partial: with slits without coating a neutron that does not meet the cylinder is not changed, and another one is absorbed or flies
straight and is multiplied with the efficiency.  If it passes it is inside of the opening at the surface of the cylinder and at the beginning
of the slits, and in the same slit at two other times.  Missing: that it stays in the slit between these times (`C288_blades_false`) and that the slits are those of the description
(`C288_single_false`); curved slits; gravity -/
theorem C288_partial {c : Fc} (hm : c.m = 0 ∨ c.R0 = 0) (he : 0 < c.eff) (hC : c.C = 0) (hw : 0 < c.w) (hz : c.zeroTime ≠ 1) {s s' : St} {e e' : Event ℝ}
    (h : c.trace Off s e = .ok (e', s')) :
    (cylinderIntersect e.r e.v c.radius c.height = some none ∧ e' = e) ∨ e'.p < 0 ∨
    ∃ k t1 t2 ta tb, cylinderIntersect e.r e.v c.radius c.height = some (some (k, t1, t2)) ∧ 0 < t1 ∧ t1 ≤ ta ∧ ta ≤ t2 ∧
      e' = { flown Off e tb with p := e.p * c.eff } ∧
      (∀ t, t = t1 ∨ t = ta ∨ t = tb → |(c.frame s'.ph0).across (e.t + t) (flown Off e t).r| < c.Nslit * c.w / 2) ∧
      c.length / 2 ≤ |(c.frame s'.ph0).along (e.t + t1) (flown Off e t1).r| ∧
      |(flown Off e t1).r.y| < 0.99 * c.height / 2 ∧ |(flown Off e tb).r.y| < 0.99 * c.height / 2 ∧
      ∃ n d, d = (let r := ridder (fun s => (c.frame s'.ph0).along (e.t + (ta + s)) (flown Off e (ta + s)).r -
            -(if (c.frame s'.ph0).along (e.t + t1) (flown Off e t1).r > 0 then c.length / 2 else -c.length / 2)) (t2 - ta)
          if r < 0 ∨ r > t2 - ta then t2 - ta else r) ∧
        ∀ t, t = 0 ∨ t = d ∨ t = (c.frame s'.ph0).tangent (flown Off e ta) d →
          InSlit c.w n ((c.frame s'.ph0).across (e.t + (ta + t)) (flown Off e (ta + t)).r) := by
  have hr : c.reset e.t = e.t := by unfold Fc.reset; rw [if_neg (by intro h; exact hz h.1)]
  rcases trace_cases hr h with ⟨h1, h2, -⟩ | ⟨h1, -⟩ | ⟨k, t1, t2, e2, hcy, ht1, hsl, hy, hl⟩
  · exact Or.inl ⟨h1, h2⟩
  · exact Or.inr (Or.inl (by rw [h1]; norm_num))
  obtain ⟨-, hph, hl⟩ := leave_cases he hl
  rw [← hph] at hsl hl
  rcases hl with hl | ⟨t, he', hy', hx'⟩
  · exact Or.inr (Or.inl hl)
  obtain ⟨a, d, d', ha, he2, hx1, hx2, hz1, ha', hd, hd', hn1, hn2⟩ := slots_dark hm hsl
  right; right
  have hF : (c.frame s'.ph0).C = 0 := hC
  have hx : ∀ e : Event ℝ, (c.frame s'.ph0).xrot e.r.x e.r.z e.t = (c.frame s'.ph0).across e.t e.r := fun e => xrot_straight hF _ _ _
  rw [flown_twice] at he2
  have hp : e2.p = e.p := by rw [he2]; rfl
  have hft : flown Off e2 t = flown Off e (t1 + a + t) := by rw [he2, flown_twice]
  rw [hft, hp] at he'
  rw [hx] at hx1 hx2
  have hx3 : |(c.frame s'.ph0).across (e.t + (t1 + a + t)) (flown Off e (t1 + a + t)).r| < c.Nslit * c.w / 2 := by
    rw [hx] at hx'
    rw [he'] at hx'
    exact hx'
  have hy3 : |(flown Off e (t1 + a + t)).r.y| < 0.99 * c.height / 2 := by
    rw [he'] at hy'; exact hy'
  refine ⟨k, t1, t2, t1 + a, t1 + a + t, hcy, ht1, by linarith, by linarith, he', ?_, hz1, hy, hy3,
    ⌊(c.frame s'.ph0).across e2.t e2.r / c.w⌋, d, ?_, ?_⟩
  · rintro u (rfl | rfl | rfl)
    · exact hx1
    · rw [he2] at hx2; exact hx2
    · exact hx3
  · rw [hd]
    have hf : (fun s => (c.frame s'.ph0).zAt e2 s -
        -(if (c.frame s'.ph0).zrot (flown Off e t1).r.x (flown Off e t1).r.z (flown Off e t1).t > 0 then c.length / 2 else -c.length / 2)) =
        fun s => (c.frame s'.ph0).along (e.t + (t1 + a + s)) (flown Off e (t1 + a + s)).r -
            -(if (c.frame s'.ph0).along (e.t + t1) (flown Off e t1).r > 0 then c.length / 2 else -c.length / 2) := by
      funext s
      rw [zAt_flown, he2, flown_twice]
      rfl
    rw [hf, show t2 - t1 - a = t2 - (t1 + a) by ring]
  · have hxa : ∀ u, (c.frame s'.ph0).xAt e2 u = (c.frame s'.ph0).across (e.t + (t1 + a + u)) (flown Off e (t1 + a + u)).r := by
      intro u
      rw [xAt_flown, hx, he2, flown_twice]
      rfl
    rintro u (rfl | rfl | rfl)
    · rw [← hxa, ← slit_iff hw]
      rw [xAt_flown, hx, flown_none]
    · rw [← hxa, ← slit_iff hw, hn1, hx]
    · rw [← he2, ← hd', ← hxa, ← slit_iff hw, hn2, hx]

/-- C288: a chopper at rest with straight slits along z, without coating, lets exactly those neutrons to the exit that are inside of the opening and
stay in one of the slits -/
theorem C288_rest {c : Fc} (hm : c.m = 0 ∨ c.R0 = 0) (hw : 0 < c.w) (hL : 0 < c.length) (ho : c.omega = 0) (hC : c.C = 0) {e : Event ℝ} {dt : ℝ}
    (hv : 0 < e.v.z) (hz : e.r.z ≤ -(c.length / 2)) (hd : c.length / 2 ≤ e.r.z + e.v.z * dt) :
    c.slots (c.frame 0) Off e dt =
      if |e.r.x| < c.Nslit * c.w / 2 ∧ |(flown Off e ((-(c.length / 2) - e.r.z) / e.v.z)).r.x| < c.Nslit * c.w / 2 ∧
        ∃ n : ℤ, ∀ s, 0 ≤ s → s ≤ c.length / e.v.z → InSlit c.w n (flown Off e ((-(c.length / 2) - e.r.z) / e.v.z + s)).r.x
      then some (flown Off e ((-(c.length / 2) - e.r.z) / e.v.z)) else none := by
  have : c.frame 0 = still c.length := by unfold Fc.frame still; rw [ho, hC]
  rw [this]
  exact still_slots hm hw hL hv hz hd

/-- a chopper at rest -/
noncomputable def resting (N : ℝ) : Fc := ⟨0, 0, 5, 2, 0, 1, N, 0, 1, 0, 0, 1, 6, 1, 0⟩

example : (resting 4).slots ((resting 4).frame 0) Off ⟨⟨1 / 2, 0, -4⟩, ⟨0, 0, 1⟩, 0, 0, 0, 1⟩ 8 =
    some (flown Off ⟨⟨1 / 2, 0, -4⟩, ⟨0, 0, 1⟩, 0, 0, 0, 1⟩ 1) := by
  rw [C288_rest (Or.inl rfl) (by norm_num [resting]) (by norm_num [resting]) rfl rfl (by norm_num) (by norm_num [resting])
    (by norm_num [resting]), if_pos]
  · norm_num [resting]
  · refine ⟨by norm_num [resting, abs_of_pos], by rw [off_x]; norm_num [resting, abs_of_pos], 0, fun s _ _ => ?_⟩
    rw [off_x]
    unfold InSlit
    norm_num [resting]

/-- C288: with an even number of slits the opening is divided into as many slits -/
theorem C288_even {w : ℝ} (hw : 0 < w) (k : ℕ) (x : ℝ) : |x| < (2 * k : ℝ) * w / 2 → ∃! n : ℤ, InSlit w n x ∧ -(k : ℤ) ≤ n ∧ n < k := by
  intro h
  obtain ⟨h1, h2⟩ := abs_lt.1 h
  refine ⟨⌊x / w⌋, ⟨(slit_iff hw _ _).1 rfl, ?_, ?_⟩, fun n hn => ((slit_iff hw _ _).2 hn.1).symm⟩
  · rw [Int.le_floor, le_div_iff₀ hw]
    push_cast
    linarith
  · rw [Int.floor_lt, div_lt_iff₀ hw]
    push_cast
    linarith

example : |(1 : ℝ)| < (2 * (2 : ℕ) : ℝ) * 1 / 2 := by norm_num

/-- C288 is false of the code: with a single slit there is a wall in the middle of it.  The opening is from -1/2 to 1/2; a neutron that stays between
-1/10 and 1/10 is absorbed -/
theorem C288_single_false : ∃ (c : Fc) (e : Event ℝ) (dt : ℝ), c.Nslit = 1 ∧ c.w = 1 ∧ c.omega = 0 ∧ c.C = 0 ∧ 0 < e.v.z ∧
    e.r.z ≤ -(c.length / 2) ∧ c.length / 2 ≤ e.r.z + e.v.z * dt ∧ (∀ s, 0 ≤ s → s ≤ dt → |(flown Off e s).r.x| ≤ 1 / 10) ∧
    c.slots (c.frame 0) Off e dt = none := by
  refine ⟨resting 1, ⟨⟨-1 / 10, 0, -4⟩, ⟨1 / 5, 0, 8⟩, 0, 0, 0, 1⟩, 1, rfl, rfl, rfl, rfl, by norm_num, by norm_num [resting], by norm_num [resting],
    ?_, ?_⟩
  · intro s h1 h2
    rw [off_x, abs_le]
    constructor <;> norm_num <;> linarith
  · rw [C288_rest (Or.inl rfl) (by norm_num [resting]) (by norm_num [resting]) rfl rfl (by norm_num) (by norm_num [resting])
      (by norm_num [resting]), if_neg]
    rintro ⟨-, -, n, hn⟩
    have h1 := hn 0 le_rfl (by norm_num [resting])
    have h2 := hn (3 / 4) (by norm_num) (by norm_num [resting])
    rw [off_x] at h1 h2
    unfold InSlit at h1 h2
    norm_num [resting] at h1 h2
    have g1 : (n : ℝ) < 0 := by linarith [h1.1]
    have g2 : (-1 : ℝ) < n := by linarith [h2.2]
    have g3 : n < 0 := by exact_mod_cast g1
    have g4 : -1 < n := by exact_mod_cast g2
    omega

/-- a chopper with two slits of 1/10 that makes half a turn in a second, without coating -/
noncomputable def turning : Fc := ⟨2 * Real.pi * (1 / 2), 0, 1, 2, 1 / 2, 1 / 10, 2, 0, 1, 0, 0, 1, 2, 1, 0⟩

theorem turning_setup : setup 0 ⟨0, 1, 1 / 2, 0, 0, 1 / 10, 2, 0, 1, 0, 0, 1, 2, 1, 0, 0, 2, 0, 0, 0, 0, 0, 0⟩ = .ok (turning, ⟨0, 0, 0, 0⟩) := by
  unfold setup
  simp only
  rw [if_neg (by norm_num [Par.compat, Par.span]), if_neg (by norm_num [Par.compat]), if_neg (by norm_num [Par.compat, Par.slitW]),
    if_neg (by norm_num [Par.compat])]
  norm_num [Par.compat, Par.slitW, Par.slits, Par.n0, Par.len, Par.span, Par.ph0, turning]

theorem turning_x (z T : ℝ) : (turning.frame 0).xrot 0 z T = z * Real.sin (Real.pi * T) := by
  rw [xrot_straight rfl]
  simp only [Fc.frame, turning]
  rw [show 2 * Real.pi * (1 / 2) * T + 0 = Real.pi * T by ring]
  ring

theorem turning_z (z T : ℝ) : (turning.frame 0).zrot 0 z T = z * Real.cos (Real.pi * T) := by
  unfold Frame.zrot
  simp only [Fc.frame, turning]
  rw [show 2 * Real.pi * (1 / 2) * T + 0 = Real.pi * T by ring]
  ring

theorem turning_cylinder (z : ℝ) : cylinderIntersect ⟨0, 0, z⟩ ⟨0, 0, 1⟩ turning.radius turning.height = some (some (1, -z - 1, -z + 1)) := by
  rw [cylinder_root (s := 2) (by norm_num) (by norm_num) (by simp only [turning]; ring)]
  simp only [turning]
  unfold cylinderEnds capTime
  norm_num
  constructor <;> ring

theorem cos_three : Real.cos (Real.pi * 3) = -1 := by
  rw [show Real.pi * 3 = Real.pi + 2 * Real.pi by ring, Real.cos_add_two_pi, Real.cos_pi]
theorem sin_three : Real.sin (Real.pi * 3) = 0 := by
  rw [show Real.pi * 3 = Real.pi + 2 * Real.pi by ring, Real.sin_add_two_pi, Real.sin_pi]

theorem turning_passes : turning.trace Off ⟨0, 0, 0, 0⟩ ⟨⟨0, 0, -2⟩, ⟨0, 0, 1⟩, 0, 0, 0, 1⟩ =
    .ok (⟨⟨0, 0, 1⟩, ⟨0, 0, 1⟩, 0, 0, 3, 1⟩, ⟨0, 1, 1, 0⟩) := by
  have h1 : flown Off (⟨⟨0, 0, -2⟩, ⟨0, 0, 1⟩, 0, 0, 0, 1⟩ : Event ℝ) 1 = ⟨⟨0, 0, -1⟩, ⟨0, 0, 1⟩, 0, 0, 1, 1⟩ := by
    ext <;> simp [flown, accel, Off]; norm_num
  have h3 : flown Off (⟨⟨0, 0, -1⟩, ⟨0, 0, 1⟩, 0, 0, 1, 1⟩ : Event ℝ) 2 = ⟨⟨0, 0, 1⟩, ⟨0, 0, 1⟩, 0, 0, 3, 1⟩ := by
    ext <;> simp [flown, accel, Off] <;> norm_num
  have hxa : ∀ s, (turning.frame 0).xAt ⟨⟨0, 0, -1⟩, ⟨0, 0, 1⟩, 0, 0, 1, 1⟩ s = (-1 + s) * Real.sin (Real.pi * (1 + s)) := by
    intro s
    rw [xAt_eq]
    simp only [zero_mul, add_zero, one_mul, turning_x]
  have hza : ∀ s, (turning.frame 0).zAt ⟨⟨0, 0, -1⟩, ⟨0, 0, 1⟩, 0, 0, 1, 1⟩ s = (-1 + s) * Real.cos (Real.pi * (1 + s)) := by
    intro s
    rw [zAt_eq]
    simp only [zero_mul, add_zero, one_mul, turning_z]
  have htan : (turning.frame 0).tangent ⟨⟨0, 0, -1⟩, ⟨0, 0, 1⟩, 0, 0, 1, 1⟩ 2 = 1 := by
    unfold Frame.tangent
    simp only [hxa, turning_x]
    have e1 : (turning.frame 0).xrot (0 + -1 * (turning.frame 0).omega) (1 - 0 * (turning.frame 0).omega) 1 = Real.pi := by
      rw [xrot_straight rfl]
      simp only [Fc.frame, turning]
      rw [show 2 * Real.pi * (1 / 2) * 1 + 0 = Real.pi by ring, Real.cos_pi, Real.sin_pi]
      ring
    have e2 : (turning.frame 0).xrot (0 + (-1 + 1 * 2) * (turning.frame 0).omega) (1 - (0 + 0 * 2) * (turning.frame 0).omega) (1 + 2) = -Real.pi := by
      rw [xrot_straight rfl]
      simp only [Fc.frame, turning]
      rw [show 2 * Real.pi * (1 / 2) * (1 + 2) + 0 = Real.pi * 3 by ring, cos_three, sin_three]
      ring
    rw [e1, e2, show (1 : ℝ) + 2 = 3 by norm_num, sin_three, mul_one, Real.sin_pi]
    have hp := Real.pi_pos
    have hne : Real.pi - -Real.pi ≠ 0 := by intro h; linarith
    have : ((-1 + 2) * 0 - -1 * 0 + (1 * Real.pi - 3 * -Real.pi)) / (Real.pi - -Real.pi) = 2 := by
      rw [div_eq_iff hne]
      ring
    simp only [if_pos hne]
    rw [this, if_neg (by norm_num)]
    norm_num
  have hsl : turning.slots (turning.frame 0) Off ⟨⟨0, 0, -1⟩, ⟨0, 0, 1⟩, 0, 0, 1, 1⟩ 2 = some ⟨⟨0, 0, -1⟩, ⟨0, 0, 1⟩, 0, 0, 1, 1⟩ := by
    unfold Fc.slots
    simp only [turning_x, turning_z, mul_one, Real.sin_pi, Real.cos_pi]
    have hz0 : (-1 : ℝ) * -1 > 0 := by norm_num
    simp only [if_pos hz0]
    rw [if_neg (by norm_num [turning]), if_neg (by norm_num [turning])]
    have r1 : ridder (fun s => (turning.frame 0).zAt ⟨⟨0, 0, -1⟩, ⟨0, 0, 1⟩, 0, 0, 1, 1⟩ s - turning.length / 2) 2 = 0 :=
      ridder_first (by rw [hza]; norm_num [turning])
    rw [r1, if_neg (by norm_num), prop_off le_rfl, flown_none]
    simp only [turning_x, mul_one, Real.sin_pi]
    rw [if_neg (by norm_num [turning])]
    have r2 : ridder (fun s => (turning.frame 0).zAt ⟨⟨0, 0, -1⟩, ⟨0, 0, 1⟩, 0, 0, 1, 1⟩ s - -(turning.length / 2)) (2 - 0) = 2 := by
      rw [sub_zero]
      apply ridder_last
      · rw [hza, show (1 : ℝ) + 2 = 3 by norm_num, cos_three]; norm_num [turning]
      · rw [hza]; norm_num [turning]
    rw [r2, if_neg (by norm_num), loop_dark (Or.inl rfl), htan, hxa, hxa, if_pos]
    rw [show (1 : ℝ) + 2 = 3 by norm_num, sin_three]
    norm_num
  unfold Fc.trace
  have hr : turning.reset 0 = 0 := by unfold Fc.reset; rw [if_neg (by norm_num [turning])]
  simp only [hr]
  rw [turning_cylinder]
  simp only
  rw [if_neg (by norm_num), show -(-2 : ℝ) - 1 = 1 by norm_num, show -(-2 : ℝ) + 1 - 1 = 2 by norm_num, prop_off zero_le_one, h1]
  simp only
  rw [if_neg (by norm_num [turning])]
  have hadj : turning.adjust ⟨0, 0, 0, 0⟩ ⟨⟨0, 0, -1⟩, ⟨0, 0, 1⟩, 0, 0, 1, 1⟩ = ⟨0, 1, 1, 0⟩ := by
    unfold Fc.adjust
    simp only
    rw [if_neg (by norm_num [turning])]
    norm_num
  rw [hadj]
  simp only
  rw [hsl]
  simp only
  unfold Fc.leave
  rw [turning_cylinder]
  simp only
  rw [if_neg (by norm_num), if_neg (by norm_num), show -(-1 : ℝ) + 1 = 2 by norm_num, prop_off (by norm_num), h3]
  simp only [turning_x, sin_three]
  rw [if_neg (by norm_num [turning]), if_neg (by norm_num [turning])]
  norm_num [turning]

-- the hypotheses of `C288_partial` and its third case
example : (turning.m = 0 ∨ turning.R0 = 0) ∧ 0 < turning.eff ∧ turning.C = 0 ∧ 0 < turning.w ∧ turning.zeroTime ≠ 1 ∧
    ∃ e' s', turning.trace Off ⟨0, 0, 0, 0⟩ ⟨⟨0, 0, -2⟩, ⟨0, 0, 1⟩, 0, 0, 0, 1⟩ = .ok (e', s') ∧ ¬ e'.p < 0 :=
  ⟨Or.inl rfl, by norm_num [turning], rfl, by norm_num [turning], by norm_num [turning], _, _, turning_passes, by norm_num⟩

/-- C288 is false of the code: only three times are tested.  A slow neutron passes a chopper without coating though it is outside of the slits, in the body
of the package, on its way -/
theorem C288_blades_false : ∃ (p : Par) (c : Fc) (s s' : St) (e e' : Event ℝ) (t : ℝ), setup 0 p = .ok (c, s) ∧ c.m = 0 ∧ c.C = 0 ∧
    c.trace Off s e = .ok (e', s') ∧ 0 < e'.p ∧ 0 < t ∧ e.t + t < e'.t ∧ |(c.frame s'.ph0).along (e.t + t) (flown Off e t).r| < c.length / 2 ∧
    c.Nslit * c.w / 2 < |(c.frame s'.ph0).across (e.t + t) (flown Off e t).r| := by
  refine ⟨_, turning, _, _, _, _, 5 / 2, turning_setup, rfl, rfl, turning_passes, by norm_num, by norm_num, by norm_num, ?_, ?_⟩
  · have h := turning_z (1 / 2) (5 / 2)
    unfold Frame.along Frame.theta
    unfold Frame.zrot at h
    rw [off_x, off_z]
    norm_num at h ⊢
    rw [h, show Real.pi * (5 / 2) = Real.pi / 2 + 2 * Real.pi by ring, Real.cos_add_two_pi, Real.cos_pi_div_two]
    norm_num [turning]
  · have h := turning_x (1 / 2) (5 / 2)
    rw [xrot_straight rfl] at h
    unfold Frame.across Frame.theta
    rw [off_x, off_z]
    norm_num at h ⊢
    rw [h, show Real.pi * (5 / 2) = Real.pi / 2 + 2 * Real.pi by ring, Real.sin_add_two_pi, Real.sin_pi_div_two]
    norm_num [turning, abs_of_pos]

/-! ### C289 -/

/-- C289, partial: with straight slits no neutron changes its speed.  Missing: curved slits (the shift of the coordinate is added to velocities that are smaller
than half of the length), gravity -/
theorem C289_speed_partial {c : Fc} (he : 0 < c.eff) (hC : c.C = 0) (hz : c.zeroTime ≠ 1) {s s' : St} {e e' : Event ℝ}
    (h : c.trace Off s e = .ok (e', s')) : e'.v.x ^ 2 + e'.v.z ^ 2 = e.v.x ^ 2 + e.v.z ^ 2 ∧ e'.v.y = e.v.y := by
  have hr : c.reset e.t = e.t := by unfold Fc.reset; rw [if_neg (by intro h; exact hz h.1)]
  rcases trace_cases hr h with ⟨-, h2, -⟩ | ⟨-, h2⟩ | ⟨k, t1, t2, e2, hcy, ht1, hsl, hy, hl⟩
  · rw [h2]; exact ⟨rfl, rfl⟩
  · rw [h2]; exact ⟨rfl, rfl⟩
  · have h3 := slots_speed (f := c.frame _) hC hsl
    rw [off_v'] at h3
    rw [(leave_cases he hl).1]
    exact h3

example : 0 < turning.eff ∧ turning.C = 0 ∧ turning.zeroTime ≠ 1 ∧
    ∃ r, turning.trace Off ⟨0, 0, 0, 0⟩ ⟨⟨0, 0, -2⟩, ⟨0, 0, 1⟩, 0, 0, 0, 1⟩ = .ok r :=
  ⟨by norm_num [turning], rfl, by norm_num [turning], _, turning_passes⟩

/-- C289, partial: a reflection at a chopper that does not turn is that of a mirror along the slits, with the reflectivity of the coating for this momentum transfer.
Missing: a chopper that turns (`C289_moving_false`) -/
theorem C289_mirror_partial {c : Fc} {f : Frame} (hC : f.C = 0) (ho : f.omega = 0) {e e' : Event ℝ} (h : c.reflect f e = some e') :
    Mirror' f e e' ∧ ∃ R, c.weight (2 * V2K * |f.across e.t e.v|) = some R ∧ e'.p = e.p * R := by
  unfold Fc.reflect at h
  simp only [Option.map_eq_some_iff] at h
  obtain ⟨R, hR, rfl⟩ := h
  have hx : f.xrot e.v.x e.v.z e.t = f.across e.t e.v := xrot_straight hC _ _ _
  have hz : f.zrot e.v.x e.v.z e.t = f.along e.t e.v := rfl
  rw [hx] at hR
  refine ⟨⟨rfl, rfl, ?_, ?_, rfl⟩, R, hR, rfl⟩
  · rw [xrot_straight hC, hx, hz]
    unfold Frame.across Frame.along Frame.relative Frame.theta Frame.zrot
    simp only [ho]
    have := Real.sin_sq_add_cos_sq (0 * e.t + f.ph0)
    linear_combination (-(e.v.x * Real.cos (0 * e.t + f.ph0)) - e.v.z * Real.sin (0 * e.t + f.ph0)) * this
  · rw [xrot_straight hC, hx, hz]
    unfold Frame.across Frame.along Frame.relative Frame.theta Frame.zrot
    simp only [ho]
    have := Real.sin_sq_add_cos_sq (0 * e.t + f.ph0)
    linear_combination (e.v.z * Real.cos (0 * e.t + f.ph0) - e.v.x * Real.sin (0 * e.t + f.ph0)) * this

/-- C289 is false of the code: the motion of the mirror is ignored.  Whenever the chopper turns and the neutron is not in the middle of the slit, the
reflection is not that of the mirror; a neutron whose velocity is along the slits goes on into the wall -/
theorem C289_moving_false {c : Fc} {f : Frame} (hC : f.C = 0) {e e' : Event ℝ} (ho : f.omega * f.along e.t e.r ≠ 0)
    (h : c.reflect f e = some e') :
    ¬ Mirror' f e e' ∧ (f.across e.t e.v = 0 → f.across e.t (f.relative e') = f.across e.t (f.relative e)) := by
  unfold Fc.reflect at h
  simp only [Option.map_eq_some_iff] at h
  obtain ⟨R, hR, rfl⟩ := h
  have hx : f.xrot e.v.x e.v.z e.t = f.across e.t e.v := xrot_straight hC _ _ _
  have hz : f.zrot e.v.x e.v.z e.t = f.along e.t e.v := rfl
  have h1 : ∀ e1 : Event ℝ, e1.r = e.r → f.across e.t (f.relative e1) = f.across e.t e1.v + f.omega * f.along e.t e.r := by
    intro e1 he1
    unfold Frame.across Frame.relative Frame.along
    rw [he1]
    ring
  have h2 : f.across e.t ⟨f.xrot (-f.xrot e.v.x e.v.z e.t) (-f.zrot e.v.x e.v.z e.t) e.t, e.v.y, f.zrot (- -f.xrot e.v.x e.v.z e.t) (f.zrot e.v.x e.v.z e.t) e.t⟩ =
      -f.across e.t e.v := by
    rw [xrot_straight hC, hx, hz]
    unfold Frame.across Frame.along Frame.theta Frame.zrot
    have := Real.sin_sq_add_cos_sq (f.omega * e.t + f.ph0)
    linear_combination (-(e.v.x * Real.cos (f.omega * e.t + f.ph0)) - e.v.z * Real.sin (f.omega * e.t + f.ph0)) * this
  constructor
  · rintro ⟨-, -, h3, -⟩
    rw [h1 e rfl, h1 ⟨e.r, ⟨_, _, _⟩, e.s1, e.s2, e.t, e.p * R⟩ rfl, h2] at h3
    apply ho
    linarith
  · intro h0
    rw [h1 e rfl, h1 ⟨e.r, ⟨_, _, _⟩, e.s1, e.s2, e.t, e.p * R⟩ rfl, h2, h0]
    ring

example : ∃ (c : Fc) (f : Frame) (e e' : Event ℝ), f.C = 0 ∧ f.omega * f.along e.t e.r ≠ 0 ∧ c.reflect f e = some e' ∧ f.across e.t e.v = 0 := by
  refine ⟨⟨0, 0, 1, 1, 0, 1, 2, 1, 1, 0, 1, 1, 1, 1, 0⟩, ⟨1, 0, 0, 1⟩, ⟨⟨0, 0, 1⟩, ⟨0, 0, 1⟩, 0, 0, 0, 1⟩, ?_⟩
  suffices h : ∃ e', (⟨0, 0, 1, 1, 0, 1, 2, 1, 1, 0, 1, 1, 1, 1, 0⟩ : Fc).reflect ⟨1, 0, 0, 1⟩ ⟨⟨0, 0, 1⟩, ⟨0, 0, 1⟩, 0, 0, 0, 1⟩ = some e' by
    obtain ⟨e', h⟩ := h
    refine ⟨e', rfl, ?_, h, ?_⟩
    · simp [Frame.along, Frame.theta]
    · simp [Frame.across, Frame.theta]
  unfold Fc.reflect Fc.weight
  simp only
  rw [if_neg (by rw [xrot_straight rfl]; simp)]
  exact ⟨_, rfl⟩

/-- C289, partial: a chopper at rest reflects a neutron that meets a wall in the second half of its way through the slits, once, with the reflectivity of the coating.
Missing: a wall in the first half (`C289_lost_false`) -/
theorem C289_once_partial {c : Fc} (hm : c.m ≠ 0) (hR0 : c.R0 ≠ 0) (hw : 0 < c.w) (k : ℕ) {e : Event ℝ} {dt t R : ℝ} {n : ℤ} (hn : InSlit c.w n e.r.x) (h1 : dt / 2 < t)
    (h2 : t < dt) (hd : 0 < dt) (hz : |(flown Off e t).r.z| ≤ c.length / 2)
    (hx : e.v.x > 0 ∧ (flown Off e t).r.x = (n + 1) * c.w ∨ e.v.x < 0 ∧ (flown Off e t).r.x = n * c.w)
    (hR : c.weight (2 * V2K * |e.v.x|) = some R) :
    c.loop (still c.length) Off (k + 3) e dt n = some { flown Off e t with v := ⟨-e.v.x, e.v.y, e.v.z⟩, p := e.p * R } := by
  obtain ⟨n1, n2⟩ := hn
  rw [off_x] at hx
  rw [off_z] at hz
  rw [Fc.loop]
  simp only [still_tangent _ _ hd.le, still_xAt]
  have hn3 : ⌊(e.r.x + e.v.x * (dt / 2)) / c.w⌋ = n := by
    rw [slit_iff hw]
    rcases hx with ⟨hv, hx⟩ | ⟨hv, hx⟩
    · have : 0 < e.v.x * (dt / 2) := by positivity
      have : e.v.x * (dt / 2) < e.v.x * t := mul_lt_mul_of_pos_left h1 hv
      exact ⟨by linarith, by linarith⟩
    · have : e.v.x * (dt / 2) < 0 := mul_neg_of_neg_of_pos hv (by linarith)
      have : e.v.x * t < e.v.x * (dt / 2) := mul_lt_mul_of_neg_left h1 hv
      exact ⟨by linarith, by linarith⟩
  have hn2 : ⌊(e.r.x + e.v.x * dt) / c.w⌋ ≠ n := by
    intro hc
    rw [slit_iff hw] at hc
    obtain ⟨a, b⟩ := hc
    rcases hx with ⟨hv, hx⟩ | ⟨hv, hx⟩
    · have : e.v.x * t < e.v.x * dt := mul_lt_mul_of_pos_left h2 hv
      linarith
    · have : e.v.x * dt < e.v.x * t := mul_lt_mul_of_neg_left h2 hv
      linarith
  have hwall : c.wall n ⌊(e.r.x + e.v.x * dt) / c.w⌋ = e.r.x + e.v.x * t := by
    unfold Fc.wall
    rcases hx with ⟨hv, hx⟩ | ⟨hv, hx⟩
    · rw [if_pos, hx]
      have : e.v.x * t < e.v.x * dt := mul_lt_mul_of_pos_left h2 hv
      have h3 : n + 1 ≤ ⌊(e.r.x + e.v.x * dt) / c.w⌋ := by
        rw [Int.le_floor, le_div_iff₀ hw]
        push_cast
        linarith
      omega
    · rw [if_neg, hx]
      have : e.v.x * dt < e.v.x * t := mul_lt_mul_of_neg_left h2 hv
      have h3 : ⌊(e.r.x + e.v.x * dt) / c.w⌋ < n := by
        rw [Int.floor_lt, div_lt_iff₀ hw]
        linarith
      omega
  have hv0 : e.v.x ≠ 0 := by rcases hx with ⟨hv, -⟩ | ⟨hv, -⟩ <;> linarith
  have ht0 : 0 < t := by linarith
  have hnn : ¬ n ≠ n := by simp
  rw [hn3, if_pos (Or.inl hn2), if_neg (by tauto)]
  simp only [if_neg hnn]
  rw [hwall]
  have ht : (still c.length).toWall e dt (e.r.x + e.v.x * t) = t := by
    unfold Frame.toWall
    have hf : (fun s => (still c.length).xAt e s - (e.r.x + e.v.x * t)) = fun s => -(e.v.x * t) + e.v.x * s := by
      funext s; rw [still_xAt]; ring
    rw [hf, ridder_line (by
      have h5 : 0 < e.v.x * e.v.x := mul_self_pos.2 hv0
      have h6 : 0 < t * (dt - t) := mul_pos ht0 (by linarith)
      have h7 := mul_pos h5 h6
      nlinarith) hd.le]
    simp only
    rw [show -(-(e.v.x * t)) / e.v.x = t by field_simp, if_neg (by push Not; exact ⟨ht0.le, h2.le⟩)]
  rw [ht, still_zAt, if_neg (not_lt.2 hz), prop_off ht0.le]
  have hrf : c.reflect (still c.length) (flown Off e t) = some { flown Off e t with p := e.p * R, v := ⟨-e.v.x, e.v.y, e.v.z⟩ } := by
    unfold Fc.reflect
    simp only [still_x, still_z, off_v', hR]
    rfl
  rw [hrf]
  simp only
  rw [Fc.loop]
  simp only [still_tangent _ _ (by linarith : (0 : ℝ) ≤ dt - t), still_xAt, off_x]
  have hin : ∀ u, 0 < u → u < t → ⌊(e.r.x + e.v.x * t + -e.v.x * u) / c.w⌋ = n := by
    intro u hu hu'
    rw [slit_iff hw]
    rcases hx with ⟨hv, hx⟩ | ⟨hv, hx⟩
    · have : 0 < e.v.x * u := mul_pos hv hu
      have : e.v.x * u < e.v.x * t := mul_lt_mul_of_pos_left hu' hv
      exact ⟨by linarith, by linarith⟩
    · have : e.v.x * u < 0 := mul_neg_of_neg_of_pos hv hu
      have : e.v.x * t < e.v.x * u := mul_lt_mul_of_neg_left hu' hv
      exact ⟨by linarith, by linarith⟩
  rw [hin (dt - t) (by linarith) (by linarith), hin ((dt - t) / 2) (by linarith) (by linarith), if_neg (by simp), if_neg (by omega)]

/-- a chopper at rest with perfect mirrors -/
noncomputable def mirrors : Fc := ⟨2 * Real.pi * 0, 0, 13 / 5, 2, 0, 1, 4, 1, 1, 0, 1, 1, 2, 1, 0⟩

example : mirrors.loop (still 2) Off 3 ⟨⟨1 / 2, 0, -1⟩, ⟨1, 0, 3⟩, 0, 0, 0, 1⟩ (2 / 3) 0 =
    some { flown Off ⟨⟨1 / 2, 0, -1⟩, ⟨1, 0, 3⟩, 0, 0, 0, 1⟩ (1 / 2) with v := ⟨-1, 0, 3⟩, p := 1 } := by
  have h := C289_once_partial (c := mirrors) (by norm_num [mirrors]) (by norm_num [mirrors]) (by norm_num [mirrors]) 0
    (e := ⟨⟨1 / 2, 0, -1⟩, ⟨1, 0, 3⟩, 0, 0, 0, 1⟩) (dt := 2 / 3) (t := 1 / 2) (R := 1) (n := 0) (by norm_num [InSlit, mirrors]) (by norm_num) (by norm_num)
    (by norm_num) (by rw [off_z]; norm_num [mirrors, abs_of_pos]) (by left; rw [off_x]; norm_num [mirrors])
    (by unfold Fc.weight V2K; norm_num [mirrors])
  simpa [mirrors] using h

theorem mirrors_setup : setup 0 ⟨0, 13 / 5, 0, 0, 0, 1, 4, 1, 1, 0, 1, 1, 2, 1, 0, 0, 2, 0, 0, 0, 0, 0, 0⟩ = .ok (mirrors, ⟨0, 0, 0, 0⟩) := by
  unfold setup
  simp only
  rw [if_neg (by norm_num [Par.compat, Par.span]), if_neg (by norm_num [Par.compat]), if_neg (by norm_num [Par.compat, Par.slitW]),
    if_neg (by norm_num [Par.compat])]
  norm_num [Par.compat, Par.slitW, Par.slits, Par.n0, Par.len, Par.span, Par.ph0, mirrors]

theorem mirrors_lost : mirrors.slots (still 2) Off ⟨⟨-16 / 25, 0, -63 / 25⟩, ⟨3, 0, 4⟩, 0, 0, 1, 1⟩ (24 / 25) = none := by
  have hv : 2 * V2K * 3 ≤ mirrors.Qc := by norm_num [V2K, mirrors]
  unfold Fc.slots
  simp only [still_x, still_z]
  have hz0 : ¬ ((-63 / 25 : ℝ) > 0) := by norm_num
  simp only [if_neg hz0]
  rw [if_neg (by norm_num [mirrors, abs_of_neg]), if_neg (by norm_num [mirrors, abs_of_neg])]
  have r1 : ridder (fun s => (still 2).zAt ⟨⟨-16 / 25, 0, -63 / 25⟩, ⟨3, 0, 4⟩, 0, 0, 1, 1⟩ s - -mirrors.length / 2) (24 / 25) = 19 / 50 := by
    have hf : (fun s => (still 2).zAt ⟨⟨-16 / 25, 0, -63 / 25⟩, ⟨3, 0, 4⟩, 0, 0, 1, 1⟩ s - -mirrors.length / 2) = fun s => -38 / 25 + 4 * s := by
      funext s; rw [still_zAt]; norm_num [mirrors]; ring
    rw [hf, ridder_line (by norm_num) (by norm_num)]
    norm_num
  have hfl : flown Off (⟨⟨-16 / 25, 0, -63 / 25⟩, ⟨3, 0, 4⟩, 0, 0, 1, 1⟩ : Event ℝ) (19 / 50) = ⟨⟨1 / 2, 0, -1⟩, ⟨3, 0, 4⟩, 0, 0, 69 / 50, 1⟩ := by
    ext
    · rw [off_x]; norm_num
    · rw [off_y]; norm_num
    · rw [off_z]; norm_num
    · rw [off_v']
    · rw [off_v']
    · rw [off_v']
    · rfl
    · rfl
    · rw [off_t]; norm_num
    · rfl
  rw [r1, if_neg (by norm_num), prop_off (by norm_num), hfl]
  simp only
  rw [if_neg (by norm_num [mirrors, abs_of_pos])]
  have r2 : ridder (fun s => (still 2).zAt ⟨⟨1 / 2, 0, -1⟩, ⟨3, 0, 4⟩, 0, 0, 69 / 50, 1⟩ s - -(-mirrors.length / 2)) (24 / 25 - 19 / 50) = 1 / 2 := by
    have hf : (fun s => (still 2).zAt ⟨⟨1 / 2, 0, -1⟩, ⟨3, 0, 4⟩, 0, 0, 69 / 50, 1⟩ s - -(-mirrors.length / 2)) = fun s => -2 + 4 * s := by
      funext s; rw [still_zAt]; norm_num [mirrors]; ring
    rw [hf, ridder_line (by norm_num) (by norm_num)]
    norm_num
  have hn : ⌊(1 / 2 : ℝ) / mirrors.w⌋ = 0 := by norm_num [mirrors]
  rw [r2, if_neg (by norm_num), hn, Fc.loop]
  simp only [still_tangent _ _ (by norm_num : (0 : ℝ) ≤ 1 / 2), still_xAt]
  have hn3 : ⌊((1 : ℝ) / 2 + 3 * (1 / 2 / 2)) / mirrors.w⌋ = 1 := by
    rw [Int.floor_eq_iff]; norm_num [mirrors]
  rw [hn3, if_pos (Or.inr one_ne_zero), if_neg (by norm_num [mirrors]), if_pos one_ne_zero, if_pos one_ne_zero]
  have hwall : mirrors.wall 0 1 = 1 := by norm_num [Fc.wall, mirrors]
  have ht : (still 2).toWall ⟨⟨1 / 2, 0, -1⟩, ⟨3, 0, 4⟩, 0, 0, 69 / 50, 1⟩ (1 / 2 / 2) (mirrors.wall 0 1) = 1 / 6 := by
    unfold Frame.toWall
    have hf : (fun s => (still 2).xAt ⟨⟨1 / 2, 0, -1⟩, ⟨3, 0, 4⟩, 0, 0, 69 / 50, 1⟩ s - mirrors.wall 0 1) = fun s => -1 / 2 + 3 * s := by
      funext s; rw [still_xAt, hwall]; ring
    rw [hf, ridder_line (by norm_num) (by norm_num)]
    norm_num
  rw [ht, still_zAt, if_neg (by norm_num [mirrors, abs_of_neg]), prop_off (by norm_num)]
  generalize he : flown Off (⟨⟨1 / 2, 0, -1⟩, ⟨3, 0, 4⟩, 0, 0, 69 / 50, 1⟩ : Event ℝ) (1 / 6) = e1
  have hx1 : e1.r.x = 1 := by rw [← he, off_x]; norm_num
  have hz1 : e1.r.z = -1 / 3 := by rw [← he, off_z]; norm_num
  have hv1 : e1.v = ⟨3, 0, 4⟩ := by rw [← he, off_v']
  have hrf : mirrors.reflect (still 2) e1 = some { e1 with p := e1.p * mirrors.R0, v := ⟨-e1.v.x, e1.v.y, e1.v.z⟩ } := by
    unfold Fc.reflect Fc.weight
    simp only [still_x, still_z]
    rw [if_neg (by rw [hv1, abs_of_pos (by norm_num)]; exact not_lt.2 hv)]
    rfl
  rw [hrf]
  simp only
  apply pingpong (by norm_num [mirrors]) (by norm_num [mirrors]) rfl rfl hv
  · norm_num
  · norm_num
  · exact hx1
  · simp only [hz1]; norm_num [abs_of_neg]
  · right; simp only [hv1]; norm_num

/-- C289 is false of the code: after a reflection the neutron is taken to be in the slit on the other side of the wall.  With perfect mirrors and at rest a neutron that
meets the wall of its slit in the first half of its way is absorbed -/
theorem C289_lost_false : ∃ (p : Par) (c : Fc) (s s' : St) (e e' : Event ℝ) (t : ℝ), setup 0 p = .ok (c, s) ∧ c.omega = 0 ∧ c.C = 0 ∧ c.R0 = 1 ∧
    2 * V2K * |e.v.x| ≤ c.Qc ∧ 0 < t ∧ (flown Off e t).r.x = c.w ∧ |(flown Off e t).r.z| < c.length / 2 ∧
    (∀ u, 0 ≤ u → u < t → -(c.length / 2) ≤ (flown Off e u).r.z → InSlit c.w 0 (flown Off e u).r.x) ∧
    c.trace Off s e = .ok (e', s') ∧ e'.p = -1 := by
  refine ⟨_, mirrors, _, ⟨0, 1, 1, 0⟩, ⟨⟨-91 / 25, 0, -163 / 25⟩, ⟨3, 0, 4⟩, 0, 0, 0, 1⟩, absorb ⟨⟨-16 / 25, 0, -63 / 25⟩, ⟨3, 0, 4⟩, 0, 0, 1, 1⟩, 116 / 75, mirrors_setup,
    by simp [mirrors], rfl, rfl, by norm_num [mirrors, V2K], by norm_num, by rw [off_x]; norm_num [mirrors], by rw [off_z]; norm_num [mirrors, abs_of_neg],
    ?_, ?_, rfl⟩
  · intro u h0 h1 h2
    rw [off_z] at h2
    rw [off_x]
    unfold InSlit
    norm_num [mirrors] at h2 ⊢
    constructor <;> linarith
  · unfold Fc.trace
    have hr : mirrors.reset 0 = 0 := by unfold Fc.reset; rw [if_neg (by norm_num [mirrors])]
    simp only [hr]
    have hcy : cylinderIntersect (⟨-91 / 25, 0, -163 / 25⟩ : V3 ℝ) ⟨3, 0, 4⟩ mirrors.radius mirrors.height = some (some (1, 1, 49 / 25)) := by
      rw [cylinder_root (s := 24) (by norm_num) (by norm_num) (by simp only [mirrors]; norm_num)]
      simp only [mirrors]
      unfold cylinderEnds capTime
      norm_num
    rw [hcy]
    simp only
    have hfl : flown Off (⟨⟨-91 / 25, 0, -163 / 25⟩, ⟨3, 0, 4⟩, 0, 0, 0, 1⟩ : Event ℝ) 1 = ⟨⟨-16 / 25, 0, -63 / 25⟩, ⟨3, 0, 4⟩, 0, 0, 1, 1⟩ := by
      ext
      · rw [off_x]; norm_num
      · rw [off_y]; norm_num
      · rw [off_z]; norm_num
      · rw [off_v']
      · rw [off_v']
      · rw [off_v']
      · rfl
      · rfl
      · rw [off_t]; norm_num
      · rfl
    rw [if_neg (by norm_num), prop_off zero_le_one, hfl]
    simp only
    rw [if_neg (by norm_num [mirrors])]
    have hadj : mirrors.adjust ⟨0, 0, 0, 0⟩ ⟨⟨-16 / 25, 0, -63 / 25⟩, ⟨3, 0, 4⟩, 0, 0, 1, 1⟩ = ⟨0, 1, 1, 0⟩ := by
      unfold Fc.adjust
      simp only
      rw [if_neg (by norm_num [mirrors])]
      norm_num
    have hfr : mirrors.frame 0 = still 2 := by simp [Fc.frame, still, mirrors]
    rw [hadj]
    simp only
    rw [hfr, show (49 / 25 : ℝ) - 1 = 24 / 25 by norm_num, mirrors_lost]

end Verif.McRotor
