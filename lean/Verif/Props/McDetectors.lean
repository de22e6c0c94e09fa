import Verif.Spec.McDetectors
import Verif.Lemmas.McDetectors
/-!
C171-C173: the monitors of McStas that surround the sample.
-/

namespace Verif.McMon
open McStas Kinem Flight Solid
noncomputable section
open Classical

/-- C171, partial: pixel `i`, `j` of the cylinder with times has the neutrons that leave through the mantle at this time and this
angle; neutrons that leave through the lids or do not come from inside are absorbed.  Missing: the angle of exactly 180 degrees, see
`C171_seam_false`; a flight along the axis, see `C165_axis_false`; gravity. -/
theorem C171_time_partial {G : Gravity} {r h : ℝ} (hh : 0 < h) {t0 t1 : ℝ} (h01 : t0 < t1) {nt nphi : Nat} (hn : 0 < nt)
    (hp : 0 < nphi) {a : Event ℝ → Event ℝ} {es : List (Event ℝ)}
    (ha : ∀ e ∈ es, ∃ b, LeavesCylinder G r h e b ∧ azimuth b ≠ 180 ∧
      ((|b.r.y| < h / 2 ∧ a e = b) ∨ (|b.r.y| = h / 2 ∧ a e = { b with p := -1 }))) :
    (∃ hist, runAll (tofCyl r h t0 t1 nt nphi G) (Hist.zero (nt * nphi)) es = .ok (hist, es.map a) ∧
      ∀ i < nt, ∀ j < nphi, hist.cell (j + i * nphi) =
        tally (fun e => |e.r.y| < h / 2 ∧ InBin t0 t1 nt i (1e6 * e.t) ∧ InBin (-180) 180 nphi j (azimuth e)) (es.map a)) ∧
    ∀ e : Event ℝ, (e.v.x ≠ 0 ∨ e.v.z ≠ 0) → (∀ s ≤ 0, ¬ InCylinder e.r e.v r h s) → ∀ hist,
      tofCyl r h t0 t1 nt nphi G hist e = .ok (hist, { e with p := -1 }) := by
  constructor
  · have hy : ∀ y : ℝ, (y ≥ h / 2 ∨ y ≤ -h / 2) ↔ ¬ |y| < h / 2 := by
      intro y
      rw [abs_lt]
      constructor
      · rintro (h1 | h1) ⟨h2, h3⟩ <;> linarith
      · intro h1
        by_contra hc
        push Not at hc
        exact h1 ⟨by linarith [hc.2], hc.1⟩
    obtain ⟨hist, h1, h2⟩ := run_zero (n := nt * nphi) (trace := tofCyl r h t0 t1 nt nphi G) (a := a) (es := es)
      (sel := fun e => |e.r.y| < h / 2 ∧ 0 ≤ chan (1e6 * e.t) t0 t1 nt ∧ chan (1e6 * e.t) t0 t1 nt < nt)
      (idx := fun e => chan (azimuth e) (-180) 180 nphi + chan (1e6 * e.t) t0 t1 nt * nphi)
      (fun e he hist _ => by
        obtain ⟨b, hb, _, hab⟩ := ha e he
        obtain ⟨k, s0, s1, g1, g2, g3, g4, g5, _⟩ := leaves hh.le hb
        unfold tofCyl
        simp only [g1, if_neg (not_lt.2 g2), g4, hy, micro h01, azimuth_chan hp]
        rcases hab with ⟨hab, hab'⟩ | ⟨hab, hab'⟩
        · rw [hab']
          simp only [hab, not_true_eq_false, if_false, true_and]
          split_ifs with c1 c2
          · exact absurd c1 (by omega)
          · rfl
          · rfl
          · exact absurd c1 (by omega)
        · rw [hab']
          simp only [hab, lt_irrefl, not_false_eq_true, if_true, false_and, if_false]
          rfl)
      (fun e he hs => by
        obtain ⟨b, hb, hz, hab⟩ := ha e he
        refine flat_range hs.2 ((chan_range (by norm_num) hp).2 ?_)
        have hae : azimuth (a e) = azimuth b := by
          rcases hab with ⟨_, h'⟩ | ⟨_, h'⟩ <;> rw [h'] <;> rfl
        rw [hae]
        exact ⟨(azimuth_range b).1.le, lt_of_le_of_ne (azimuth_range b).2 hz⟩)
    refine ⟨hist, h1, fun i _ j hj => ?_⟩
    rw [h2]
    refine tally_congr fun e' he' => ?_
    obtain ⟨e, he, rfl⟩ := List.mem_map.1 he'
    obtain ⟨b, hb, hz, hab⟩ := ha e he
    have hae : azimuth (a e) = azimuth b := by
      rcases hab with ⟨_, h'⟩ | ⟨_, h'⟩ <;> rw [h'] <;> rfl
    have hr : 0 ≤ chan (azimuth (a e)) (-180) 180 nphi ∧ chan (azimuth (a e)) (-180) 180 nphi < nphi := by
      rw [hae]
      exact (chan_range (by norm_num) hp).2 ⟨(azimuth_range b).1.le, lt_of_le_of_ne (azimuth_range b).2 hz⟩
    rw [flat_iff hr hj, ← floor_iff h01 hn, ← floor_iff (by norm_num) hp]
    constructor
    · rintro ⟨⟨q1, _⟩, q2, q3⟩; exact ⟨q1, q2, q3⟩
    · rintro ⟨q1, q2, q3⟩; exact ⟨⟨q1, by omega, by omega⟩, q2, q3⟩
  · intro e hv hs hist
    unfold tofCyl
    rcases C165_cylinder_partial (p := e.r) hv r hh.le with ⟨g1, _⟩ | ⟨k1, k2, s0, s1, g1, _, _, g2, g3⟩
    · simp only [g1]; rfl
    · simp only [g1]
      have : s0 > 0 := by
        by_contra hc
        push Not at hc
        exact hs s0 hc ((g3 s0).2 ⟨le_rfl, g2⟩)
      rw [if_pos this]; rfl

/-- example: a neutron flies from the centre of the cylinder along the beam and leaves it -/
example : LeavesCylinder ⟨false, 0⟩ 1 2 ⟨0, ⟨0, 0, 2⟩, 0, 0, 0, 1⟩ ⟨⟨0, 0, 1⟩, ⟨0, 0, 2⟩, 0, 0, 1 / 2, 1⟩ ∧
    azimuth ⟨⟨0, 0, 1⟩, ⟨0, 0, 2⟩, 0, 0, 1 / 2, 1⟩ = 0 := by
  constructor
  · refine ⟨rfl, .inr (by norm_num), ?_, 1 / 2, ?_, fun s hs => ?_, ?_⟩
    · unfold InCylinder; norm_num
    · unfold InCylinder; norm_num
    · have := hs.1
      simp only [V3.zero_x, V3.zero_z] at this
      nlinarith
    · unfold flown accel; ext <;> norm_num
  · unfold azimuth
    have : (⟨1, 0⟩ : ℂ) = 1 := rfl
    simp only [this, Complex.arg_one]
    norm_num

/-- C171 is false for neutrons that leave the cylinder at 180 degrees: they are counted at -180 degrees of the next time channel, or
outside of the array for the last one. -/
theorem C171_seam_false :
    (∃ (e : Event ℝ) (hist : Hist), runAll (tofCyl 1 2 0 4 4 2 ⟨false, 0⟩) (Hist.zero 8) [e] = .ok (hist, [{ e with
        r := ⟨0, 0, -1⟩, t := 1e-6 }]) ∧ hist.cell (0 + 2 * 2) = ⟨1, 1, 1⟩ ∧ hist.cell (1 + 1 * 2) = ⟨0, 0, 0⟩ ∧ InBin 0 4 4 1 (1e6 * 1e-6)) ∧
    ∃ e : Event ℝ, runAll (tofCyl 1 2 0 4 4 2 ⟨false, 0⟩) (Hist.zero 8) [e] = .error .undefinedBehaviour := by
  have hc : ∀ t, LeavesCylinder ⟨false, 0⟩ 1 2 ⟨0, ⟨0, 0, -1e6⟩, 0, 0, t, 1⟩ ⟨⟨0, 0, -1⟩, ⟨0, 0, -1e6⟩, 0, 0, t + 1e-6, 1⟩ := by
    intro t
    refine ⟨rfl, .inr (by norm_num), ?_, 1e-6, ?_, fun s hs => ?_, ?_⟩
    · unfold InCylinder; norm_num
    · unfold InCylinder; norm_num
    · have := hs.1
      simp only [V3.zero_x, V3.zero_z] at this
      norm_num at this ⊢
      linarith [le_abs_self s]
    · unfold flown accel; ext <;> norm_num
  have hphi : Frames.arctan2 0 (-1) = Real.pi := by
    unfold Frames.arctan2
    have : (⟨-1, 0⟩ : ℂ) = ((-1 : ℝ) : ℂ) := rfl
    rw [this, Complex.arg_ofReal_of_neg (by norm_num)]
  have hd : degrees 0 (-1) = 180 := by
    unfold degrees
    rw [hphi]
    field_simp
  have hj : ⌊((2 : ℕ) : ℝ) / 2 + 180 / (360 / ((2 : ℕ) : ℝ))⌋ = 2 := by
    rw [show ((2 : ℕ) : ℝ) / 2 + 180 / (360 / ((2 : ℕ) : ℝ)) = ((2 : ℤ) : ℝ) by norm_num, Int.floor_intCast]
  constructor
  · refine ⟨⟨0, ⟨0, 0, -1e6⟩, 0, 0, 0, 1⟩, ⟨8, fun m => if (m : ℤ) = 4 then ⟨1, 1, 1⟩ else ⟨0, 0, 0⟩⟩, ?_, ?_, ?_, ?_⟩
    · have hi : chan (0 + 1e-6) (0 * 1e-6) (4 * 1e-6) 4 = 1 := by
        unfold chan
        rw [show (0 + 1e-6 - 0 * 1e-6) * ((4 : ℕ) : ℝ) / (4 * 1e-6 - 0 * 1e-6) = ((1 : ℤ) : ℝ) by norm_num, Int.floor_intCast]
      obtain ⟨k, s0, s1, q1, q2, q3, q4, q5, _⟩ := leaves (by norm_num) (hc 0)
      unfold runAll tofCyl
      simp only [q1, if_neg (not_lt.2 q2), q4, hd, hj, hi]
      norm_num [Hist.add, Hist.zero, Cell.inc, Except.map, bind, Except.bind, runAll]
    · norm_num
    · norm_num
    · unfold InBin; norm_num
  · refine ⟨⟨0, ⟨0, 0, -1e6⟩, 0, 0, 2e-6, 1⟩, ?_⟩
    have hi : chan (2e-6 + 1e-6) (0 * 1e-6) (4 * 1e-6) 4 = 3 := by
      unfold chan
      rw [show ((2e-6 : ℝ) + 1e-6 - 0 * 1e-6) * ((4 : ℕ) : ℝ) / (4 * 1e-6 - 0 * 1e-6) = ((3 : ℤ) : ℝ) by norm_num, Int.floor_intCast]
    obtain ⟨k, s0, s1, q1, q2, q3, q4, q5, _⟩ := leaves (by norm_num) (hc 2e-6)
    unfold runAll tofCyl
    simp only [q1, if_neg (not_lt.2 q2), q4, hd, hj, hi]
    norm_num [Hist.add, Hist.zero, Except.map, bind, Except.bind]

/-- C171, partial: pixel `i`, `j` of the cylinder for positions has the neutrons that leave in the part `i` of the circle and the part
`j` of the height, counted from the middle of the axes.  Missing: angles and heights below 0, see `C171_half_false`; the axes, see
`C171_shift_false`. -/
theorem C171_position_partial {G : Gravity} {r h : ℝ} (hh : 1e-9 ≤ h) {nr ny : Nat} (hn : 0 < nr) (hm : 0 < ny)
    {a : Event ℝ → Event ℝ} {es : List (Event ℝ)}
    (ha : ∀ e ∈ es, LeavesCylinder G r h e (a e) ∧ 0 ≤ azimuth (a e) ∧ 0 ≤ (a e).r.y) :
    ∃ hist, runAll (psdCyl h r nr ny G) (Hist.zero (nr * ny)) es = .ok (hist, es.map a) ∧
      ∀ i < nr, ∀ j < ny, hist.cell (j + i * ny) =
        tally (fun e => InBin 0 360 nr i (azimuth e) ∧ InBin 0 h ny j e.r.y) (es.map a) := by
  have h0 : 0 < h := lt_of_lt_of_le (by norm_num) hh
  have key : ∀ e ∈ es, (0 ≤ azimuth (a e) ∧ azimuth (a e) < 360) ∧ 0 ≤ (a e).r.y ∧ (a e).r.y < h := by
    intro e he
    obtain ⟨g1, g2, g3⟩ := ha e he
    obtain ⟨k, s0, s1, _, _, _, _, g5, _⟩ := leaves h0.le g1
    have := (abs_le.1 g5).2
    have := (azimuth_range (a e)).2
    exact ⟨⟨g2, by linarith⟩, g3, by linarith⟩
  obtain ⟨hist, h1, h2⟩ := run_zero (n := nr * ny) (trace := psdCyl h r nr ny G) (a := a) (es := es)
    (sel := fun e => True) (idx := fun e => chan e.r.y 0 h ny + chan (azimuth e) 0 360 nr * ny)
    (fun e he hist _ => by
      obtain ⟨g1, g2, g3⟩ := ha e he
      obtain ⟨k, s0, s1, q1, q2, q3, q4, q5, _⟩ := leaves h0.le g1
      unfold psdCyl
      have hy : |(a e).r.y| < h - 1e-10 := by
        have : h / 2 < h - 1e-10 := by norm_num at hh ⊢; linarith
        linarith
      simp only [q1, if_neg (not_lt.2 q2), if_neg (not_lt.2 q3), q4, if_pos hy, if_true]
      rw [height_chan, circle_chan])
    (fun e he _ => flat_range ((chan_range (by norm_num) hn).2 (key e he).1) ((chan_range h0 hm).2 (key e he).2))
  refine ⟨hist, h1, fun i _ j hj => ?_⟩
  rw [h2]
  refine tally_congr fun e' he' => ?_
  obtain ⟨e, he, rfl⟩ := List.mem_map.1 he'
  rw [flat_iff ((chan_range h0 hm).2 (key e he).2) hj, floor_iff h0 hm, floor_iff (by norm_num) hn]
  tauto

/-- example: the neutron of the example above leaves at 0 degrees and height 0 -/
example : (1e-9 : ℝ) ≤ 2 ∧ InBin 0 360 10 0 0 ∧ InBin 0 2 10 0 0 := by
  unfold InBin; norm_num

/-- C171 is false for a neutron that leaves in the middle of the axes from -180 to 180 degrees and from `-height/2` to `height/2`: it
is counted in the first pixel. -/
theorem C171_shift_false : ∃ (e b : Event ℝ) (hist : Hist), LeavesCylinder ⟨false, 0⟩ 1 2 e b ∧
    runAll (psdCyl 2 1 10 10 ⟨false, 0⟩) (Hist.zero 100) [e] = .ok (hist, [b]) ∧ hist.cell (0 + 0 * 10) = ⟨1, 1, 1⟩ ∧
    InBin (-180) 180 10 5 (azimuth b) ∧ InBin (-1) 1 10 5 b.r.y ∧ hist.cell (5 + 5 * 10) = ⟨0, 0, 0⟩ := by
  have haz : azimuth ⟨⟨0, 0, 1⟩, ⟨0, 0, 2⟩, 0, 0, 1 / 2, 1⟩ = 0 := by
    unfold azimuth
    have : (⟨1, 0⟩ : ℂ) = 1 := rfl
    simp only [this, Complex.arg_one]
    norm_num
  have hl : LeavesCylinder ⟨false, 0⟩ 1 2 ⟨0, ⟨0, 0, 2⟩, 0, 0, 0, 1⟩ ⟨⟨0, 0, 1⟩, ⟨0, 0, 2⟩, 0, 0, 1 / 2, 1⟩ := by
    refine ⟨rfl, .inr (by norm_num), ?_, 1 / 2, ?_, fun s hs => ?_, ?_⟩
    · unfold InCylinder; norm_num
    · unfold InCylinder; norm_num
    · have := hs.1
      simp only [V3.zero_x, V3.zero_z] at this
      nlinarith
    · unfold flown accel; ext <;> norm_num
  obtain ⟨hist, h1, h2⟩ := C171_position_partial (G := ⟨false, 0⟩) (r := 1) (h := 2) (by norm_num) (nr := 10) (ny := 10) (by norm_num)
    (by norm_num) (a := fun _ => ⟨⟨0, 0, 1⟩, ⟨0, 0, 2⟩, 0, 0, 1 / 2, 1⟩) (es := [⟨0, ⟨0, 0, 2⟩, 0, 0, 0, 1⟩])
    (fun e he => by
      rw [List.mem_singleton] at he
      rw [he]
      exact ⟨hl, haz.symm.le, le_rfl⟩)
  refine ⟨_, _, hist, hl, h1, ?_, ?_, ?_, ?_⟩
  · rw [h2 0 (by norm_num) 0 (by norm_num)]
    unfold tally
    simp only [List.map_cons, List.map_nil]
    rw [List.filter_cons_of_pos (by simp only [decide_eq_true_eq, haz]; unfold InBin; norm_num)]
    simp
  · rw [haz]; unfold InBin; norm_num
  · unfold InBin; norm_num
  · rw [h2 5 (by norm_num) 5 (by norm_num)]
    unfold tally
    simp only [List.map_cons, List.map_nil]
    rw [List.filter_cons_of_neg (by simp only [decide_eq_true_eq, haz]; unfold InBin; norm_num)]
    simp

/-- C171 is false for the half of the circle with negative angles: the neutron is counted outside of the array. -/
theorem C171_half_false : ∃ e b : Event ℝ, LeavesCylinder ⟨false, 0⟩ 1 2 e b ∧ 0 ≤ b.r.y ∧
    runAll (psdCyl 2 1 10 10 ⟨false, 0⟩) (Hist.zero 100) [e] = .error .undefinedBehaviour := by
  have hl : LeavesCylinder ⟨false, 0⟩ 1 2 ⟨0, ⟨-2, 0, 0⟩, 0, 0, 0, 1⟩ ⟨⟨-1, 0, 0⟩, ⟨-2, 0, 0⟩, 0, 0, 1 / 2, 1⟩ := by
    refine ⟨rfl, .inl (by norm_num), ?_, 1 / 2, ?_, fun s hs => ?_, ?_⟩
    · unfold InCylinder; norm_num
    · unfold InCylinder; norm_num
    · have := hs.1
      simp only [V3.zero_x, V3.zero_z] at this
      nlinarith
    · unfold flown accel; ext <;> norm_num
  refine ⟨_, _, hl, le_rfl, ?_⟩
  obtain ⟨k, s0, s1, q1, q2, q3, q4, q5, _⟩ := leaves (by norm_num) hl
  have haz : azimuth ⟨⟨-1, 0, 0⟩, ⟨-2, 0, 0⟩, 0, 0, 1 / 2, 1⟩ = -90 := by
    unfold azimuth
    have : (⟨0, -1⟩ : ℂ) = -Complex.I := by apply Complex.ext <;> simp
    simp only [this, Complex.arg_neg_I]
    field_simp
    norm_num
  have hi : chan (-90) 0 360 10 = -3 := by
    unfold chan
    rw [Int.floor_eq_iff]; norm_num
  have hj : chan 0 0 2 10 = 0 := by
    unfold chan
    rw [Int.floor_eq_iff]; norm_num
  unfold runAll psdCyl
  simp only [q1, if_neg (not_lt.2 q2), if_neg (not_lt.2 q3), q4]
  rw [if_pos (by norm_num), height_chan]
  have := circle_chan (⟨⟨-1, 0, 0⟩, ⟨-2, 0, 0⟩, 0, 0, 1 / 2, 1⟩ : Event ℝ) 10
  simp only [haz, hi] at this
  simp only [this, hj]
  rfl

/-- C172, partial: the monitor around all directions counts each neutron that meets the sphere once, where it meets it first, and does
not change the neutrons; the columns are the angles from -180 to 180 degrees, and row `j` has the latitudes around the lower edge of
row `j`.  Missing: the rows, see `C172_row_false`; gravity. -/
theorem C172_partial {G : Gravity} (hG : G.on = false) {R : ℝ} (hR : 0 < R) {nx ny : Nat} (hn : 0 < nx) (hm : 0 < ny)
    {b : Event ℝ → Event ℝ} {es : List (Event ℝ)} (hv : ∀ e ∈ es, e.v ≠ 0)
    (hb : ∀ e ∈ es, (∃ s > 0, OnSphere R e s) → MeetsSphere G R e (b e)) :
    ∃ hist, runAll (psd4PI R nx ny G) (Hist.zero (nx * ny)) es = .ok (hist, es) ∧
      ∀ i < nx, ∀ j < ny, hist.cell (j + i * ny) = tally (fun e => (∃ s > 0, OnSphere R e s) ∧
        (InBin (-180) 180 nx i (azimuth (b e)) ∨ (i + 1 = nx ∧ azimuth (b e) = 180)) ∧
        -90 + (j - 1 / 2) * (180 / ny) ≤ latitude R (b e) ∧
        (latitude R (b e) < -90 + (j + 1 / 2) * (180 / ny) ∨ j + 1 = ny)) es := by
  obtain ⟨hist, h1, h2⟩ := run_zero (n := nx * ny) (trace := psd4PI R nx ny G) (a := id) (es := es)
    (sel := fun e => ∃ s > 0, OnSphere R e s)
    (idx := fun e => limit ⌊latitude R (b e) / (180 / ny) + ny / 2 + 1 / 2⌋ ny + limit (chan (azimuth (b e)) (-180) 180 nx) nx * ny)
    (fun e he hist _ => by
      rcases sphere_times (hv e he) R with ⟨g1, g2⟩ | ⟨t0, t1, g1, g2, g3⟩
      · unfold psd4PI
        simp only [g1, id]
        rw [if_neg (by rintro ⟨s, _, hs⟩; exact g2 s hs)]
      · unfold psd4PI
        have hsel : (∃ s > 0, OnSphere R e s) ↔ t1 > 0 := by
          constructor
          · rintro ⟨s, hs, hs'⟩
            rcases (g3 s).1 hs' with rfl | rfl <;> linarith
          · intro h; exact ⟨t1, h, (g3 t1).2 (.inr rfl)⟩
        simp only [g1, id, hsel]
        by_cases ht : t1 > 0
        · simp only [if_pos ht]
          obtain ⟨s, hs0, hs1, hs2, hs3⟩ := hb e he (hsel.2 ht)
          have hst : s = if t0 < 0 then t1 else t0 := by
            rcases (g3 s).1 hs1 with h | h
            · subst h
              rw [if_neg (by linarith)]
            · subst h
              split_ifs with hneg
              · rfl
              · push Not at hneg
                exact le_antisymm (hs2 t0 hneg ((g3 t0).2 (.inl rfl))) g2
          rw [← hst]
          have hpd : propDt G s e = b e := by
            unfold propDt
            rw [if_neg (by linarith), if_neg (by rw [hG]; simp), hs3, propDtFree_eq hG]
          have hon : (b e).r.x ^ 2 + (b e).r.y ^ 2 + (b e).r.z ^ 2 = R ^ 2 := by
            rw [hs3]
            unfold OnSphere at hs1
            unfold flown accel
            rw [hG]
            simpa using hs1
          have hy : |(b e).r.y| ≤ R := abs_le_of_sq_le_sq (by nlinarith [sq_nonneg (b e).r.x, sq_nonneg (b e).r.z]) hR.le
          have has : Powder.asinD ((b e).r.y / R) = some (Real.arcsin ((b e).r.y / R)) := by
            unfold Powder.asinD
            rw [if_neg]
            rw [lt_div_iff₀ hR, div_lt_iff₀ hR]
            have := abs_le.1 hy
            rintro (h | h) <;> linarith [this.1, this.2]
          have hp : (b e).p = e.p := by rw [hs3]; rfl
          rw [hpd]
          simp only [has]
          rw [longitude_chan (b e) hn, latitude_chan R (b e) hm, hp]
        · simp only [if_neg ht])
    (fun e he _ => flat_range (limit_range hn) (limit_range hm))
  refine ⟨hist, by simpa using h1, fun i hi j hj => ?_⟩
  rw [h2, List.map_id]
  refine tally_congr fun e he => and_congr_right fun hs => ?_
  rw [flat_iff (limit_range hm) hj]
  have hm' : (0 : ℝ) < ny := by exact_mod_cast hm
  have hd : 0 < 180 / (ny : ℝ) := by positivity
  refine and_congr ?_ ?_
  · have hr := azimuth_range (b e)
    rw [← floor_iff (by norm_num) hn]
    have h180 : ∀ x : ℝ, x = 180 → chan x (-180) 180 nx = nx := by
      rintro x rfl
      unfold chan
      rw [show ((180 : ℝ) - -180) * nx / (180 - -180) = ((nx : ℤ) : ℝ) by norm_num]
      exact Int.floor_intCast _
    unfold limit
    by_cases h : azimuth (b e) = 180
    · rw [h180 _ h]
      simp only [ge_iff_le, le_refl, if_true, h, and_true]
      omega
    · have := (chan_range (lo := -180) (hi := 180) (x := azimuth (b e)) (by norm_num) hn).2 ⟨hr.1.le, lt_of_le_of_ne hr.2 h⟩
      rw [if_neg (by omega), if_neg (by omega)]
      tauto
  · have hl := latitude_range R (b e)
    have hfl : ∀ k : ℤ, k ≤ ⌊latitude R (b e) / (180 / ny) + ny / 2 + 1 / 2⌋ ↔ -90 + (k - 1 / 2) * (180 / (ny : ℝ)) ≤ latitude R (b e) := by
      intro k
      rw [Int.le_floor, ← sub_le_iff_le_add, ← sub_le_iff_le_add, le_div_iff₀ hd]
      have : ((k : ℝ) - 1 / 2 - ny / 2) * (180 / ny) = -90 + (k - 1 / 2) * (180 / (ny : ℝ)) := by field_simp; ring
      rw [this]
    have h0 : 0 ≤ ⌊latitude R (b e) / (180 / ny) + ny / 2 + 1 / 2⌋ := by
      rw [hfl]
      push_cast
      nlinarith [hl.1]
    have e1 := hfl j
    have e2 := hfl (j + 1)
    push_cast at e1 e2
    rw [show ((j : ℝ) + 1 - 1 / 2) = j + 1 / 2 by ring] at e2
    rw [← e1, ← not_le, ← e2]
    unfold limit
    simp only [ge_iff_le]
    split_ifs with c1 c2 <;> omega

/-- example: a neutron from the centre meets the sphere at height 0 -/
example : MeetsSphere ⟨false, 0⟩ 1 ⟨0, ⟨1, 0, 0⟩, 0, 0, 0, 1⟩ ⟨⟨1, 0, 0⟩, ⟨1, 0, 0⟩, 0, 0, 1, 1⟩ ∧
    latitude 1 ⟨⟨1, 0, 0⟩, ⟨1, 0, 0⟩, 0, 0, 1, 1⟩ = 0 := by
  constructor
  · refine ⟨1, by norm_num, ?_, fun s hs h => ?_, ?_⟩
    · unfold OnSphere; norm_num
    · unfold OnSphere at h
      simp only [V3.zero_x, V3.zero_y, V3.zero_z] at h
      nlinarith
    · unfold flown accel; ext <;> norm_num
  · unfold latitude; norm_num

/-- C172 is false for the rows: with three rows from -90 to 90 degrees, a neutron at latitude 0 is counted in the row from 30 to 90. -/
theorem C172_row_false : ∃ (e b : Event ℝ) (hist : Hist), MeetsSphere ⟨false, 0⟩ 1 e b ∧ latitude 1 b = 0 ∧
    runAll (psd4PI 1 1 3 ⟨false, 0⟩) (Hist.zero 3) [e] = .ok (hist, [e]) ∧ hist.cell 2 = ⟨1, 1, 1⟩ ∧ ¬ InBin (-90) 90 3 2 (latitude 1 b) ∧
    InBin (-90) 90 3 1 (latitude 1 b) ∧ hist.cell 1 = ⟨0, 0, 0⟩ := by
  have hmeet : MeetsSphere ⟨false, 0⟩ 1 ⟨0, ⟨0, 0, 1⟩, 0, 0, 0, 1⟩ ⟨⟨0, 0, 1⟩, ⟨0, 0, 1⟩, 0, 0, 1, 1⟩ := by
    refine ⟨1, by norm_num, ?_, fun s hs h => ?_, ?_⟩
    · unfold OnSphere; norm_num
    · unfold OnSphere at h
      simp only [V3.zero_x, V3.zero_y, V3.zero_z] at h
      nlinarith
    · unfold flown accel; ext <;> norm_num
  have hlat : latitude 1 ⟨⟨0, 0, 1⟩, ⟨0, 0, 1⟩, 0, 0, 1, 1⟩ = 0 := by unfold latitude; norm_num
  have haz : azimuth ⟨⟨0, 0, 1⟩, ⟨0, 0, 1⟩, 0, 0, 1, 1⟩ = 0 := by
    unfold azimuth
    have : (⟨1, 0⟩ : ℂ) = 1 := rfl
    simp only [this, Complex.arg_one]
    norm_num
  have hv : (⟨0, 0, 1⟩ : V3 ℝ) ≠ 0 := by intro h; have := congrArg V3.z h; norm_num at this
  obtain ⟨hist, h1, h2⟩ := C172_partial (G := ⟨false, 0⟩) rfl (R := 1) one_pos (nx := 1) (ny := 3) one_pos (by norm_num)
    (b := fun _ => ⟨⟨0, 0, 1⟩, ⟨0, 0, 1⟩, 0, 0, 1, 1⟩) (es := [⟨0, ⟨0, 0, 1⟩, 0, 0, 0, 1⟩]) (by simpa using hv)
    (by simpa using fun _ _ _ => hmeet)
  have hon : ∃ s > 0, OnSphere 1 (⟨0, ⟨0, 0, 1⟩, 0, 0, 0, 1⟩ : Event ℝ) s := ⟨1, one_pos, by unfold OnSphere; norm_num⟩
  refine ⟨_, _, hist, hmeet, hlat, h1, ?_, ?_, ?_, ?_⟩
  · have := h2 0 one_pos 2 (by norm_num)
    rw [show 2 + 0 * 3 = 2 by rfl] at this
    rw [this]
    unfold tally
    rw [List.filter_cons_of_pos (by
      simp only [decide_eq_true_eq, haz, hlat]
      exact ⟨hon, .inl (by unfold InBin; norm_num), by norm_num, .inr trivial⟩)]
    simp
  · rw [hlat]; unfold InBin; norm_num
  · rw [hlat]; unfold InBin; norm_num
  · have := h2 0 one_pos 1 (by norm_num)
    rw [show 1 + 0 * 3 = 1 by rfl] at this
    rw [this]
    unfold tally
    rw [List.filter_cons_of_neg (by
      simp only [decide_eq_true_eq, haz, hlat]
      rintro ⟨_, _, _, h⟩
      norm_num at h)]
    simp

/-- C173, partial: pixel `i`, `j` has the neutrons with this transfer of momentum and of energy, of those in the ranges of the two
angles.  Missing: a range of the angle above the plane that is not the same below, see `C173_below_false`. -/
theorem C173_partial {SE2V V2Q VS2E : ℝ} {m : IQE} (hE : 0 ≤ m.Ei) (hQ : m.Qmin < m.Qmax) (hE' : m.Emin < m.Emax) (hn : 0 < m.nQ)
    (hm : 0 < m.nE) {es : List (Event ℝ)} (hsym : m.minOut = -m.maxOut ∨ ∀ e ∈ es, 0 ≤ e.v.y) :
    let Q := fun e : Event ℝ => V2Q * length (e.v - ⟨0, 0, √m.Ei * SE2V⟩)
    let E := fun e : Event ℝ => m.Ei - VS2E * length e.v ^ 2
    ∃ hist, runAll (iqe SE2V V2Q VS2E m) (Hist.zero (m.nQ * m.nE)) es = .ok (hist, es) ∧
      ∀ i < m.nQ, ∀ j < m.nE, hist.cell (j + i * m.nE) = tally (fun e =>
        ((m.minIn < bearing e.v ∧ bearing e.v < m.maxIn) ∧ m.minOut < elevation e.v ∧ elevation e.v < m.maxOut) ∧
        InBin m.Qmin m.Qmax m.nQ i (Q e) ∧ InBin m.Emin m.Emax m.nE j (E e)) es := by
  intro Q E
  obtain ⟨hist, h1, h2⟩ := run_zero (n := m.nQ * m.nE) (trace := iqe SE2V V2Q VS2E m) (a := id) (es := es)
    (sel := fun e => ((m.minIn < bearing e.v ∧ bearing e.v < m.maxIn) ∧ m.minOut < outOfPlane e.v ∧ outOfPlane e.v < m.maxOut) ∧
      (m.Qmin ≤ Q e ∧ Q e < m.Qmax) ∧ m.Emin ≤ E e ∧ E e < m.Emax)
    (idx := fun e => chan (E e) m.Emin m.Emax m.nE + chan (Q e) m.Qmin m.Qmax m.nQ * m.nE)
    (fun e he hist _ => by
      have hb : Frames.arctan2 e.v.x e.v.z / Real.pi * 180 = bearing e.v := by
        unfold bearing Frames.arctan2; ring
      have hq : √(e.v.x * e.v.x + e.v.y * e.v.y + (e.v.z - √m.Ei * SE2V) * (e.v.z - √m.Ei * SE2V)) * V2Q = Q e := by
        show _ = V2Q * length _
        rw [length_eq]
        simp only [V3.dot, V3.sub_x, V3.sub_y, V3.sub_z, sub_zero]
        ring
      have he' : m.Ei - (e.v.x * e.v.x + e.v.y * e.v.y + e.v.z * e.v.z) * VS2E = E e := by
        show _ = m.Ei - VS2E * _
        rw [← speed2_sq, speed2]
        ring
      unfold iqe
      simp only [sqrtD_ok hE, hb, hq, he', id, ge_iff_le]
      have c1 : ⌊(Q e - m.Qmin) / (m.Qmax - m.Qmin) * m.nQ⌋ = chan (Q e) m.Qmin m.Qmax m.nQ := by
        unfold chan; congr 1; ring
      have c2 : ⌊(E e - m.Emin) / (m.Emax - m.Emin) * m.nE⌋ = chan (E e) m.Emin m.Emax m.nE := by
        unfold chan; congr 1; ring
      rw [c1, c2]
      by_cases hA : (m.minIn < bearing e.v ∧ bearing e.v < m.maxIn) ∧ m.minOut < outOfPlane e.v ∧ outOfPlane e.v < m.maxOut
      · rw [if_pos (by tauto)]
        by_cases hq1 : m.Qmin ≤ Q e ∧ Q e < m.Qmax
        · have q1 := (chan_range hQ hn).2 hq1
          by_cases he1 : m.Emin ≤ E e ∧ E e < m.Emax
          · have q2 := (chan_range hE' hm).2 he1
            rw [if_pos hq1, if_pos he1, if_pos (by omega), if_pos ⟨hA, hq1, he1⟩, add_comm (chan (E e) _ _ _)]
          · rw [if_neg he1, if_neg (by simp), if_neg (by tauto)]
        · rw [if_neg hq1, if_neg (by simp), if_neg (by tauto)]
      · rw [if_neg (by tauto), if_neg (by tauto)])
    (fun e he h => flat_range ((chan_range hQ hn).2 h.2.1) ((chan_range hE' hm).2 h.2.2))
  refine ⟨hist, by simpa using h1, fun i hi j hj => ?_⟩
  rw [h2, List.map_id]
  refine tally_congr fun e he => ?_
  have hout : (m.minOut < outOfPlane e.v ∧ outOfPlane e.v < m.maxOut) ↔ m.minOut < elevation e.v ∧ elevation e.v < m.maxOut := by
    rw [outOfPlane_eq]
    rcases hsym with hs | hs
    · rw [hs]
      rcases abs_cases (elevation e.v) with ⟨h, _⟩ | ⟨h, _⟩ <;> rw [h] <;> constructor <;> rintro ⟨a, b⟩ <;> constructor <;> linarith
    · rw [abs_of_nonneg (elevation_nonneg (hs e he))]
  rw [hout]
  constructor
  · rintro ⟨⟨c1, c2, c3⟩, c4⟩
    rw [flat_iff ((chan_range hE' hm).2 c3) hj, floor_iff hQ hn, floor_iff hE' hm] at c4
    exact ⟨c1, c4⟩
  · rintro ⟨c1, c2, c3⟩
    rw [← floor_iff hQ hn] at c2
    rw [← floor_iff hE' hm] at c3
    have r1 := (chan_range (x := Q e) hQ hn).1 (by omega)
    have r2 := (chan_range (x := E e) hE' hm).1 (by omega)
    refine ⟨⟨c1, r1, r2⟩, ?_⟩
    rw [flat_iff ((chan_range hE' hm).2 r2) hj]
    exact ⟨c2, c3⟩

/-- example: the standard parameters have the same range of angles above and below the plane -/
example : let m : IQE := ⟨60, 0, 10, -45, 45, 100, 90, 120, 0, 30, -30⟩
    0 ≤ m.Ei ∧ m.Qmin < m.Qmax ∧ m.Emin < m.Emax ∧ 0 < m.nQ ∧ 0 < m.nE ∧ m.minOut = -m.maxOut := by
  norm_num

/-- C173 is false for a range of angles above the plane only: a neutron that flies 45 degrees below the plane is counted. -/
theorem C173_below_false : ∃ (m : IQE) (e : Event ℝ) (hist : Hist), m.minOut = 0 ∧ elevation e.v = -45 ∧
    runAll (iqe 1 1 1 m) (Hist.zero 1) [e] = .ok (hist, [e]) ∧ hist.cell 0 = ⟨1, 1, 1⟩ := by
  have hel : elevation ⟨0, -1, 1⟩ = -45 := by
    unfold elevation
    rw [length_eq]
    simp only [V3.dot]
    rw [show ((0 : ℝ) * 0 + -1 * -1 + 1 * 1) = 2 by norm_num, show (-1 : ℝ) / √2 = -(√2 / 2) by
      field_simp; rw [Real.sq_sqrt (by norm_num)], Real.arcsin_neg, ← Real.sin_pi_div_four,
      Real.arcsin_sin (by linarith [Real.pi_pos]) (by linarith [Real.pi_pos])]
    field_simp
    norm_num
  have hbe : Frames.arctan2 0 1 = 0 := by
    unfold Frames.arctan2
    have : (⟨1, 0⟩ : ℂ) = 1 := rfl
    rw [this, Complex.arg_one]
  have hout : outOfPlane ⟨0, -1, 1⟩ = 45 := by rw [outOfPlane_eq, hel]; norm_num
  refine ⟨⟨1, 0, 10, -10, 10, 1, 1, 90, -90, 90, 0⟩, ⟨0, ⟨0, -1, 1⟩, 0, 0, 0, 1⟩,
    ⟨1, fun k => if (k : ℤ) = 0 then ⟨1, 1, 1⟩ else ⟨0, 0, 0⟩⟩, rfl, hel, ?_, rfl⟩
  unfold runAll iqe
  simp only [hout, hbe, sqrtD_ok zero_le_one, Real.sqrt_one]
  norm_num [Hist.add, Hist.zero, Cell.inc, Except.map, bind, Except.bind, runAll]

end
end Verif.McMon
