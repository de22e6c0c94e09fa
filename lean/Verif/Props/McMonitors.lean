import Verif.Lemmas.McMonitors
/-!
Property theorems C168-C170: the monitors of McStas with an area.
-/

namespace Verif.McMon
open McStas Kinem Flight Solid
open Classical

/-! ### the area -/

/-- C168: the area is the rectangle of the given size around the centre, or the one between the limits; it is never empty, and is refused only
if it would be -/
theorem C168_window {xmin xmax ymin ymax xwidth yheight : ℝ} (w : Window) :
    Window.new xmin xmax ymin ymax xwidth yheight = .ok w ↔ (w.xmin < w.xmax ∧ w.ymin < w.ymax) ∧
      (0 < xwidth → w.xmin = -xwidth / 2 ∧ w.xmax = xwidth / 2) ∧ (xwidth ≤ 0 → w.xmin = xmin ∧ w.xmax = xmax) ∧
      (0 < yheight → w.ymin = -yheight / 2 ∧ w.ymax = yheight / 2) ∧ (yheight ≤ 0 → w.ymin = ymin ∧ w.ymax = ymax) := by
  obtain ⟨a, b, c, d⟩ := w
  unfold Window.new
  by_cases hx : xwidth > 0 <;> by_cases hy : yheight > 0 <;> simp only [hx, hy, if_true, if_false] <;> split_ifs with h <;>
    simp only [Except.ok.injEq, Window.mk.injEq, reduceCtorEq, false_iff, not_and] <;> rw [gt_iff_lt] at hx hy <;>
    simp only [hx, hy, not_lt.1, ge_iff_le, not_or, not_le, forall_const, true_implies, not_le.2, false_implies, true_and, and_true,
      IsEmpty.forall_iff, neg_div] at h ⊢
  all_goals first
    | (constructor
       · rintro ⟨rfl, rfl, rfl, rfl⟩
         simp_all
       · intro h'; simp_all)
    | (rintro ⟨h1, h2⟩ h3
       simp_all
       rcases h with h | h <;> grind)
    | grind

example : Window.new 1 0 (-1) 2 3 0 = .ok ⟨-1.5, 1.5, -1, 2⟩ := by
  rw [C168_window]
  norm_num

/-! ### monitors with channels -/

/-- C168, partial: the monitor without channels has the number and the weights of the neutrons through its area.  Missing here and
below: neutrons that do not reach the plane, see `C168_parallel_false` and `C168_away_false`. -/
theorem C168_monitor_partial {w : Window} {G : Gravity} {a : Event ℝ → Event ℝ} {es : List (Event ℝ)}
    (hc : ∀ e ∈ es, Comes G e (a e)) :
    runAll (monitor w G) ⟨0, 0, 0⟩ es = .ok (tally (Inside w) (es.map a), es.map a) ∧
    runAll monitor4PI ⟨0, 0, 0⟩ es = .ok (tally (fun _ => True) es, es) := by
  have key : ∀ (es : List (Event ℝ)) (c : Cell), (∀ e ∈ es, Comes G e (a e)) →
      runAll (monitor w G) c es = .ok (c.plus (tally (Inside w) (es.map a)), es.map a) := by
    intro es
    induction es with
    | nil => intro c _; simp only [runAll, List.map_nil, tally_nil]; congr 2; ext <;> simp [Cell.plus]
    | cons e es ih =>
      intro c h
      rw [runAll, monitor]
      simp only [comes_prop (h e (by simp)), has_iff]
      by_cases hs : Inside w (a e)
      · simp only [if_pos hs, bind, Except.bind]
        rw [ih _ fun x hx => h x (by simp [hx])]
        simp only
        rw [List.map_cons, plus_tally, if_pos hs]
      · simp only [if_neg hs, bind, Except.bind]
        rw [ih _ fun x hx => h x (by simp [hx])]
        simp only
        rw [List.map_cons, plus_tally, if_neg hs]
  have key2 : ∀ (es : List (Event ℝ)) (c : Cell), runAll monitor4PI c es = .ok (c.plus (tally (fun _ => True) es), es) := by
    intro es
    induction es with
    | nil => intro c; simp only [runAll, tally_nil]; congr 2; ext <;> simp [Cell.plus]
    | cons e es ih =>
      intro c
      rw [runAll, monitor4PI]
      simp only [bind, Except.bind]
      rw [ih]
      simp only
      rw [plus_tally, if_pos trivial]
  exact ⟨by rw [key es _ hc, zero_plus], by rw [key2, zero_plus]⟩

/-- C168, partial: channel `i` of the wavelength monitor has the neutrons through the area with a wavelength of this channel. -/
theorem C168_wavelength_partial {V2K : ℝ} {w : Window} {lo hi : ℝ} (hl : lo < hi) {n : Nat} (hn : 0 < n) {G : Gravity}
    {a : Event ℝ → Event ℝ} {es : List (Event ℝ)} (hc : ∀ e ∈ es, Comes G e (a e)) (hv : ∀ e ∈ es, (a e).v ≠ 0) :
    ∃ h, runAll (lMonitor V2K w lo hi n G) (Hist.zero n) es = .ok (h, es.map a) ∧
      ∀ i < n, h.cell i = tally (fun e => Inside w e ∧ InBin lo hi n i (wavelength V2K e)) (es.map a) := by
  have hL : ∀ e ∈ es, divD (2 * Real.pi / V2K) (√(speed2 (a e))) = some (wavelength V2K (a e)) := by
    intro e he
    rw [speed2_eq, divD_ok (length_pos (hv e he)).ne', wavelength, div_div]
  obtain ⟨h, h1, h2⟩ := run_zero (n := n) (trace := lMonitor V2K w lo hi n G) (a := a) (es := es)
    (sel := fun e => Inside w e ∧ (0 ≤ chan (wavelength V2K e) lo hi n ∧ chan (wavelength V2K e) lo hi n < n))
    (idx := fun e => chan (wavelength V2K e) lo hi n)
    (fun e he h _ => by
      unfold lMonitor
      simp only [comes_prop (hc e he), has_iff, hL e he]
      split_ifs <;> first | rfl | tauto)
    (fun e he h => h.2)
  refine ⟨h, h1, fun i hi => ?_⟩
  rw [h2]
  refine tally_congr fun e _ => ?_
  rw [floor_iff hl hn]
  refine ⟨fun h => ⟨h.1.1, h.2⟩, fun h => ⟨⟨h.1, ?_⟩, h.2⟩⟩
  rw [(floor_iff hl hn i).2 h.2]
  exact ⟨by positivity, by exact_mod_cast hi⟩

/-- C168, partial: channel `i` of the energy monitor has the neutrons through the area with an energy of this channel.  The report has
the mean energy of all neutrons through the area and its standard deviation, which always exists. -/
theorem C168_energy_partial {VS2E : ℝ} {w : Window} {lo hi : ℝ} (hl : lo < hi) {n : Nat} (hn : 0 < n) {G : Gravity}
    {a : Event ℝ → Event ℝ} {es : List (Event ℝ)} (hc : ∀ e ∈ es, Comes G e (a e)) :
    ∃ s, runAll (eMonitor VS2E w lo hi n G) ⟨Hist.zero n, 0, 0, 0⟩ es = .ok (s, es.map a) ∧
      (∀ i < n, s.hist.cell i = tally (fun e => Inside w e ∧ InBin lo hi n i (energy VS2E e)) (es.map a)) ∧
      ∀ fs, fs = (es.map a).filter (Inside w ·) → (∀ e ∈ fs, 0 < e.p) → fs ≠ [] →
        ∃ m σ, eReport s = some (m, some σ) ∧ (fs.map fun e => e.p * (energy VS2E e - m)).sum = 0 ∧ 0 ≤ σ ∧
          (fs.map fun e => e.p * (energy VS2E e - m) ^ 2).sum = σ ^ 2 * (fs.map (·.p)).sum := by
  obtain ⟨s, h1, h2, h3, h4, h5⟩ := run_energy (trace := eMonitor VS2E w lo hi n G) (w := w) (E := energy VS2E) (Emin := lo)
    (Emax := hi) (a := a) (n := n) es ⟨Hist.zero n, 0, 0, 0⟩ rfl (fun e he s _ => by
      unfold eMonitor
      simp only [comes_prop (hc e he), energy, speed2_sq])
  refine ⟨s, h1, fun i hi => ?_, ?_⟩
  · rw [h2]
    refine (zero_plus _).trans (tally_congr fun e _ => ?_)
    rw [floor_iff hl hn]
    refine ⟨fun h => ⟨h.1, h.2.2⟩, fun h => ⟨h.1, ?_, h.2⟩⟩
    rw [(floor_iff hl hn i).2 h.2]
    exact ⟨by positivity, by exact_mod_cast hi⟩
  · rintro fs hfs hp hne
    rw [← hfs] at h3 h4 h5
    simp only [zero_add] at h3 h4 h5
    obtain ⟨c1, c2, c3⟩ := cauchy (energy VS2E) fs fun e he => (hp e he).le
    have hS : 0 < (fs.map (·.p)).sum := by
      cases fs with
      | nil => exact absurd rfl hne
      | cons e fs =>
        have := (cauchy (energy VS2E) fs fun x hx => (hp x (by simp [hx])).le).1
        simp only [List.map_cons, List.sum_cons]
        linarith [hp e (by simp)]
    have q : 0 ≤ s.SpE2 / s.Sp - s.SpE * s.SpE / (s.Sp * s.Sp) := by
      rw [h3, h4, h5]
      have : ∀ A B C : ℝ, 0 < A → B ^ 2 ≤ A * C → 0 ≤ C / A - B * B / (A * A) := by
        intro A B C hA hB
        have : C / A - B * B / (A * A) = (A * C - B ^ 2) / A ^ 2 := by field_simp
        rw [this]
        exact div_nonneg (by linarith) (by positivity)
      exact this _ _ _ hS c3
    have lin : ∀ m : ℝ, ∀ fs : List (Event ℝ), (fs.map fun e => e.p * (energy VS2E e - m)).sum =
        (fs.map fun e => e.p * energy VS2E e).sum - m * (fs.map (·.p)).sum ∧
        (fs.map fun e => e.p * (energy VS2E e - m) ^ 2).sum = (fs.map fun e => e.p * energy VS2E e ^ 2).sum -
          2 * m * (fs.map fun e => e.p * energy VS2E e).sum + m ^ 2 * (fs.map (·.p)).sum := by
      intro m fs
      induction fs with
      | nil => simp
      | cons e fs ih =>
        simp only [List.map_cons, List.sum_cons]
        rw [ih.1, ih.2]
        constructor <;> ring
    have h3' : s.Sp ≠ 0 := by rw [h3]; exact hS.ne'
    refine ⟨s.SpE / s.Sp, √(s.SpE2 / s.Sp - s.SpE * s.SpE / (s.Sp * s.Sp)), ?_, ?_, Real.sqrt_nonneg _, ?_⟩
    · unfold eReport
      rw [if_pos h3', sqrtD_ok q]
    · rw [(lin _ _).1, ← h3, ← h4]
      field_simp
      ring
    · rw [(lin _ _).2, Real.sq_sqrt q, ← h3, ← h4, ← h5]
      field_simp
      ring

/-- C168, partial: channel `i` of the monitor for energies from the time of flight has the neutrons through the area for which the
energy of the mean speed since `T_zero` is in this channel.  Missing also: a neutron that arrives at `T_zero`. -/
theorem C168_flight_partial {VS2E T L : ℝ} {w : Window} {lo hi : ℝ} (hl : lo < hi) {n : Nat} (hn : 0 < n) {G : Gravity}
    {a : Event ℝ → Event ℝ} {es : List (Event ℝ)} (hc : ∀ e ∈ es, Comes G e (a e)) (hT : ∀ e ∈ es, (a e).t ≠ T) :
    ∃ s, runAll (tof2E VS2E w lo hi T L n G) ⟨Hist.zero n, 0, 0, 0⟩ es = .ok (s, es.map a) ∧
      ∀ i < n, s.hist.cell i = tally (fun e => Inside w e ∧ InBin lo hi n i (VS2E * (L / (e.t - T)) ^ 2)) (es.map a) := by
  obtain ⟨s, h1, h2, -, -, -⟩ := run_energy (trace := tof2E VS2E w lo hi T L n G) (w := w)
    (E := fun e => VS2E * (L / (e.t - T)) ^ 2) (Emin := lo) (Emax := hi) (a := a) (n := n) es ⟨Hist.zero n, 0, 0, 0⟩ rfl
    (fun e he s _ => by
      unfold tof2E
      simp only [comes_prop (hc e he)]
      rw [divD_ok (sub_ne_zero.2 (hT e he)), show VS2E * (L / ((a e).t - T)) ^ 2 = VS2E * (L / ((a e).t - T)) * (L / ((a e).t - T)) by ring])
  refine ⟨s, h1, fun i hi => ?_⟩
  rw [h2]
  refine (zero_plus _).trans (tally_congr fun e _ => ?_)
  rw [floor_iff hl hn]
  refine ⟨fun h => ⟨h.1, h.2.2⟩, fun h => ⟨h.1, ?_, h.2⟩⟩
  rw [(floor_iff hl hn i).2 h.2]
  exact ⟨by positivity, by exact_mod_cast hi⟩

/-- C168, partial: channel `i` of the linear position monitor has the neutrons through this part of the area; the program never ends
with a wrong channel. -/
theorem C168_position_partial {w : Window} (hl : w.xmin < w.xmax) {n : Nat} (hn : 0 < n) {G : Gravity}
    {a : Event ℝ → Event ℝ} {es : List (Event ℝ)} (hc : ∀ e ∈ es, Comes G e (a e)) :
    ∃ h, runAll (psdLin w n G) (Hist.zero n) es = .ok (h, es.map a) ∧
      ∀ i < n, h.cell i = tally (fun e => Inside w e ∧ InBin w.xmin w.xmax n i e.r.x) (es.map a) := by
  have hr : ∀ e, Inside w e → 0 ≤ chan e.r.x w.xmin w.xmax n ∧ chan e.r.x w.xmin w.xmax n < n := fun e h =>
    (chan_range hl hn).2 ⟨h.1.1.le, h.1.2⟩
  obtain ⟨h, h1, h2⟩ := run_zero (n := n) (trace := psdLin w n G) (a := a) (es := es)
    (sel := Inside w) (idx := fun e => chan e.r.x w.xmin w.xmax n)
    (fun e he h _ => by
      unfold psdLin
      simp only [comes_prop (hc e he), has_iff]
      by_cases hi : Inside w (a e)
      · have hs := hr _ hi
        unfold chan at hs ⊢
        rw [if_pos hi, if_pos hi, mul_comm (n : ℝ), if_neg (by rintro (h | h) <;> omega)]
      · rw [if_neg hi, if_neg hi])
    (fun e he h => hr _ h)
  refine ⟨h, h1, fun i hi => ?_⟩
  rw [h2]
  exact tally_congr fun e _ => by rw [floor_iff hl hn]

/-- C168, partial: channel `i` of the divergence monitor has the neutrons through the area with a horizontal divergence of this
channel (the lower limit of all channels does not belong to the first). -/
theorem C168_divergence_partial {w : Window} {m : ℝ} (hm : 0 < m) {n : Nat} (hn : 0 < n) {G : Gravity}
    {a : Event ℝ → Event ℝ} {es : List (Event ℝ)} (hc : ∀ e ∈ es, Comes G e (a e)) :
    ∃ h, runAll (hdiv w m n G) (Hist.zero n) es = .ok (h, es.map a) ∧
      ∀ i < n, h.cell i = tally (fun e => Inside w e ∧ |horizontal e| < m ∧ InBin (-m) m n i (horizontal e)) (es.map a) := by
  have hh : ∀ e : Event ℝ, degrees e.v.x e.v.z = horizontal e := by
    intro e; unfold degrees horizontal Frames.arctan2; ring
  have hr : ∀ d : ℝ, |d| < m → 0 ≤ chan d (-m) m n ∧ chan d (-m) m n < n := fun d h =>
    (chan_range (by linarith) hn).2 ⟨(abs_lt.1 h).1.le, (abs_lt.1 h).2⟩
  obtain ⟨h, h1, h2⟩ := run_zero (n := n) (trace := hdiv w m n G) (a := a) (es := es)
    (sel := fun e => Inside w e ∧ |horizontal e| < m) (idx := fun e => chan (horizontal e) (-m) m n)
    (fun e he h _ => by
      unfold hdiv
      simp only [comes_prop (hc e he), has_iff, hh, div_chan, abs_lt, gt_iff_lt]
      split_ifs <;> first | rfl | tauto)
    (fun e he h => hr _ h.2)
  refine ⟨h, h1, fun i hi => ?_⟩
  rw [h2]
  exact tally_congr fun e _ => by rw [floor_iff (by linarith) hn, and_assoc]

/-- example: a neutron on its way to the monitor, with and without gravity -/
example : Comes ⟨false, 0⟩ ⟨⟨0, 0, -3⟩, ⟨0, 0, 2⟩, 0, 0, 0, 1⟩ ⟨⟨0, 0, 0⟩, ⟨0, 0, 2⟩, 0, 0, 3 / 2, 1⟩ ∧
    Comes ⟨true, ⟨0, -2, 0⟩⟩ ⟨⟨0, 0, -3⟩, ⟨0, 0, 3⟩, 0, 0, 0, 1⟩ ⟨⟨0, -1, 0⟩, ⟨0, -2, 3⟩, 0, 0, 1, 1⟩ ∧
    Inside ⟨-2, 2, -2, 2⟩ ⟨⟨0, -1, 0⟩, ⟨0, -2, 3⟩, 0, 0, 1, 1⟩ ∧ InBin 0 10 5 1 3 := by
  refine ⟨⟨⟨3 / 2, ⟨by norm_num, ?_, fun s h1 h2 h3 => ?_⟩, ?_⟩, .inl ⟨rfl, by norm_num⟩⟩,
    ⟨⟨1, ⟨by norm_num, ?_, fun s h1 h2 h3 => ?_⟩, ?_⟩, .inr ⟨rfl, .inl rfl, by norm_num⟩⟩, ?_, ?_⟩
  · rw [flown_z, accel_off rfl]; norm_num
  · rw [flown_z, accel_off rfl] at h3; norm_num at h3; linarith
  · unfold flown; rw [accel_off rfl]; ext <;> simp
  · rw [flown_z, accel_on rfl]; norm_num
  · rw [flown_z, accel_on rfl] at h3; norm_num at h3; linarith
  · unfold flown; rw [accel_on rfl]; ext <;> simp
  · unfold Inside; norm_num
  · unfold InBin; norm_num

/-- C168 is false for a neutron that flies parallel to the monitor: it is absorbed, but the absorption ends only the propagation, so
it is counted with the weight -1 and the intensity is negative. -/
theorem C168_parallel_false : ∃ (w : Window) (e : Event ℝ), 0 < e.p ∧ (∀ s, (flown ⟨false, 0⟩ e s).r.z ≠ 0) ∧
    runAll (monitor w ⟨false, 0⟩) ⟨0, 0, 0⟩ [e] = .ok (⟨1, -1, 1⟩, [{ e with p := -1 }]) := by
  refine ⟨⟨-1, 1, -1, 1⟩, ⟨⟨0, 0, -3⟩, ⟨1, 0, 0⟩, 0, 0, 0, 5⟩, by norm_num, fun s => ?_, ?_⟩
  · rw [flown_z, accel_off rfl]; norm_num
  · simp [runAll, monitor, propZ0, propZ0Free, absorb, Window.has, Cell.inc, bind, Except.bind]

/-- C168 is false for a neutron that flies away from the monitor: without gravity it is counted at a time before it was there. -/
theorem C168_away_false : ∃ (w : Window) (e e' : Event ℝ), 0 < e.p ∧ (∀ s, 0 ≤ s → (flown ⟨false, 0⟩ e s).r.z ≠ 0) ∧
    runAll (monitor w ⟨false, 0⟩) ⟨0, 0, 0⟩ [e] = .ok (⟨1, 5, 25⟩, [e']) ∧ e'.t < e.t := by
  refine ⟨⟨-1, 1, -1, 1⟩, ⟨⟨0, 0, 3⟩, ⟨0, 0, 1⟩, 0, 0, 0, 5⟩, ⟨⟨0, 0, 0⟩, ⟨0, 0, 1⟩, 0, 0, -3, 5⟩, by norm_num, fun s hs => ?_, ?_, by norm_num⟩
  · rw [flown_z, accel_off rfl]; norm_num; linarith
  · simp [runAll, monitor, propZ0, propZ0Free, propDtFree, Window.has, Cell.inc, bind, Except.bind]
    norm_num

/-! ### monitors with two axes -/

/-- C169, partial: pixel `i`, `j` of the position monitor has the neutrons through this part of the area. -/
theorem C169_position_partial {w : Window} (hl : w.xmin < w.xmax) (hl2 : w.ymin < w.ymax) {n m : Nat} (hn : 0 < n) (hm : 0 < m)
    {G : Gravity} {a : Event ℝ → Event ℝ} {es : List (Event ℝ)} (hc : ∀ e ∈ es, Comes G e (a e)) :
    ∃ h, runAll (psd w n m G) (Hist.zero (n * m)) es = .ok (h, es.map a) ∧
      ∀ i < n, ∀ j < m, h.cell (j + i * m) = tally (fun e => Inside w e ∧ InBin w.xmin w.xmax n i e.r.x ∧ InBin w.ymin w.ymax m j e.r.y) (es.map a) := by
  obtain ⟨h, h1, h2⟩ := run_zero (n := n * m) (trace := psd w n m G) (a := a) (es := es)
    (sel := fun e => Inside w e ∧ True)
    (idx := fun e => chan e.r.y w.ymin w.ymax m + chan e.r.x w.xmin w.xmax n * m)
    (fun e he h _ => by
      unfold psd
      simp only [comes_prop (hc e he), has_iff]
      split_ifs <;> first | rfl | tauto)
    (fun e he h => flat_range ((chan_range hl hn).2 ⟨h.1.1.1.le, h.1.1.2⟩) ((chan_range hl2 hm).2 ⟨h.1.2.1.le, h.1.2.2⟩))
  refine ⟨h, h1, fun i _ j hj => ?_⟩
  rw [h2]
  refine tally_congr fun e _ => ?_
  constructor
  · rintro ⟨h, h'⟩
    rw [flat_iff ((chan_range hl2 hm).2 ⟨h.1.2.1.le, h.1.2.2⟩) hj, floor_iff hl hn, floor_iff hl2 hm] at h'
    tauto
  · intro h'
    have h : Inside w e ∧ True := by tauto
    refine ⟨h, ?_⟩
    rw [flat_iff ((chan_range hl2 hm).2 ⟨h.1.2.1.le, h.1.2.2⟩) hj, floor_iff hl hn, floor_iff hl2 hm]
    tauto

/-- C169, partial: pixel `i`, `j` has the neutrons through this part of the area with this energy. -/
theorem C169_energy_partial {VS2E lo hi : ℝ} (hl2 : lo < hi) {w : Window} (hl : w.xmin < w.xmax) {n m : Nat} (hn : 0 < n) (hm : 0 < m)
    {G : Gravity} {a : Event ℝ → Event ℝ} {es : List (Event ℝ)} (hc : ∀ e ∈ es, Comes G e (a e)) :
    ∃ h, runAll (epsd VS2E w lo hi n m G) (Hist.zero (n * m)) es = .ok (h, es.map a) ∧
      ∀ i < n, ∀ j < m, h.cell (j + i * m) = tally (fun e => Inside w e ∧ (lo < energy VS2E e ∧ energy VS2E e < hi) ∧ InBin w.xmin w.xmax n i e.r.x ∧ InBin lo hi m j (energy VS2E e)) (es.map a) := by
  have hE : ∀ e : Event ℝ, VS2E * speed2 e = energy VS2E e := fun e => by rw [speed2_sq]; rfl
  obtain ⟨h, h1, h2⟩ := run_zero (n := n * m) (trace := epsd VS2E w lo hi n m G) (a := a) (es := es)
    (sel := fun e => Inside w e ∧ lo < energy VS2E e ∧ energy VS2E e < hi)
    (idx := fun e => chan (energy VS2E e) lo hi m + chan e.r.x w.xmin w.xmax n * m)
    (fun e he h _ => by
      unfold epsd
      simp only [comes_prop (hc e he), has_iff, hE, gt_iff_lt]
      split_ifs <;> first | rfl | tauto)
    (fun e he h => flat_range ((chan_range hl hn).2 ⟨h.1.1.1.le, h.1.1.2⟩) ((chan_range hl2 hm).2 ⟨h.2.1.le, h.2.2⟩))
  refine ⟨h, h1, fun i _ j hj => ?_⟩
  rw [h2]
  refine tally_congr fun e _ => ?_
  constructor
  · rintro ⟨h, h'⟩
    rw [flat_iff ((chan_range hl2 hm).2 ⟨h.2.1.le, h.2.2⟩) hj, floor_iff hl hn, floor_iff hl2 hm] at h'
    tauto
  · intro h'
    have h : Inside w e ∧ lo < energy VS2E e ∧ energy VS2E e < hi := by tauto
    refine ⟨h, ?_⟩
    rw [flat_iff ((chan_range hl2 hm).2 ⟨h.2.1.le, h.2.2⟩) hj, floor_iff hl hn, floor_iff hl2 hm]
    tauto

/-- C169, partial: pixel `i`, `j` has the neutrons through this part of the area with this horizontal divergence. -/
theorem C169_divpos_partial {k : ℝ} (hk : 0 < k) {w : Window} (hl : w.xmin < w.xmax) {n m : Nat} (hn : 0 < n) (hm : 0 < m)
    {G : Gravity} {a : Event ℝ → Event ℝ} {es : List (Event ℝ)} (hc : ∀ e ∈ es, Comes G e (a e)) :
    ∃ h, runAll (divPos w k n m G) (Hist.zero (n * m)) es = .ok (h, es.map a) ∧
      ∀ i < n, ∀ j < m, h.cell (j + i * m) = tally (fun e => Inside w e ∧ |horizontal e| < k ∧ InBin w.xmin w.xmax n i e.r.x ∧ InBin (-k) k m j (horizontal e)) (es.map a) := by
  have hh : ∀ e : Event ℝ, degrees e.v.x e.v.z = horizontal e := by
    intro e; unfold degrees horizontal Frames.arctan2; ring
  obtain ⟨h, h1, h2⟩ := run_zero (n := n * m) (trace := divPos w k n m G) (a := a) (es := es)
    (sel := fun e => Inside w e ∧ |horizontal e| < k)
    (idx := fun e => chan (horizontal e) (-k) k m + chan e.r.x w.xmin w.xmax n * m)
    (fun e he h _ => by
      unfold divPos
      simp only [comes_prop (hc e he), has_iff, hh, div_chan, abs_lt, gt_iff_lt]
      split_ifs <;> first | rfl | tauto)
    (fun e he h => flat_range ((chan_range hl hn).2 ⟨h.1.1.1.le, h.1.1.2⟩) ((chan_range (by linarith) hm).2 ⟨(abs_lt.1 h.2).1.le, (abs_lt.1 h.2).2⟩))
  refine ⟨h, h1, fun i _ j hj => ?_⟩
  rw [h2]
  refine tally_congr fun e _ => ?_
  constructor
  · rintro ⟨h, h'⟩
    rw [flat_iff ((chan_range (by linarith) hm).2 ⟨(abs_lt.1 h.2).1.le, (abs_lt.1 h.2).2⟩) hj, floor_iff hl hn, floor_iff (by linarith) hm] at h'
    tauto
  · intro h'
    have h : Inside w e ∧ |horizontal e| < k := by tauto
    refine ⟨h, ?_⟩
    rw [flat_iff ((chan_range (by linarith) hm).2 ⟨(abs_lt.1 h.2).1.le, (abs_lt.1 h.2).2⟩) hj, floor_iff hl hn, floor_iff (by linarith) hm]
    tauto

/-- C169, partial: pixel `i`, `j` has the neutrons through the area with this horizontal and vertical divergence. -/
theorem C169_divergence_partial {k l : ℝ} (hk : 0 < k) (hl : 0 < l) {w : Window} {n m : Nat} (hn : 0 < n) (hm : 0 < m)
    {G : Gravity} {a : Event ℝ → Event ℝ} {es : List (Event ℝ)} (hc : ∀ e ∈ es, Comes G e (a e)) :
    ∃ h, runAll (divergence w k l n m G) (Hist.zero (n * m)) es = .ok (h, es.map a) ∧
      ∀ i < n, ∀ j < m, h.cell (j + i * m) = tally (fun e => Inside w e ∧ (|horizontal e| < k ∧ |vertical e| < l) ∧ InBin (-k) k n i (horizontal e) ∧ InBin (-l) l m j (vertical e)) (es.map a) := by
  have hh : ∀ e : Event ℝ, degrees e.v.x e.v.z = horizontal e := by
    intro e; unfold degrees horizontal Frames.arctan2; ring
  have hvv : ∀ e : Event ℝ, degrees e.v.y e.v.z = vertical e := by
    intro e; unfold degrees vertical Frames.arctan2; ring
  obtain ⟨h, h1, h2⟩ := run_zero (n := n * m) (trace := divergence w k l n m G) (a := a) (es := es)
    (sel := fun e => Inside w e ∧ |horizontal e| < k ∧ |vertical e| < l)
    (idx := fun e => chan (vertical e) (-l) l m + chan (horizontal e) (-k) k n * m)
    (fun e he h _ => by
      unfold divergence
      simp only [comes_prop (hc e he), has_iff, hh, hvv, div_chan, abs_lt, gt_iff_lt]
      split_ifs <;> first | rfl | tauto)
    (fun e he h => flat_range ((chan_range (by linarith) hn).2 ⟨(abs_lt.1 h.2.1).1.le, (abs_lt.1 h.2.1).2⟩) ((chan_range (by linarith) hm).2 ⟨(abs_lt.1 h.2.2).1.le, (abs_lt.1 h.2.2).2⟩))
  refine ⟨h, h1, fun i _ j hj => ?_⟩
  rw [h2]
  refine tally_congr fun e _ => ?_
  constructor
  · rintro ⟨h, h'⟩
    rw [flat_iff ((chan_range (by linarith) hm).2 ⟨(abs_lt.1 h.2.2).1.le, (abs_lt.1 h.2.2).2⟩) hj, floor_iff (by linarith) hn, floor_iff (by linarith) hm] at h'
    tauto
  · intro h'
    have h : Inside w e ∧ |horizontal e| < k ∧ |vertical e| < l := by tauto
    refine ⟨h, ?_⟩
    rw [flat_iff ((chan_range (by linarith) hm).2 ⟨(abs_lt.1 h.2.2).1.le, (abs_lt.1 h.2.2).2⟩) hj, floor_iff (by linarith) hn, floor_iff (by linarith) hm]
    tauto

/-- C169, partial: pixel `i`, `j` has the neutrons through the area with this time (in microseconds on the axis) and this wavelength. -/
theorem C169_timelambda_partial {V2K t0 t1 lo hi : ℝ} (ht : t0 < t1) (hl : lo < hi) {w : Window} {n m : Nat} (hn : 0 < n) (hm : 0 < m)
    {G : Gravity} {a : Event ℝ → Event ℝ} {es : List (Event ℝ)} (hc : ∀ e ∈ es, Comes G e (a e)) (hv : ∀ e ∈ es, (a e).v ≠ 0) :
    ∃ h, runAll (tofLambda V2K w t0 t1 lo hi n m G) (Hist.zero (n * m)) es = .ok (h, es.map a) ∧
      ∀ i < n, ∀ j < m, h.cell (j + i * m) = tally (fun e => (Inside w e ∧ lo < wavelength V2K e ∧ wavelength V2K e < hi) ∧ (t0 * 1e-6 < e.t ∧ e.t < t1 * 1e-6) ∧
        InBin (t0 * 1e-6) (t1 * 1e-6) n i e.t ∧ InBin lo hi m j (wavelength V2K e)) (es.map a) := by
  have hL : ∀ e ∈ es, divD (2 * Real.pi / V2K) (√(speed2 (a e))) = some (wavelength V2K (a e)) := by
    intro e he
    rw [speed2_eq, divD_ok (length_pos (hv e he)).ne', wavelength, div_div]
  have ht6 : t0 * 1e-6 < t1 * 1e-6 := by linarith
  obtain ⟨h, h1, h2⟩ := run_zero (n := n * m) (trace := tofLambda V2K w t0 t1 lo hi n m G) (a := a) (es := es)
    (sel := fun e => (Inside w e ∧ lo < wavelength V2K e ∧ wavelength V2K e < hi) ∧ t0 * 1e-6 < e.t ∧ e.t < t1 * 1e-6)
    (idx := fun e => chan (wavelength V2K e) lo hi m + chan e.t (t0 * 1e-6) (t1 * 1e-6) n * m)
    (fun e he h _ => by
      unfold tofLambda
      simp only [comes_prop (hc e he), has_iff, hL e he, gt_iff_lt]
      split_ifs <;> first | rfl | tauto)
    (fun e he h => flat_range ((chan_range ht6 hn).2 ⟨h.2.1.le, h.2.2⟩) ((chan_range hl hm).2 ⟨h.1.2.1.le, h.1.2.2⟩))
  refine ⟨h, h1, fun i _ j hj => ?_⟩
  rw [h2]
  refine tally_congr fun e _ => ?_
  constructor
  · rintro ⟨h, h'⟩
    rw [flat_iff ((chan_range hl hm).2 ⟨h.1.2.1.le, h.1.2.2⟩) hj, floor_iff ht6 hn, floor_iff hl hm] at h'
    tauto
  · intro h'
    have h : (Inside w e ∧ lo < wavelength V2K e ∧ wavelength V2K e < hi) ∧ t0 * 1e-6 < e.t ∧ e.t < t1 * 1e-6 := by tauto
    refine ⟨h, ?_⟩
    rw [flat_iff ((chan_range hl hm).2 ⟨h.1.2.1.le, h.1.2.2⟩) hj, floor_iff ht6 hn, floor_iff hl hm]
    tauto

/-- C169, partial: pixel `i`, `j` has the neutrons through the area with this wavelength and this horizontal divergence. -/
theorem C169_divlambda_partial {V2K k lo hi : ℝ} (hk : 0 < k) (hl : lo < hi) {w : Window} {n m : Nat} (hn : 0 < n) (hm : 0 < m)
    {G : Gravity} {a : Event ℝ → Event ℝ} {es : List (Event ℝ)} (hc : ∀ e ∈ es, Comes G e (a e)) (hv : ∀ e ∈ es, (a e).v ≠ 0) :
    ∃ h, runAll (divLambda V2K w k lo hi n m G) (Hist.zero (n * m)) es = .ok (h, es.map a) ∧
      ∀ i < n, ∀ j < m, h.cell (j + i * m) = tally (fun e => (Inside w e ∧ lo < wavelength V2K e ∧ wavelength V2K e < hi) ∧ |horizontal e| < k ∧
        InBin lo hi n i (wavelength V2K e) ∧ InBin (-k) k m j (horizontal e)) (es.map a) := by
  have hL : ∀ e ∈ es, divD (2 * Real.pi / V2K) (√(speed2 (a e))) = some (wavelength V2K (a e)) := by
    intro e he
    rw [speed2_eq, divD_ok (length_pos (hv e he)).ne', wavelength, div_div]
  have hh : ∀ e : Event ℝ, degrees e.v.x e.v.z = horizontal e := by
    intro e; unfold degrees horizontal Frames.arctan2; ring
  obtain ⟨h, h1, h2⟩ := run_zero (n := n * m) (trace := divLambda V2K w k lo hi n m G) (a := a) (es := es)
    (sel := fun e => (Inside w e ∧ lo < wavelength V2K e ∧ wavelength V2K e < hi) ∧ |horizontal e| < k)
    (idx := fun e => chan (horizontal e) (-k) k m + chan (wavelength V2K e) lo hi n * m)
    (fun e he h _ => by
      unfold divLambda
      simp only [comes_prop (hc e he), has_iff, hL e he, hh, div_chan, abs_lt, gt_iff_lt]
      split_ifs <;> first | rfl | tauto)
    (fun e he h => flat_range ((chan_range hl hn).2 ⟨h.1.2.1.le, h.1.2.2⟩) ((chan_range (by linarith) hm).2 ⟨(abs_lt.1 h.2).1.le, (abs_lt.1 h.2).2⟩))
  refine ⟨h, h1, fun i _ j hj => ?_⟩
  rw [h2]
  refine tally_congr fun e _ => ?_
  constructor
  · rintro ⟨h, h'⟩
    rw [flat_iff ((chan_range (by linarith) hm).2 ⟨(abs_lt.1 h.2).1.le, (abs_lt.1 h.2).2⟩) hj, floor_iff hl hn, floor_iff (by linarith) hm] at h'
    tauto
  · intro h'
    have h : (Inside w e ∧ lo < wavelength V2K e ∧ wavelength V2K e < hi) ∧ |horizontal e| < k := by tauto
    refine ⟨h, ?_⟩
    rw [flat_iff ((chan_range (by linarith) hm).2 ⟨(abs_lt.1 h.2).1.le, (abs_lt.1 h.2).2⟩) hj, floor_iff hl hn, floor_iff (by linarith) hm]
    tauto

/-- example: an area and ranges of two axes -/
example : (-1 : ℝ) < 1 ∧ (0 : ℝ) < 100 ∧ 0 < 20 ∧ Inside ⟨-1, 1, -1, 1⟩ ⟨⟨1 / 2, 0, 0⟩, ⟨0, 1, 1⟩, 0, 0, 0, 1⟩ ∧
    InBin (-1) 1 4 3 (1 / 2) ∧ vertical ⟨⟨1 / 2, 0, 0⟩, ⟨0, 1, 1⟩, 0, 0, 0, 1⟩ = 45 := by
  refine ⟨by norm_num, by norm_num, by norm_num, by unfold Inside; norm_num, by unfold InBin; norm_num, ?_⟩
  unfold vertical
  have : Complex.arg ⟨1, 1⟩ = Real.pi / 4 := by
    have h : (⟨1, 1⟩ : ℂ) = (√2 : ℝ) * (Complex.cos ((Real.pi / 4 : ℝ)) + Complex.sin ((Real.pi / 4 : ℝ)) * Complex.I) := by
      rw [← Complex.ofReal_cos, ← Complex.ofReal_sin, Real.cos_pi_div_four, Real.sin_pi_div_four]
      have h2 : √2 * (√2 / 2) = 1 := by rw [mul_div_assoc', Real.mul_self_sqrt (by norm_num)]; norm_num
      apply Complex.ext
      · simp only [Complex.mul_re, Complex.add_re, Complex.ofReal_re, Complex.ofReal_im, Complex.I_re, Complex.I_im, Complex.mul_im,
          Complex.add_im]
        linarith
      · simp only [Complex.mul_re, Complex.add_re, Complex.ofReal_re, Complex.ofReal_im, Complex.I_re, Complex.I_im, Complex.mul_im,
          Complex.add_im]
        linarith
    rw [h, Complex.arg_mul_cos_add_sin_mul_I (by positivity) ⟨by linarith [Real.pi_pos], by linarith [Real.pi_pos]⟩]
  simp only [this]
  field_simp
  norm_num

/-- C169 is false for a neutron that flies parallel to the monitor: the pixel gets the weight -1. -/
theorem C169_parallel_false : ∃ (w : Window) (e : Event ℝ) (h : Hist), 0 < e.p ∧ (∀ s, (flown ⟨false, 0⟩ e s).r.z ≠ 0) ∧
    runAll (psd w 1 1 ⟨false, 0⟩) (Hist.zero 1) [e] = .ok (h, [{ e with p := -1 }]) ∧ h.cell 0 = ⟨1, -1, 1⟩ := by
  refine ⟨⟨-1, 1, -1, 1⟩, ⟨⟨0, 0, -3⟩, ⟨1, 0, 0⟩, 0, 0, 0, 5⟩, ⟨1, fun m => if (m : ℤ) = 0 then ⟨1, -1, 1⟩ else ⟨0, 0, 0⟩⟩,
    by norm_num, fun s => ?_, ?_, rfl⟩
  · rw [flown_z, accel_off rfl]; norm_num
  · have : (0 : ℤ) = ⌊(1 / 2 : ℝ)⌋ := by norm_num
    simp only [runAll, psd, propZ0, propZ0Free, absorb, Window.has, chan, Hist.add, Hist.zero, Cell.inc, bind, Except.bind, Except.map]
    norm_num

/-! ### time of flight -/

theorem clamp_iff {x : ℤ} {n i : Nat} (hi : i < n) :
    clamp x n = i ↔ x = i ∨ (i = 0 ∧ x < 0) ∨ (i + 1 = n ∧ (n : ℤ) ≤ x) := by
  unfold clamp
  simp only [ge_iff_le]
  split_ifs <;> omega

theorem clamp_range {x : ℤ} {n : Nat} (hn : 0 < n) : 0 ≤ clamp x n ∧ clamp x n < n := by
  unfold clamp
  simp only [ge_iff_le]
  split_ifs <;> omega

theorem step_iff {x lo d : ℝ} (hd : 0 < d) (i : Nat) : ⌊(x - lo) / d⌋ = (i : ℤ) ↔ lo + i * d ≤ x ∧ x < lo + (i + 1) * d := by
  rw [Int.floor_eq_iff, le_div_iff₀ hd, div_lt_iff₀ hd]
  push_cast
  constructor <;> rintro ⟨a, b⟩ <;> constructor <;> linarith

theorem step_ends {x lo d : ℝ} (hd : 0 < d) (n : Nat) : (⌊(x - lo) / d⌋ < 0 ↔ x < lo) ∧ ((n : ℤ) ≤ ⌊(x - lo) / d⌋ ↔ lo + n * d ≤ x) := by
  rw [Int.floor_lt, Int.le_floor, div_lt_iff₀ hd, le_div_iff₀ hd]
  push_cast
  constructor <;> constructor <;> intro h <;> linarith

/-- `x` is counted in channel `i` of `n`, where the first channel has also what comes before and the last channel what comes later -/
def Clamped (lo d : ℝ) (n i : Nat) (x : ℝ) : Prop :=
  (lo + i * d ≤ x ∧ x < lo + (i + 1) * d) ∨ (i = 0 ∧ x < lo) ∨ (i + 1 = n ∧ lo + n * d ≤ x)

theorem tof_run {trace : Hist → Event ℝ → Except Err (Hist × Event ℝ)} {w : Window} {T : Event ℝ → ℝ} {lo d : ℝ} (hd : 0 < d)
    {n : Nat} (hn : 0 < n) {a : Event ℝ → Event ℝ} {es : List (Event ℝ)}
    (ht : ∀ e ∈ es, ∀ h : Hist, trace h e = if Inside w (a e) then (h.add (clamp ⌊(T (a e) - lo) / d⌋ n) (a e).p).map (·, a e)
      else .ok (h, a e)) :
    ∃ h, runAll trace (Hist.zero n) es = .ok (h, es.map a) ∧
      ∀ i < n, h.cell i = tally (fun e => Inside w e ∧ Clamped lo d n i (T e)) (es.map a) := by
  obtain ⟨h, h1, h2⟩ := run_zero (n := n) (trace := trace) (a := a) (es := es)
    (sel := Inside w) (idx := fun e => clamp ⌊(T e - lo) / d⌋ n) (fun e he h _ => ht e he h) (fun e he h => clamp_range hn)
  refine ⟨h, h1, fun i hi => ?_⟩
  rw [h2]
  refine tally_congr fun e _ => ?_
  rw [clamp_iff hi, step_iff hd, (step_ends hd n).1, (step_ends hd n).2]
  rfl

/-- C170, partial: with an upper limit, channel `i` of the time of flight monitors has the neutrons through the area with a time of
this channel, and the first and the last one also the earlier and the later neutrons, so no neutron through the area is lost.
Missing: times out of range, see `C170_range_false`; an axis given by the width of the channels, see `C170_axis_false`. -/
theorem C170_tof_partial {w : Window} {t0 t1 dt : ℝ} (h01 : t0 < t1) (h1 : t1 ≠ 0) {n : Nat} (hn : 0 < n)
    {G : Gravity} {a : Event ℝ → Event ℝ} {es : List (Event ℝ)} (hc : ∀ e ∈ es, Comes G e (a e)) :
    (∃ h, runAll (tofMonitor w (TofAxis.new t0 t1 dt n) n G) (Hist.zero n) es = .ok (h, es.map a) ∧
      (TofAxis.new t0 t1 dt n).tmin = t0 ∧ (TofAxis.new t0 t1 dt n).tmax = t1 ∧
      ∀ i < n, h.cell i = tally (fun e => Inside w e ∧ (InBin t0 t1 n i (1e6 * e.t) ∨ (i = 0 ∧ 1e6 * e.t < t0) ∨
        (i + 1 = n ∧ t1 ≤ 1e6 * e.t))) (es.map a)) ∧
    ∃ h, runAll (tofMonitor2 w t0 t1 n G) (Hist.zero n) es = .ok (h, es.map a) ∧
      ∀ i < n, h.cell i = tally (fun e => Inside w e ∧ (InBin t0 t1 n i e.t ∨ (i = 0 ∧ e.t < t0) ∨
        (i + 1 = n ∧ t1 ≤ e.t))) (es.map a) := by
  have hn' : (0 : ℝ) < n := by exact_mod_cast hn
  have hd : 0 < (t1 - t0) / n := div_pos (by linarith) hn'
  have hcl : ∀ i x, Clamped t0 ((t1 - t0) / n) n i x ↔ (InBin t0 t1 n i x ∨ (i = 0 ∧ x < t0) ∨ (i + 1 = n ∧ t1 ≤ x)) := by
    intro i x
    unfold Clamped InBin
    rw [show t0 + n * ((t1 - t0) / n) = t1 by field_simp; ring]
  constructor
  · obtain ⟨h, h2, h3⟩ := tof_run (trace := tofMonitor w (TofAxis.new t0 t1 dt n) n G) (w := w) (T := fun e => 1e6 * e.t) (lo := t0) hd hn
      (a := a) (es := es) (fun e he h => by
        unfold tofMonitor TofAxis.new
        rw [if_pos h1]
        simp only [comes_prop (hc e he), has_iff, divD_ok hd.ne'])
    refine ⟨h, h2, ?_, ?_, fun i hi => ?_⟩
    · unfold TofAxis.new; rw [if_pos h1]
    · unfold TofAxis.new; rw [if_pos h1]
    · rw [h3 i hi]
      exact tally_congr fun e _ => by rw [hcl]
  · obtain ⟨h, h2, h3⟩ := tof_run (trace := tofMonitor2 w t0 t1 n G) (w := w) (T := fun e => e.t) (lo := t0) hd hn
      (a := a) (es := es) (fun e he h => by
        unfold tofMonitor2
        simp only [comes_prop (hc e he), has_iff, divD_ok hd.ne'])
    refine ⟨h, h2, fun i hi => ?_⟩
    rw [h3 i hi]
    exact tally_congr fun e _ => by rw [hcl]

/-- example: a neutron in the second of four channels from 0 to 2000 microseconds -/
example : (0 : ℝ) < 2000 ∧ InBin 0 2000 4 1 (1e6 * 7e-4) := by
  unfold InBin; norm_num

/-- C170, partial: without an upper limit the channels start at 0 and have the width `dt`. -/
theorem C170_width_partial {w : Window} {t0 dt : ℝ} (hd : 0 < dt) {n : Nat} (hn : 0 < n)
    {G : Gravity} {a : Event ℝ → Event ℝ} {es : List (Event ℝ)} (hc : ∀ e ∈ es, Comes G e (a e)) :
    ∃ h, runAll (tofMonitor w (TofAxis.new t0 0 dt n) n G) (Hist.zero n) es = .ok (h, es.map a) ∧
      ∀ i < n, h.cell i = tally (fun e => Inside w e ∧ ((i * dt ≤ 1e6 * e.t ∧ 1e6 * e.t < (i + 1) * dt) ∨
        (i = 0 ∧ e.t < 0) ∨ (i + 1 = n ∧ n * dt ≤ 1e6 * e.t))) (es.map a) := by
  obtain ⟨h, h2, h3⟩ := tof_run (trace := tofMonitor w (TofAxis.new t0 0 dt n) n G) (w := w) (T := fun e => 1e6 * e.t) (lo := 0) hd hn
    (a := a) (es := es) (fun e he h => by
      unfold tofMonitor TofAxis.new
      have h0 : ¬ (0 : ℝ) ≠ 0 := fun h => h rfl
      rw [if_neg h0]
      simp only [comes_prop (hc e he), has_iff, divD_ok hd.ne'])
  refine ⟨h, h2, fun i hi => ?_⟩
  rw [h3 i hi]
  refine tally_congr fun e _ => ?_
  unfold Clamped
  rw [zero_add, zero_add, zero_add]
  have : 1e6 * e.t < 0 ↔ e.t < 0 := by constructor <;> intro h <;> linarith
  rw [this]

/-- example: channels of 5 microseconds -/
example : (0 : ℝ) < 5 ∧ (3 : ℕ) * (5 : ℝ) ≤ 1e6 * 17e-6 ∧ 1e6 * 17e-6 < ((3 : ℕ) + 1) * (5 : ℝ) := by norm_num

/-- C170 is false for an axis given by the width of the channels and a lower limit: the axis from `t_min` to `t_max` that goes to the
output does not belong to the channels.  A neutron at 5.5 microseconds is counted in the channel from 10 to 12. -/
theorem C170_axis_false : ∃ (w : Window) (t0 dt : ℝ) (n i : Nat) (e : Event ℝ) (h : Hist), 0 < dt ∧ i < n ∧
    runAll (tofMonitor w (TofAxis.new t0 0 dt n) n ⟨false, 0⟩) (Hist.zero n) [e] = .ok (h, [e]) ∧ h.cell i = ⟨1, 1, 1⟩ ∧
    ¬ InBin (TofAxis.new t0 0 dt n).tmin (TofAxis.new t0 0 dt n).tmax n i (1e6 * e.t) := by
  have hc : Comes ⟨false, 0⟩ ⟨⟨0, 0, 0⟩, ⟨0, 0, 1⟩, 0, 0, 55e-7, 1⟩ ⟨⟨0, 0, 0⟩, ⟨0, 0, 1⟩, 0, 0, 55e-7, 1⟩ := by
    refine ⟨⟨0, ⟨le_rfl, ?_, fun s h1 h2 => absurd h1 (by linarith)⟩, ?_⟩, .inl ⟨rfl, by norm_num⟩⟩
    · rw [flown_z]; norm_num
    · unfold flown; ext <;> simp
  obtain ⟨h, h1, h2⟩ := C170_width_partial (w := ⟨-1, 1, -1, 1⟩) (t0 := 10) (dt := 1) one_pos (n := 10) (by norm_num)
    (G := ⟨false, 0⟩) (a := id) (es := [⟨⟨0, 0, 0⟩, ⟨0, 0, 1⟩, 0, 0, 55e-7, 1⟩]) (by simpa using hc)
  refine ⟨_, 10, 1, 10, 5, _, h, one_pos, by norm_num, h1, ?_, ?_⟩
  · rw [h2 5 (by norm_num)]
    unfold tally
    simp only [List.map_cons, List.map_nil, id]
    rw [List.filter_cons_of_pos (by simp only [decide_eq_true_eq]; unfold Inside; norm_num)]
    simp
  · unfold TofAxis.new InBin
    norm_num

/-- C170 is false for times out of range: they are counted in the first and the last channel. -/
theorem C170_range_false : ∃ (w : Window) (e : Event ℝ) (h : Hist),
    runAll (tofMonitor2 w 0 1 2 ⟨false, 0⟩) (Hist.zero 2) [e] = .ok (h, [e]) ∧ h.cell 1 = ⟨1, 1, 1⟩ ∧ ¬ InBin 0 1 2 1 e.t := by
  have hc : Comes ⟨false, 0⟩ ⟨⟨0, 0, 0⟩, ⟨0, 0, 1⟩, 0, 0, 100, 1⟩ ⟨⟨0, 0, 0⟩, ⟨0, 0, 1⟩, 0, 0, 100, 1⟩ := by
    refine ⟨⟨0, ⟨le_rfl, ?_, fun s h1 h2 => absurd h1 (by linarith)⟩, ?_⟩, .inl ⟨rfl, by norm_num⟩⟩
    · rw [flown_z]; norm_num
    · unfold flown; ext <;> simp
  obtain ⟨h, h1, h2⟩ := (C170_tof_partial (w := ⟨-1, 1, -1, 1⟩) (t0 := 0) (t1 := 1) (dt := 0) one_pos one_ne_zero (n := 2) (by norm_num)
    (G := ⟨false, 0⟩) (a := id) (es := [⟨⟨0, 0, 0⟩, ⟨0, 0, 1⟩, 0, 0, 100, 1⟩]) (by simpa using hc)).2
  refine ⟨_, _, h, h1, ?_, ?_⟩
  · rw [h2 1 (by norm_num)]
    unfold tally
    simp only [List.map_cons, List.map_nil, id]
    rw [List.filter_cons_of_pos (by simp only [decide_eq_true_eq]; unfold Inside; norm_num)]
    simp
  · unfold InBin
    norm_num

/-- C170, partial: channel `i` of the monitor with a logarithmic axis has the neutrons through the area with a time between
`tlow 10^(i/ndec)` and `tlow 10^((i+1)/ndec)`; the first and the last channel also those before and after.  Missing: neutrons with a
time that is not positive, see `C170_log_false`. -/
theorem C170_log_partial {w : Window} {ndec tlow thigh : ℝ} (hn : 0 < ndec) (hl : 0 < tlow) (hh : tlow < thigh)
    {n : Nat} (hN : logChannels ndec tlow thigh = n) (hmax : n ≤ 10000)
    {G : Gravity} {a : Event ℝ → Event ℝ} {es : List (Event ℝ)} (hc : ∀ e ∈ es, Comes G e (a e)) (ht : ∀ e ∈ es, 0 < (a e).t) :
    0 < n ∧ tlow * 10 ^ (((n : ℝ) - 1) / ndec) < thigh ∧ thigh ≤ tlow * 10 ^ ((n : ℝ) / ndec) ∧
    ∃ h, runAll (tofLog w ndec tlow thigh G) (Hist.zero 10000) es = .ok (h, es.map a) ∧
      ∀ i < n, h.cell i = tally (fun e => Inside w e ∧
        ((tlow * 10 ^ ((i : ℝ) / ndec) ≤ 1e6 * e.t ∧ 1e6 * e.t < tlow * 10 ^ (((i : ℝ) + 1) / ndec)) ∨
        (i = 0 ∧ 1e6 * e.t < tlow) ∨ (i + 1 = n ∧ tlow * 10 ^ ((n : ℝ) / ndec) ≤ 1e6 * e.t))) (es.map a) := by
  have h10 : 0 < Real.log 10 := Real.log_pos (by norm_num)
  have hle : ∀ (c x : ℝ), 0 < x → (c ≤ ndec * Real.log (x / tlow) / Real.log 10 ↔ tlow * 10 ^ (c / ndec) ≤ x) := by
    intro c x hx
    have : tlow * 10 ^ (c / ndec) ≤ x ↔ (10 : ℝ) ^ (c / ndec) ≤ x / tlow := by rw [le_div_iff₀ hl, mul_comm]
    rw [this, ← Real.log_le_log_iff (Real.rpow_pos_of_pos (by norm_num) _) (div_pos hx hl), Real.log_rpow (by norm_num), le_div_iff₀ h10]
    constructor
    · intro h
      rw [div_mul_eq_mul_div, div_le_iff₀ hn]
      linarith
    · intro h
      rw [div_mul_eq_mul_div, div_le_iff₀ hn] at h
      linarith
  have hthigh : 0 < thigh := hl.trans hh
  have hpos : 0 < ndec * Real.log (thigh / tlow) / Real.log 10 :=
    div_pos (mul_pos hn (Real.log_pos ((one_lt_div hl).2 hh))) h10
  have hn0 : 0 < n := by
    have := Int.ceil_pos.2 hpos
    unfold logChannels at hN
    rw [hN] at this
    exact_mod_cast this
  unfold logChannels at hN
  have h4 := (Int.ceil_eq_iff.1 hN)
  refine ⟨hn0, ?_, ?_, ?_⟩
  · by_contra hcon
    push Not at hcon
    rcases hcon.lt_or_eq with hcon | hcon
    · have h5 := h4.1
      push_cast at h5
      have := (hle _ _ hthigh).1 h5.le
      linarith
    · have h5 := h4.1
      push_cast at h5
      have h6 : ∀ c, c ≤ ndec * Real.log (thigh / tlow) / Real.log 10 → c / ndec ≤ ((n : ℝ) - 1) / ndec := by
        intro c hc'
        have := (hle _ _ hthigh).1 hc'
        rw [hcon] at this
        have h8 : (10 : ℝ) ^ (c / ndec) ≤ 10 ^ (((n : ℝ) - 1) / ndec) := le_of_mul_le_mul_left this hl
        exact (Real.rpow_le_rpow_left_iff (by norm_num)).1 h8
      have := h6 _ le_rfl
      rw [div_le_div_iff_of_pos_right hn] at this
      linarith
  · by_contra hcon
    push Not at hcon
    have := (hle (n : ℝ) _ hthigh).2 hcon.le
    have h5 := h4.2
    have h6 : ndec * Real.log (thigh / tlow) / Real.log 10 = n := le_antisymm (by exact_mod_cast h5) this
    have h7 : Real.log (thigh / tlow) = n / ndec * Real.log 10 := by
      field_simp at h6 ⊢
      linarith
    have h8 : thigh / tlow = 10 ^ ((n : ℝ) / ndec) := by
      rw [← Real.exp_log (div_pos hthigh hl), h7, Real.rpow_def_of_pos (by norm_num)]
      ring_nf
    rw [div_eq_iff hl.ne'] at h8
    linarith
  obtain ⟨h, h1, h2⟩ := run_zero (n := 10000) (trace := tofLog w ndec tlow thigh G) (a := a) (es := es)
    (sel := Inside w) (idx := fun e => clamp ⌊ndec * Real.log (1e6 * e.t / tlow) / Real.log 10⌋ n) (fun e he h _ => by
      unfold tofLog logChannels
      have : ¬ 1e6 * (a e).t / tlow ≤ 0 := by
        have := ht e he
        push Not
        positivity
      simp only [comes_prop (hc e he), has_iff, if_neg this, hN]
      rfl) (fun e he h => ⟨(clamp_range hn0).1, lt_of_lt_of_le (clamp_range hn0).2 (by exact_mod_cast hmax)⟩)
  refine ⟨h, h1, fun i hi => ?_⟩
  rw [h2]
  refine tally_congr fun e' he' => ?_
  obtain ⟨e, he, rfl⟩ := List.mem_map.1 he'
  have hp : 0 < 1e6 * (a e).t := by have := ht e he; positivity
  rw [clamp_iff hi, Int.floor_eq_iff, Int.floor_lt, Int.le_floor]
  push_cast
  rw [hle _ _ hp, hle _ _ hp, ← not_le, hle _ _ hp, ← not_le, hle _ _ hp, zero_div, Real.rpow_zero, mul_one, not_le, not_le]

/-- example: two channels per decade from 10 to 1000 microseconds are 4 channels -/
example : logChannels 2 10 1000 = (4 : ℕ) ∧ (0 : ℝ) < 2 ∧ (10 : ℝ) < 1000 := by
  refine ⟨?_, by norm_num, by norm_num⟩
  unfold logChannels
  have h10 : Real.log 10 ≠ 0 := (Real.log_pos (by norm_num)).ne'
  rw [show (1000 : ℝ) / 10 = 10 ^ 2 by norm_num, Real.log_pow, mul_div_assoc, mul_div_assoc, div_self h10]
  norm_num

/-- C170 is false for a neutron that arrives at the time 0: the logarithm is minus infinity, and its conversion to the number of a
channel is undefined. -/
theorem C170_log_false : ∃ (w : Window) (e : Event ℝ), Comes ⟨false, 0⟩ e e ∧ Inside w e ∧
    runAll (tofLog w 2 10 1000 ⟨false, 0⟩) (Hist.zero 10000) [e] = .error .undefinedBehaviour := by
  have hc : Comes ⟨false, 0⟩ ⟨⟨0, 0, 0⟩, ⟨0, 0, 1⟩, 0, 0, 0, 1⟩ ⟨⟨0, 0, 0⟩, ⟨0, 0, 1⟩, 0, 0, 0, 1⟩ := by
    refine ⟨⟨0, ⟨le_rfl, ?_, fun s h1 h2 => absurd h1 (by linarith)⟩, ?_⟩, .inl ⟨rfl, by norm_num⟩⟩
    · rw [flown_z]; norm_num
    · unfold flown; ext <;> simp
  have hi : Inside ⟨-1, 1, -1, 1⟩ ⟨⟨0, 0, 0⟩, ⟨0, 0, 1⟩, 0, 0, 0, 1⟩ := by unfold Inside; norm_num
  refine ⟨⟨-1, 1, -1, 1⟩, _, hc, hi, ?_⟩
  rw [runAll, tofLog]
  simp only [comes_prop hc, has_iff, if_pos hi]
  rw [if_pos (by norm_num)]
  rfl

end Verif.McMon
