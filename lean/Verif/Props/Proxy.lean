import Verif.Lemmas.Proxy
import Verif.Props.McMonitors
import Verif.Props.McDetectors
/-!
C290-C293: histograms of monitors and parameters of components.
-/

namespace Verif.Proxy
open McMon McStas Kinem

noncomputable section
open Classical

/-! ### C290: the histogram has the data of the monitor at the middles of the bins -/

/-- C290 for the energy monitor, without rounding, for neutrons on their way to the monitor. -/
theorem C290_energy {VS2E : ℝ} {w : Window} {lo hi : ℝ} (hl : lo < hi) {n : Nat} (hn : 0 < n) {G : Gravity}
    {a : Event ℝ → Event ℝ} {es : List (Event ℝ)} (hc : ∀ e ∈ es, Comes G e (a e)) :
    ∃ s H, runAll (eMonitor VS2E w lo hi n G) ⟨Hist.zero n, 0, 0, 0⟩ es = .ok (s, es.map a) ∧
      hist1 (eAxis id lo hi) n s.hist = .ok H ∧ Shows H lo hi n (energy VS2E) (Inside w) (es.map a) := by
  obtain ⟨s, h1, h2, -⟩ := C168_energy_partial (VS2E := VS2E) (w := w) hl hn hc
  obtain ⟨H, h3, h4⟩ := shows_of (run_size (fun s : EState => s.hist.size) eMonitor_size es _ _ h1) (eAxis_id hl hn) h2
  exact ⟨s, H, h1, h3, h4⟩

/-- C290 for the wavelength monitor, without rounding. -/
theorem C290_wavelength {V2K : ℝ} {w : Window} {lo hi : ℝ} (hl : lo < hi) {n : Nat} (hn : 0 < n) {G : Gravity}
    {a : Event ℝ → Event ℝ} {es : List (Event ℝ)} (hc : ∀ e ∈ es, Comes G e (a e)) (hv : ∀ e ∈ es, (a e).v ≠ 0) :
    ∃ h H, runAll (lMonitor V2K w lo hi n G) (Hist.zero n) es = .ok (h, es.map a) ∧
      hist1 (lAxis id lo hi) n h = .ok H ∧ Shows H lo hi n (wavelength V2K) (Inside w) (es.map a) := by
  obtain ⟨s, h1, h2⟩ := C168_wavelength_partial (V2K := V2K) (w := w) hl hn hc hv
  obtain ⟨H, h3, h4⟩ := shows_of (run_size Hist.size lMonitor_size es _ _ h1) (lAxis_id hl hn) h2
  exact ⟨s, H, h1, h3, h4⟩

/-- C290 for the divergence monitor, without rounding. -/
theorem C290_hdiv {w : Window} {m : ℝ} (hm : 0 < m) {n : Nat} (hn : 0 < n) {G : Gravity}
    {a : Event ℝ → Event ℝ} {es : List (Event ℝ)} (hc : ∀ e ∈ es, Comes G e (a e)) :
    ∃ h H, runAll (hdiv w m n G) (Hist.zero n) es = .ok (h, es.map a) ∧ hdivHist id m n h = .ok H ∧
      Shows H (-m) m n horizontal (fun e => Inside w e ∧ |horizontal e| < m) (es.map a) := by
  obtain ⟨s, h1, h2⟩ := C168_divergence_partial (w := w) hm hn hc
  obtain ⟨H, h3, h4⟩ := shows_of (q := horizontal) (sel := fun e => Inside w e ∧ |horizontal e| < m)
    (run_size Hist.size hdiv_size es _ _ h1) (divAxis_id hm hn)
    (fun i hi => (h2 i hi).trans (tally_congr fun e _ => and_assoc.symm))
  refine ⟨s, H, h1, ?_, h4⟩
  unfold hdivHist
  rw [intOf_nat]
  exact h3

/-- C290, partial, for the time-of-flight monitor, without rounding and for neutrons that come in the range of the times; the others
are counted in the first and the last bin. -/
theorem C290_tof_partial {w : Window} {lo hi : ℝ} (hl : lo < hi) (h0 : hi ≠ 0) {n : Nat} (hn : 0 < n) {G : Gravity}
    {a : Event ℝ → Event ℝ} {es : List (Event ℝ)} (hc : ∀ e ∈ es, Comes G e (a e)) (ht : ∀ e ∈ es, lo ≤ (a e).t ∧ (a e).t < hi) :
    ∃ h H, runAll (tofMonitor2 w lo hi n G) (Hist.zero n) es = .ok (h, es.map a) ∧
      hist1 (tAxis id lo hi) n h = .ok H ∧ Shows H lo hi n (·.t) (Inside w) (es.map a) := by
  obtain ⟨s, h1, h2⟩ := (C170_tof_partial (w := w) (dt := 0) hl h0 hn hc).2
  obtain ⟨H, h3, h4⟩ := shows_of (q := (·.t)) (sel := Inside w) (run_size Hist.size tof2_size es _ _ h1) (tAxis_id hl hn)
    (fun i hi => (h2 i hi).trans (tally_congr fun e he => by
      obtain ⟨e', he', rfl⟩ := List.mem_map.1 he
      have := ht e' he'
      constructor
      · rintro ⟨h, h' | h' | h'⟩
        · exact ⟨h, h'⟩
        · linarith
        · linarith
      · exact fun h => ⟨h.1, .inl h.2⟩))
  exact ⟨s, H, h1, h3, h4⟩

/-- C290 for the monitor of position and divergence, without rounding. -/
theorem C290_divpos {k : ℝ} (hk : 0 < k) {w : Window} (hl : w.xmin < w.xmax) {n m : Nat} (hn : 0 < n) (hm : 0 < m)
    {G : Gravity} {a : Event ℝ → Event ℝ} {es : List (Event ℝ)} (hc : ∀ e ∈ es, Comes G e (a e)) :
    ∃ h H, runAll (divPos w k n m G) (Hist.zero (n * m)) es = .ok (h, es.map a) ∧ divPosHist id w k n m h = .ok H ∧
      Shows2 H w.xmin w.xmax n (·.r.x) (-k) k m horizontal (fun e => Inside w e ∧ |horizontal e| < k) (es.map a) := by
  obtain ⟨s, h1, h2⟩ := C169_divpos_partial (w := w) hk hl hn hm hc
  obtain ⟨H, h3, h4⟩ := shows2_of (q := (·.r.x)) (q' := horizontal) (sel := fun e => Inside w e ∧ |horizontal e| < k)
    (run_size Hist.size divPos_size es _ _ h1) (eAxis_id hl hn) (divAxis_id hk hm)
    (fun i hi j hj => (h2 i hi j hj).trans (tally_congr fun e _ => and_assoc.symm))
  exact ⟨s, H, h1, h3, h4⟩

/-- C290 for the monitor of both divergences, without rounding. -/
theorem C290_divergence {k l : ℝ} (hk : 0 < k) (hl : 0 < l) {w : Window} {n m : Nat} (hn : 0 < n) (hm : 0 < m)
    {G : Gravity} {a : Event ℝ → Event ℝ} {es : List (Event ℝ)} (hc : ∀ e ∈ es, Comes G e (a e)) :
    ∃ h H, runAll (divergence w k l n m G) (Hist.zero (n * m)) es = .ok (h, es.map a) ∧ divergenceHist id k l n m h = .ok H ∧
      Shows2 H (-k) k n horizontal (-l) l m vertical (fun e => Inside w e ∧ |horizontal e| < k ∧ |vertical e| < l) (es.map a) := by
  obtain ⟨s, h1, h2⟩ := C169_divergence_partial (w := w) hk hl hn hm hc
  obtain ⟨H, h3, h4⟩ := shows2_of (q := horizontal) (q' := vertical) (sel := fun e => Inside w e ∧ |horizontal e| < k ∧ |vertical e| < l)
    (run_size Hist.size divergence_size es _ _ h1) (divAxis_id hk hn) (divAxis_id hl hm)
    (fun i hi j hj => (h2 i hi j hj).trans (tally_congr fun e _ => and_assoc.symm))
  exact ⟨s, H, h1, h3, h4⟩

/-- C290, partial, for the position monitor, without rounding: the axes have the lower edges of the pixels. -/
theorem C290_psd_partial {w : Window} (hl : w.xmin < w.xmax) (hl2 : w.ymin < w.ymax) {n m : Nat} (hn : 0 < n) (hm : 0 < m)
    {G : Gravity} {a : Event ℝ → Event ℝ} {es : List (Event ℝ)} (hc : ∀ e ∈ es, Comes G e (a e)) :
    ∃ h H, runAll (psd w n m G) (Hist.zero (n * m)) es = .ok (h, es.map a) ∧ psdHist id w n m h = .ok H ∧
      (H.xs.length = n ∧ H.ys.length = m) ∧ ∀ i < n, ∀ j < m, ∃ x y,
        (H.xs[i]? = some x ∧ x = w.xmin + i * ((w.xmax - w.xmin) / n)) ∧ (H.ys[j]? = some y ∧ y = w.ymin + j * ((w.ymax - w.ymin) / m)) ∧
        H.I i j = (tally (fun e => Inside w e ∧ (x ≤ e.r.x ∧ e.r.x < x + (w.xmax - w.xmin) / n) ∧
          y ≤ e.r.y ∧ e.r.y < y + (w.ymax - w.ymin) / m) (es.map a)).p ∧
        H.E2 i j = (tally (fun e => Inside w e ∧ (x ≤ e.r.x ∧ e.r.x < x + (w.xmax - w.xmin) / n) ∧
          y ≤ e.r.y ∧ e.r.y < y + (w.ymax - w.ymin) / m) (es.map a)).p2 := by
  obtain ⟨s, h1, h2⟩ := C169_position_partial (w := w) hl hl2 hn hm hc
  obtain ⟨H, h3, h4, h5, h6⟩ := hist2_ok (run_size Hist.size psd_size es _ _ h1) (edgeAxis_id hl hn) (edgeAxis_id hl2 hm)
  refine ⟨s, H, h1, h3, ⟨by simp [h4], by simp [h5]⟩, fun i hi j hj => ⟨_, _, ⟨by rw [h4]; simp [hi], rfl⟩, ⟨by rw [h5]; simp [hj], rfl⟩, ?_⟩⟩
  rw [(h6 i hi j hj).1, (h6 i hi j hj).2, h2 i hi j hj]
  unfold InBin
  constructor <;> (congr 2; funext e; simp only [add_mul, one_mul, add_assoc])

/-- C290, partial, for the monitor of momentum and energy, without rounding and before the normalization: the axes have the lower
edges of the channels. -/
theorem C290_iqe_partial {SE2V V2Q VS2E : ℝ} {m : IQE} (hE : 0 ≤ m.Ei) (hQ : m.Qmin < m.Qmax) (hE' : m.Emin < m.Emax) (hn : 0 < m.nQ)
    (hm : 0 < m.nE) {es : List (Event ℝ)} (hsym : m.minOut = -m.maxOut ∨ ∀ e ∈ es, 0 ≤ e.v.y) :
    let Q := fun e : Event ℝ => V2Q * Solid.length (e.v - ⟨0, 0, √m.Ei * SE2V⟩)
    let E := fun e : Event ℝ => m.Ei - VS2E * Solid.length e.v ^ 2
    ∃ h H, runAll (iqe SE2V V2Q VS2E m) (Hist.zero (m.nQ * m.nE)) es = .ok (h, es) ∧ iqeHist id m h = .ok H ∧
      (H.xs.length = m.nQ ∧ H.ys.length = m.nE) ∧ ∀ i < m.nQ, ∀ j < m.nE, ∃ x y,
        (H.xs[i]? = some x ∧ x = m.Qmin + i * ((m.Qmax - m.Qmin) / m.nQ)) ∧ (H.ys[j]? = some y ∧ y = m.Emin + j * ((m.Emax - m.Emin) / m.nE)) ∧
        H.I i j = (tally (fun e => ((m.minIn < bearing e.v ∧ bearing e.v < m.maxIn) ∧ m.minOut < elevation e.v ∧
          elevation e.v < m.maxOut) ∧ (x ≤ Q e ∧ Q e < x + (m.Qmax - m.Qmin) / m.nQ) ∧
          y ≤ E e ∧ E e < y + (m.Emax - m.Emin) / m.nE) es).p := by
  intro Q E
  obtain ⟨s, h1, h2⟩ := C173_partial (SE2V := SE2V) (V2Q := V2Q) (VS2E := VS2E) hE hQ hE' hn hm hsym
  have hs : s.size = m.nQ * m.nE := run_size Hist.size iqe_size es _ _ h1
  obtain ⟨H, h3, h4, h5, h6⟩ := histogram2_ok (n := m.nQ) (m := m.nE) (h := s)
    (f := fun (k : Nat) => m.Qmin + k * ((m.Qmax - m.Qmin) / m.nQ)) (g := fun (k : Nat) => m.Emin + k * ((m.Emax - m.Emin) / m.nE))
  refine ⟨s, H, h1, ?_, ⟨by simp [h4], by simp [h5]⟩, fun i hi j hj => ⟨_, _, ⟨by rw [h4]; simp [hi], rfl⟩, ⟨by rw [h5]; simp [hj], rfl⟩, ?_⟩⟩
  · unfold iqeHist
    simp only [read_ok hs, edgeAxis_id hQ hn, edgeAxis_id hE' hm, bind, Except.bind]
    exact h3
  · rw [(h6 i hi j hj).1, h2 i hi j hj]
    unfold InBin
    congr 2
    funext e
    simp only [add_mul, one_mul, add_assoc, Q, E]

/-- C290, partial, for the monitor of the whole sphere, without rounding: the axis of the azimuth is that of the lower edges of the
channels, from 0 to 360 instead of from -180 to 180; the axis of the latitude is right. -/
theorem C290_sphere_partial {G : Gravity} (hG : G.on = false) {R : ℝ} (hR : 0 < R) {nx ny : Nat} (hn : 0 < nx) (hm : 0 < ny)
    {b : Event ℝ → Event ℝ} {es : List (Event ℝ)} (hv : ∀ e ∈ es, e.v ≠ 0)
    (hb : ∀ e ∈ es, (∃ s > 0, OnSphere R e s) → MeetsSphere G R e (b e)) :
    ∃ h H, runAll (psd4PI R nx ny G) (Hist.zero (nx * ny)) es = .ok (h, es) ∧ sphereHist id nx ny h = .ok H ∧
      (H.xs.length = nx ∧ H.ys.length = ny) ∧ ∀ i < nx, ∀ j < ny, ∃ x y,
        (H.xs[i]? = some x ∧ x = 0 + i * (360 / nx : ℝ)) ∧ (H.ys[j]? = some y ∧ y = -90 + j * (180 / ny : ℝ)) ∧
        H.I i j = (tally (fun e => (∃ s > 0, OnSphere R e s) ∧
          ((x ≤ azimuth (b e) + 180 ∧ azimuth (b e) + 180 < x + 360 / nx) ∨ (i + 1 = nx ∧ azimuth (b e) = 180)) ∧
          (At y (180 / ny) (latitude R (b e)) ∨ (j + 1 = ny ∧ y ≤ latitude R (b e)))) es).p := by
  obtain ⟨s, h1, h2⟩ := C172_partial hG hR hn hm hv hb
  have hs : s.size = nx * ny := run_size Hist.size psd4PI_size es _ _ h1
  have hy' : (0 : ℝ) < ny := by exact_mod_cast hm
  have hpos : (0 : ℝ) < 180 / ny := by positivity
  obtain ⟨H, h3, h4, h5, h6⟩ := histogram2_ok (n := nx) (m := ny) (h := s)
    (f := fun (k : Nat) => 0 + k * (360 / nx : ℝ)) (g := fun (k : Nat) => -90 + k * (180 / ny : ℝ))
  refine ⟨s, H, h1, ?_, ⟨by simp [h4], by simp [h5]⟩, fun i hi j hj => ⟨_, _, ⟨by rw [h4]; simp [hi], rfl⟩, ⟨by rw [h5]; simp [hj], rfl⟩, ?_⟩⟩
  · unfold sphereHist
    simp only [read_ok hs, azimuthAxis_id hn, latitudeAxis_id hm, bind, Except.bind]
    exact h3
  · rw [(h6 i hi j hj).1, h2 i hi j hj]
    refine congrArg _ (tally_congr fun e _ => and_congr_right fun _ => and_congr ?_ ?_)
    · refine or_congr ?_ Iff.rfl
      unfold InBin
      rw [show (180 : ℝ) - -180 = 360 by norm_num]
      constructor <;> rintro ⟨p, q⟩ <;> constructor <;> nlinarith
    · unfold At
      constructor
      · rintro ⟨p, q | q⟩
        · exact .inl ⟨by nlinarith, by nlinarith⟩
        · by_cases hlt : latitude R (b e) < -90 + j * (180 / ny) + 180 / ny / 2
          · exact .inl ⟨by nlinarith, hlt⟩
          · exact .inr ⟨q, by linarith⟩
      · rintro (⟨p, q⟩ | ⟨p, q⟩)
        · exact ⟨by nlinarith, .inl (by nlinarith)⟩
        · exact ⟨by nlinarith, .inr p⟩

/-- example: a neutron on its way to a monitor, and one inside the sphere -/
example : Comes ⟨false, 0⟩ ⟨⟨0.9, 0.9, -1⟩, ⟨0, 0, 1⟩, 0, 0, 0, 1⟩ ⟨⟨0.9, 0.9, 0⟩, ⟨0, 0, 1⟩, 0, 0, 1, 1⟩ ∧
    MeetsSphere ⟨false, 0⟩ 1 ⟨0, ⟨0, 0, 1⟩, 0, 0, 0, 1⟩ ⟨⟨0, 0, 1⟩, ⟨0, 0, 1⟩, 0, 0, 1, 1⟩ := ⟨comes_ex, meets_ex⟩

/-- C290 is false for the position monitor: the neutron at (0.9, 0.9) is shown at (0, 0), in pixels of the size 1. -/
theorem C290_psd_false : ∃ (w : Window) (e e' : Event ℝ) (h : Hist) (H : Histo2), Comes ⟨false, 0⟩ e e' ∧
    runAll (psd w 2 2 ⟨false, 0⟩) (Hist.zero 4) [e] = .ok (h, [e']) ∧ psdHist id w 2 2 h = .ok H ∧ (w.xmax - w.xmin) / 2 = 1 ∧
    e'.r.x = 0.9 ∧ H.xs[1]? = some 0 ∧ H.ys[1]? = some 0 ∧ H.I 1 1 = e.p ∧ e.p ≠ 0 ∧ ¬ At 0 1 e'.r.x := by
  obtain ⟨h, H, h1, h2, -, h3⟩ := C290_psd_partial (w := ⟨-1, 1, -1, 1⟩) (n := 2) (m := 2) (G := ⟨false, 0⟩)
    (a := fun _ => ⟨⟨0.9, 0.9, 0⟩, ⟨0, 0, 1⟩, 0, 0, 1, 1⟩) (es := [⟨⟨0.9, 0.9, -1⟩, ⟨0, 0, 1⟩, 0, 0, 0, 1⟩]) (by norm_num) (by norm_num)
    (by norm_num) (by norm_num) (fun e he => by rw [List.mem_singleton.1 he]; exact comes_ex)
  obtain ⟨x, y, ⟨hx, hx'⟩, ⟨hy, hy'⟩, hI, -⟩ := h3 1 (by norm_num) 1 (by norm_num)
  have hx0 : x = 0 := by rw [hx']; norm_num
  have hy0 : y = 0 := by rw [hy']; norm_num
  subst hx0 hy0
  refine ⟨⟨-1, 1, -1, 1⟩, _, _, h, H, comes_ex, h1, by exact_mod_cast h2, by norm_num, rfl, hx, hy, ?_, one_ne_zero, ?_⟩
  · rw [hI]
    unfold tally
    rw [List.map_singleton, List.filter_cons_of_pos (by
      simp only [decide_eq_true_eq]
      unfold Inside
      norm_num)]
    simp
  · unfold At; norm_num

/-- C290 is false for the monitor of the whole sphere: a neutron straight ahead, at the azimuth 0, is shown at 180 degrees. -/
theorem C290_sphere_false : ∃ (e b : Event ℝ) (h : Hist) (H : Histo2), MeetsSphere ⟨false, 0⟩ 1 e b ∧ azimuth b = 0 ∧
    runAll (psd4PI 1 4 2 ⟨false, 0⟩) (Hist.zero 8) [e] = .ok (h, [e]) ∧ sphereHist id 4 2 h = .ok H ∧
    H.xs[2]? = some 180 ∧ H.I 2 1 = e.p ∧ e.p ≠ 0 := by
  have haz : azimuth ⟨⟨0, 0, 1⟩, ⟨0, 0, 1⟩, 0, 0, 1, 1⟩ = 0 := by
    unfold azimuth
    rw [show (⟨(1 : ℝ), 0⟩ : ℂ) = 1 by rfl]
    simp
  have hlat : latitude 1 ⟨⟨0, 0, 1⟩, ⟨0, 0, 1⟩, 0, 0, 1, 1⟩ = 0 := by
    unfold latitude; simp
  have hon : ∃ s > 0, OnSphere 1 (⟨0, ⟨0, 0, 1⟩, 0, 0, 0, 1⟩ : Event ℝ) s := ⟨1, by norm_num, by unfold OnSphere; norm_num⟩
  obtain ⟨h, H, h1, h2, -, h3⟩ := C290_sphere_partial (G := ⟨false, 0⟩) rfl (R := 1) one_pos (nx := 4) (ny := 2) (by norm_num) (by norm_num)
    (b := fun _ => ⟨⟨0, 0, 1⟩, ⟨0, 0, 1⟩, 0, 0, 1, 1⟩) (es := [⟨0, ⟨0, 0, 1⟩, 0, 0, 0, 1⟩])
    (fun e he => by rw [List.mem_singleton.1 he]; intro h; have := congrArg V3.z h; norm_num at this)
    (fun e he _ => by rw [List.mem_singleton.1 he]; exact meets_ex)
  obtain ⟨x, y, ⟨hx, hx'⟩, ⟨hy, hy'⟩, hI⟩ := h3 2 (by norm_num) 1 (by norm_num)
  have hx0 : x = 180 := by rw [hx']; norm_num
  have hy0 : y = 0 := by rw [hy']; norm_num
  subst hx0 hy0
  refine ⟨_, _, h, H, meets_ex, haz, h1, h2, hx, ?_, one_ne_zero⟩
  rw [hI]
  unfold tally
  rw [List.filter_cons_of_pos (by
    simp only [decide_eq_true_eq, haz, hlat]
    exact ⟨hon, .inl (by norm_num), .inl (by unfold At; norm_num)⟩)]
  simp

/-! ### C291: the histogram can be made whatever the rounding -/

/-- C291, partial: with any rounding of relative error up to `u` the axes of the energy, time-of-flight, divergence and
position-divergence monitors have one number for each channel, if the channels are wide enough; so the histogram can be made. -/
theorem C291_partial {fl : ℝ → ℝ} {u : ℝ} (hr : Rounds fl u) (hu : 0 ≤ u) {lo hi : ℝ} (hl : lo < hi) {n : Nat} (hn : 0 < n)
    (hc : n * (|lo| + |hi|) * u ≤ (hi - lo) / 1000) :
    (∀ h : Hist, h.size = n → (∃ H, hist1 (eAxis fl lo hi) n h = .ok H) ∧ (∃ H, hist1 (tAxis fl lo hi) n h = .ok H) ∧
      (lo = -hi → ∃ H, hdivHist fl hi n h = .ok H)) ∧
    ∀ {lo' hi' : ℝ} {m : Nat}, lo' < hi' → 0 < m → m * (|lo'| + |hi'|) * u ≤ (hi' - lo') / 1000 → lo' = -hi' →
      ∀ h : Hist, h.size = n * m → (∃ H, divPosHist fl ⟨lo, hi, 0, 0⟩ hi' n m h = .ok H) ∧
        (lo = -hi → ∃ H, divergenceHist fl hi hi' n m h = .ok H) := by
  have key : ∀ {axis : Nat → Except Err (List ℝ)} {n : Nat} {h : Hist}, h.size = n → (∃ xs, axis n = .ok xs ∧ xs.length = n) →
      ∃ H, hist1 axis n h = .ok H := by
    rintro axis n h hs ⟨xs, h1, h2⟩
    unfold hist1
    simp only [read_ok hs, h1, bind, Except.bind, histogram, h2, List.length_map, List.length_range, if_true]
    exact ⟨_, rfl⟩
  have key2 : ∀ {ax ay : Nat → Except Err (List ℝ)} {n m : Nat} {h : Hist}, h.size = n * m →
      (∃ xs, ax n = .ok xs ∧ xs.length = n) → (∃ xs, ay m = .ok xs ∧ xs.length = m) → ∃ H, hist2 ax ay n m h = .ok H := by
    rintro ax ay n m h hs ⟨xs, h1, h2⟩ ⟨ys, h3, h4⟩
    unfold hist2
    simp only [intOf_nat, read_ok hs, h1, h3, bind, Except.bind, histogram2, h2, h4, and_self, if_true]
    exact ⟨_, rfl⟩
  have hdiv : ∀ {m : ℝ} {n : Nat}, divAxis fl m n = eAxis fl (-m) m n := by
    intro m n
    unfold divAxis eAxis
    rw [show 2 * m = m - -m by ring]
  refine ⟨fun h hs => ⟨key hs (eAxis_length hr hu hl hn hc), key hs (tAxis_length hr hu hl hn hc), fun h0 => ?_⟩,
    fun {lo' hi' m} hl' hm hc' h0' h hs => ⟨key2 hs (eAxis_length hr hu hl hn hc) ?_, fun h0 => key2 hs ?_ ?_⟩⟩
  · subst h0
    unfold hdivHist
    rw [intOf_nat]
    exact key hs (by rw [hdiv]; exact eAxis_length hr hu hl hn hc)
  · subst h0'
    rw [hdiv]; exact eAxis_length hr hu hl' hm hc'
  · subst h0
    rw [hdiv]; exact eAxis_length hr hu hl hn hc
  · subst h0'
    rw [hdiv]; exact eAxis_length hr hu hl' hm hc'

/-- example: a million channels from 1 to 4 with doubles -/
example : Rounds dbl (2 ^ (-53 : ℤ)) ∧ (1000000 : Nat) * (|(1 : ℝ)| + |(4 : ℝ)|) * 2 ^ (-53 : ℤ) ≤ (4 - 1) / 1000 :=
  ⟨dbl_rounds, by norm_num⟩

/-- C291 is false for the wavelength monitor: with 10 channels from 1 to 4 the axis has 11 numbers in the arithmetic of doubles, and
the histogram cannot be made. -/
theorem C291_wavelength_false : (∃ xs, lAxis dbl 1 4 10 = .ok xs ∧ xs.length = 11) ∧
    ∀ h : Hist, h.size = 10 → hist1 (lAxis dbl 1 4) 10 h = .error .valueError := by
  have hW : dbl (4 - 1) = 3 := (dbl_eq 1 6755399441055744 (by norm_num) (by norm_num) (by norm_num)).trans (by norm_num)
  have hd : dbl (3 / (10 : Nat)) = 5404319552844595 * 2 ^ (-54 : ℤ) :=
    (dbl_eq (-2) 5404319552844595 (by norm_num) (by norm_num) (by norm_num [abs_lt])).trans (by norm_num)
  have hh : dbl (5404319552844595 * 2 ^ (-54 : ℤ) / 2) = 5404319552844595 * 2 ^ (-55 : ℤ) :=
    (dbl_eq (-3) 5404319552844595 (by norm_num) (by norm_num) (by norm_num)).trans (by norm_num)
  have hs : dbl (1 + 5404319552844595 * 2 ^ (-55 : ℤ)) = 5179139571476070 * 2 ^ (-52 : ℤ) :=
    (dbl_eq 0 5179139571476070 (by norm_num) (by norm_num) (by norm_num [abs_lt])).trans (by norm_num)
  have ht : dbl (4 + 5404319552844595 * 2 ^ (-55 : ℤ)) = 4672484613396890 * 2 ^ (-50 : ℤ) :=
    (dbl_eq 2 4672484613396890 (by norm_num) (by norm_num) (by norm_num [abs_lt])).trans (by norm_num)
  have hts : dbl (4672484613396890 * 2 ^ (-50 : ℤ) - 5179139571476070 * 2 ^ (-52 : ℤ)) = 6755399441055745 * 2 ^ (-51 : ℤ) :=
    (dbl_eq 1 6755399441055745 (by norm_num) (by norm_num) (by norm_num [abs_lt])).trans (by norm_num)
  have hq : dbl (6755399441055745 * 2 ^ (-51 : ℤ) / (5404319552844595 * 2 ^ (-54 : ℤ))) = 5629499534213121 * 2 ^ (-49 : ℤ) :=
    (dbl_eq 3 5629499534213121 (by norm_num) (by norm_num) (by norm_num [abs_lt])).trans (by norm_num)
  have hax : ∃ xs, lAxis dbl 1 4 10 = .ok xs ∧ xs.length = 11 := by
    obtain ⟨xs, h1, h2⟩ := arange_length (fl := dbl) (s := 5179139571476070 * 2 ^ (-52 : ℤ)) (t := 4672484613396890 * 2 ^ (-50 : ℤ))
      (d := 5404319552844595 * 2 ^ (-54 : ℤ)) (by positivity)
    refine ⟨xs, ?_, ?_⟩
    · unfold lAxis per
      rw [if_neg (by norm_num)]
      simp only [bind, Except.bind, hW, hd, hh, hs, ht, h1]
    · rw [h2, hts, hq]
      exact ceil_eq (by norm_num) (by norm_num)
  refine ⟨hax, fun h hs => ?_⟩
  obtain ⟨xs, h1, h2⟩ := hax
  unfold hist1
  simp only [read_ok hs, h1, bind, Except.bind, histogram, h2, List.length_map, List.length_range]
  rfl

/-- C291 is false for the position monitor: with 49 columns from -1/2 to 1/2 the axis has 50 numbers. -/
theorem C291_psd_false : ∃ w : Window, w.xmin < w.xmax ∧ w.ymin < w.ymax ∧
    ∀ h : Hist, h.size = 49 * 49 → psdHist dbl w 49 49 h = .error .valueError := by
  refine ⟨⟨-1 / 2, 1 / 2, -1 / 2, 1 / 2⟩, by norm_num, by norm_num, fun h hs => ?_⟩
  obtain ⟨xs, h1, h2⟩ := edge49 (lo := -1 / 2) (hi := 1 / 2) (by norm_num)
  have h49 : intOf 49 = .ok 49 := by exact_mod_cast intOf_nat 49
  unfold psdHist hist2
  simp only [h49, read_ok hs, h1, bind, Except.bind, histogram2, h2]
  rfl

/-- C291 is false for the monitor of momentum and energy: with 49 channels from 0 to 1 the axis has 50 numbers. -/
theorem C291_iqe_false : ∃ m : IQE, m.Qmin < m.Qmax ∧ m.Emin < m.Emax ∧
    ∀ h : Hist, h.size = m.nQ * m.nE → iqeHist dbl m h = .error .valueError := by
  refine ⟨⟨2, 0, 1, 0, 1, 49, 49, 90, -90, 90, -90⟩, by norm_num, by norm_num, fun h hs => ?_⟩
  obtain ⟨xs, h1, h2⟩ := edge49 (lo := 0) (hi := 1) (by norm_num)
  unfold iqeHist
  simp only [read_ok hs, h1, bind, Except.bind, histogram2, h2]
  rfl

/-- C291 is false for the monitor of the whole sphere: with 161 columns the axis has 162 numbers. -/
theorem C291_sphere_false {ny : Nat} (hy : 0 < ny) : ∀ h : Hist, h.size = 161 * ny → sphereHist dbl 161 ny h = .error .valueError := by
  intro h hs
  have hW : dbl (360 - 0) = 360 := (dbl_eq 8 6333186975989760 (by norm_num) (by norm_num) (by norm_num)).trans (by norm_num)
  have hd : dbl (360 / (161 : Nat)) = 5035080328737200 * 2 ^ (-51 : ℤ) :=
    (dbl_eq 1 5035080328737200 (by norm_num) (by norm_num) (by norm_num [abs_lt])).trans (by norm_num)
  have hq : dbl (360 / (5035080328737200 * 2 ^ (-51 : ℤ))) = 5664683906301953 * 2 ^ (-45 : ℤ) :=
    (dbl_eq 7 5664683906301953 (by norm_num) (by norm_num) (by norm_num [abs_lt])).trans (by norm_num)
  obtain ⟨xs, h1, h2⟩ := arange_length (fl := dbl) (s := 0) (t := 360) (d := 5035080328737200 * 2 ^ (-51 : ℤ)) (by positivity)
  have h3 : xs.length = 162 := by
    rw [h2, hW, hq]
    exact ceil_eq (by norm_num) (by norm_num)
  have hx : azimuthAxis dbl 161 = .ok xs := by
    unfold azimuthAxis per
    rw [if_neg (by norm_num)]
    simp only [bind, Except.bind, hd, h1]
  unfold sphereHist
  simp only [read_ok hs, hx, bind, Except.bind, histogram2, h3]
  cases hl : latitudeAxis dbl ny with
  | ok ys => rfl
  | error x =>
    exfalso
    unfold latitudeAxis per arange at hl
    rw [if_neg hy.ne'] at hl
    simp only [bind, Except.bind] at hl
    split_ifs at hl with h0
    have hpos : (0 : ℝ) < 180 / ny := by have : (0 : ℝ) < ny := by exact_mod_cast hy
                                         positivity
    have := abs_le.1 (dbl_rounds (180 / ny))
    rw [h0, abs_of_pos hpos] at this
    norm_num at this
    nlinarith

end

/-! ### C292: the parameters of a component -/

/-- C292: the simulation uses for each parameter the value set last, else the one given, else the default; it starts if and only if
every name given is a parameter (or `restore_neutron`). -/
theorem C292_engine {params kwds sets : Dict} {args : List Val} {o : Obj} (h : Obj.new params args kwds = .ok o) :
    ((∀ x ∈ given args kwds, x.1 = "restore_neutron" ∨ params.has x.1 = true) → ∃ d o', (setAll o sets).engine params = .ok (d, o') ∧
      ∀ k, k ≠ "restore_neutron" → params.has k = true → d.find k = wanted params (given args kwds) sets k) ∧
    ((∃ x ∈ given args kwds, x.1 ≠ "restore_neutron" ∧ ¬ params.has x.1 = true) →
      (setAll o sets).engine params = .error .typeError) := by
  obtain ⟨d, h1, h2, h3, -⟩ := new_some h
  obtain ⟨d', e1, e2, e3, -⟩ := setAll_some sets o d h1
  unfold Obj.engine
  simp only [e1]
  constructor
  · intro hall
    rw [if_pos]
    · refine ⟨_, _, rfl, fun k hk hp => ?_⟩
      rw [filter_find _ hk, (e3 k ((h2 k).2 (.inl hp))).1, (h3 k hk).1]
      show _ = last (params ++ given args kwds ++ sets) k
      rw [last_append, last_append]
    · rw [List.all_eq_true]
      intro x hx
      rw [List.mem_filter] at hx
      have hne : x.1 ≠ "restore_neutron" := by simpa using hx.2
      have hin : d'.has x.1 = true := List.any_eq_true.2 ⟨x, hx.1, by simp⟩
      rw [e2, h2] at hin
      rcases hin with hin | ⟨y, hy, hxy⟩
      · exact hin
      · rcases hall y hy with h' | h'
        · rw [hxy] at h'; exact absurd h' hne
        · rw [← hxy]; exact h'
  · rintro ⟨x, hx, hne, hp⟩
    rw [if_neg]
    rw [List.all_eq_true]
    intro hall
    have hin : d'.has x.1 = true := (e2 _).2 ((h2 _).2 (.inr ⟨x, hx, rfl⟩))
    obtain ⟨y, hy, hxy⟩ := List.any_eq_true.1 hin
    have hxy : y.1 = x.1 := by simpa using hxy
    have := hall y (List.mem_filter.2 ⟨hy, by rw [hxy]; simpa using hne⟩)
    rw [hxy] at this
    exact hp this

/-- C292, partial: an attribute reads as the value set last if it was not given when the component was made, whether it is a
parameter or not; an attribute given and never set reads as given. -/
theorem C292_read_partial {params kwds sets : Dict} {args : List Val} {o : Obj} (h : Obj.new params args kwds = .ok o) {k : String}
    (hk : k ≠ "restore_neutron") (hg : (∀ x ∈ given args kwds, x.1 ≠ k) ∨ ∀ x ∈ sets, x.1 ≠ k) :
    (setAll o sets).get k = match wanted params (given args kwds) sets k with
      | some v => .ok v
      | none => .error .attributeError := by
  obtain ⟨d, h1, h2, h3, -⟩ := new_some h
  obtain ⟨d', e1, e2, e3, e4⟩ := setAll_some sets o d h1
  have hw : wanted params (given args kwds) sets k = (last sets k).or ((last (given args kwds) k).or (last params k)) := by
    show last (params ++ given args kwds ++ sets) k = _
    rw [last_append, last_append]
  rw [hw]
  unfold Obj.get
  by_cases hd : d.has k = true
  · rw [(e3 k hd).2, (h3 k hk).2]
    rcases hg with hg | hg
    · rw [last_none hg]
      simp only [e1, (e3 k hd).1, (h3 k hk).1, last_none hg]
      cases last sets k <;> cases last params k <;> rfl
    · rw [last_none hg]
      simp only [e1, (e3 k hd).1, (h3 k hk).1, last_none hg]
      cases last (given args kwds) k <;> cases last params k <;> rfl
  · have hn : d.find k = none := by
      cases hf : d.find k with
      | none => rfl
      | some v => exact absurd ((has_find d k).2 ⟨v, hf⟩) hd
    have hn' : d'.find k = none := by
      cases hf : d'.find k with
      | none => rfl
      | some v => exact absurd ((e2 k).1 ((has_find d' k).2 ⟨v, hf⟩)) hd
    rw [(h3 k hk).1] at hn
    rw [e4 k hd, (h3 k hk).2]
    simp only [e1, hn']
    cases h5 : last (given args kwds) k with
    | some v => rw [h5] at hn; cases hn
    | none =>
      rw [h5] at hn
      have hn : last params k = none := by simpa using hn
      rw [hn]
      cases last sets k <;> rfl

/-- example: the energy monitor with a name and a range, and a new number of channels -/
example : Obj.new [("name", .none), ("nchan", .num 20), ("filename", .str "E.dat"), ("Emax", .num 100)] [.str "mon"] [("Emax", .num 50)] =
      .ok ⟨[("Emax", .num 50), ("name", .str "mon"), ("restore_neutron", .bool false)],
        some [("name", .str "mon"), ("nchan", .num 20), ("filename", .str "E.dat"), ("Emax", .num 50)]⟩ ∧
    wanted [("name", .none), ("nchan", .num 20), ("filename", .str "E.dat"), ("Emax", .num 100)]
      (given [.str "mon"] [("Emax", .num 50)]) [("nchan", .num 30)] "nchan" = some (.num 30) := by
  constructor <;> decide +kernel

/-- C292 is false for a parameter that was given and is set later: it reads as before, though the simulation uses the new value; the
histogram goes to the old file. -/
theorem C292_read_false : ∃ (params kwds : Dict) (o : Obj), Obj.new params [] kwds = .ok o ∧
    let o' := o.set "filename" (.str "b.dat")
    (o'.engine params).map (fun r => Dict.find r.1 "filename") = .ok (some (.str "b.dat")) ∧
    o'.get "filename" = .ok (.str "a.dat") ∧ o'.histogramFile = .ok "a.h5".toList := by
  refine ⟨[("name", .none), ("filename", .str "E.dat")], [("name", .str "m"), ("filename", .str "a.dat")], _, rfl, ?_⟩
  refine ⟨by decide +kernel, by decide +kernel, by decide +kernel⟩

/-- C292, partial: `restore_neutron` is off at first; it reads as set last if it is no parameter and was not given, and, after the first
round, whenever it is set. -/
theorem C292_restore_partial {params kwds sets : Dict} {args : List Val} {o : Obj} (h : Obj.new params args kwds = .ok o) :
    (¬ params.has "restore_neutron" = true → (∀ x ∈ given args kwds, x.1 ≠ "restore_neutron") →
      (setAll o sets).get "restore_neutron" = .ok (((sets.reverse.find? (·.1 == "restore_neutron")).map (·.2)).getD (.bool false))) ∧
    ∀ d o', (setAll o sets).engine params = .ok (d, o') → ∀ v, (o'.set "restore_neutron" v).get "restore_neutron" = .ok v := by
  obtain ⟨d, h1, h2, -, h4⟩ := new_some h
  constructor
  · intro hp hg
    have hd : ¬ d.has "restore_neutron" = true := by
      rw [h2]
      rintro (h | ⟨x, hx, hk⟩)
      exacts [hp h, hg x hx hk]
    rw [if_neg hd] at h4
    obtain ⟨d', -, -, -, e4⟩ := setAll_some sets o d h1
    unfold Obj.get
    rw [e4 _ hd, h4]
    change (match (last sets "restore_neutron").or _ with
      | some v => _
      | none => _) = Except.ok ((last sets "restore_neutron").getD _)
    cases last sets "restore_neutron" <;> rfl
  · obtain ⟨d', e1, -, -, -⟩ := setAll_some sets o d h1
    intro c o' hc v
    unfold Obj.engine at hc
    simp only [e1] at hc
    split_ifs at hc
    simp only [Except.ok.injEq, Prod.mk.injEq] at hc
    obtain ⟨-, rfl⟩ := hc
    rw [set_out rfl (filter_has _)]
    unfold Obj.get
    simp only [find_put, if_true]

/-- C292 is false for `restore_neutron` given when the component is made: it cannot be switched off before the first round. -/
theorem C292_restore_false : ∃ (params kwds : Dict) (o : Obj), Obj.new params [] kwds = .ok o ∧
    (o.set "restore_neutron" (.bool false)).get "restore_neutron" = .ok (.bool true) := by
  refine ⟨[("name", .none)], [("name", .str "m"), ("restore_neutron", .bool true)], _, rfl, by decide +kernel⟩

/-- C292 is false for an object made without `__init__`, as by `copy` and `pickle`: asking for an attribute it does not have never
ends, instead of an AttributeError. -/
theorem C292_blank_false : (⟨[], none⟩ : Obj).get "__setstate__" = .error .recursionError := rfl

/-! ### C293: a round of a monitor -/

/-- C293: in each round the file has the data of the neutrons of this round only; other files are as before; the neutrons are as
before if `restore_neutron` is set, and as the component left them if not; and the next round uses the same parameters. -/
theorem C293_round {N D : Type} {params : Dict} {cpp : Dict → List N → Except Err (List N × D)} {overwrite : Bool} {o o' : Obj}
    {fs fs' : Files D} {ns ns' : List N} (h : o.process params cpp overwrite fs ns = .ok (o', fs', ns')) :
    ∃ d r f data ns1, o.engine params = .ok (d, o') ∧ o.get "restore_neutron" = .ok r ∧ o'.histogramFile = .ok f ∧
      cpp d ns = .ok (ns1, data) ∧ ns' = (if r.truth then ns else ns1) ∧ (∀ c, (f, c) ∈ fs' ↔ c = data) ∧
      (∀ g c, g ≠ f → ((g, c) ∈ fs' ↔ (g, c) ∈ fs)) ∧ (overwrite = false → ∀ c, (f, c) ∉ fs) ∧
      o'.engine params = .ok (d, o') := by
  unfold Obj.process at h
  cases h1 : o.get "restore_neutron" with
  | error x => rw [h1] at h; cases h
  | ok r =>
  cases h2 : o.engine params with
  | error x => rw [h1, h2] at h; cases h
  | ok p =>
  obtain ⟨d, o1⟩ := p
  cases h3 : cpp d ns with
  | error x => rw [h1, h2] at h; simp only [bind, Except.bind, h3] at h; cases h
  | ok q =>
  obtain ⟨ns1, data⟩ := q
  cases h4 : o1.histogramFile with
  | error x => rw [h1, h2] at h; simp only [bind, Except.bind, h3, h4] at h; cases h
  | ok f =>
  cases h5 : save fs overwrite f data with
  | error x => rw [h1, h2] at h; simp only [bind, Except.bind, h3, h4, h5] at h; cases h
  | ok gs =>
  rw [h1, h2] at h
  simp only [bind, Except.bind, h3, h4, h5, Except.ok.injEq, Prod.mk.injEq] at h
  obtain ⟨rfl, rfl, rfl⟩ := h
  refine ⟨d, r, f, data, ns1, rfl, rfl, h4, h3, rfl, ?_, ?_, ?_, ?_⟩
  · intro c
    unfold save at h5
    split_ifs at h5 with ha hb <;> simp only [Except.ok.injEq] at h5 <;> subst h5
    · simp
    · have : ∀ c, (f, c) ∉ fs := fun c hc => ha (List.any_eq_true.2 ⟨_, hc, by simp⟩)
      simp [this]
  · intro g c hg
    unfold save at h5
    split_ifs at h5 with ha hb <;> simp only [Except.ok.injEq] at h5 <;> subst h5 <;> simp [hg]
  · rintro rfl c hc
    unfold save at h5
    rw [if_pos (List.any_eq_true.2 ⟨_, hc, by simp⟩)] at h5
    cases h5
  · unfold Obj.engine at h2
    cases hk : o.kwds with
    | none => rw [hk] at h2; cases h2
    | some e =>
      rw [hk] at h2
      simp only at h2
      split_ifs at h2 with ha
      simp only [Except.ok.injEq, Prod.mk.injEq] at h2
      obtain ⟨rfl, rfl⟩ := h2
      unfold Obj.engine
      simp only [List.filter_filter, Bool.and_self]
      rw [if_pos ha]

/-- example: a round of a monitor that counts its neutrons and absorbs them -/
example : (Obj.new [("name", .none), ("filename", .str "E.dat")] [] [("name", .str "m"), ("restore_neutron", .bool true)]).toOption.bind
      (fun o => (o.process [("name", .none), ("filename", .str "E.dat")] (fun _ (ns : List Nat) => .ok ([], ns.length)) false
        [("x.h5".toList, 7)] [1, 2, 3]).toOption.map fun r => r.2) =
    some ([("x.h5".toList, 7), ("E.h5".toList, 3)], [1, 2, 3]) := by
  decide +kernel

/-- C293, partial: monitors whose files have different names before the last dot write different histograms; the name of the histogram
is that of the file, with the extension replaced. -/
theorem C293_names_partial {a b : List Char} : (stem a ++ ".h5".toList = stem b ++ ".h5".toList ↔ stem a = stem b) ∧
    (∀ x y : List Char, '.' ∉ y → (∃ c ∈ x, c ≠ '.') → stem (x ++ '.' :: y) = x) ∧ ('.' ∉ a → stem a = a) := by
  refine ⟨List.append_left_inj _, fun x y hy hx => ?_, fun ha => ?_⟩
  · unfold stem
    have : (x ++ '.' :: y).reverse.dropWhile (· != '.') = '.' :: x.reverse := by
      rw [List.reverse_append, List.reverse_cons, List.append_assoc, List.dropWhile_append_of_pos]
      · simp
      · intro c hc
        have : c ≠ '.' := by rintro rfl; exact hy (by simpa using hc)
        simpa using this
    rw [this]
    simp only
    rw [if_neg, List.reverse_reverse]
    intro h
    obtain ⟨c, hc, hne⟩ := hx
    exact hne (by simpa using List.all_eq_true.1 h c (by simpa using hc))
  · unfold stem
    have : a.reverse.dropWhile (· != '.') = [] := by
      rw [List.dropWhile_eq_nil_iff]
      intro c hc
      have : c ≠ '.' := by rintro rfl; exact ha (by simpa using hc)
      simpa using this
    rw [this]

/-- example -/
example : stem "run1/E.12.dat".toList = "run1/E.12".toList ∧ stem "E".toList = "E".toList := by decide +kernel

/-- C293 is false for two monitors whose files differ by the extension: the second cannot write, or it removes the data of the first. -/
theorem C293_names_false : stem "E.dat".toList = stem "E.txt".toList ∧
    save [(stem "E.dat".toList ++ ".h5".toList, 1)] false (stem "E.txt".toList ++ ".h5".toList) 2 = .error .ioError ∧
    save [(stem "E.dat".toList ++ ".h5".toList, 1)] true (stem "E.txt".toList ++ ".h5".toList) 2 = .ok [("E.h5".toList, 2)] := by
  refine ⟨by decide +kernel, by decide +kernel, by decide +kernel⟩

/-! ### C294: the normalization of the I(Q,E) monitor -/

/-- C294, partial: the data are divided by the normalization where there is one, and unchanged where there is not; never by 0. -/
theorem C294_partial (norm : Nat → Nat → ℝ) (i j : Nat) : 0 < fillEmpty norm i j ∧
    (1e-7 ≤ norm i j → fillEmpty norm i j = norm i j) ∧ (norm i j < 1e-7 → ∀ x : ℝ, x / fillEmpty norm i j = x) := by
  unfold fillEmpty
  refine ⟨?_, fun h => if_neg (not_lt.2 h), fun h x => by rw [if_pos h, div_one]⟩
  split_ifs with h
  · exact one_pos
  · have : (0 : ℝ) < 1e-7 := by norm_num
    linarith

/-- example -/
example : fillEmpty (fun i _ => i * 1000) 2 0 = 2000 ∧ fillEmpty (fun i _ => i * 1000) 0 0 = 1 := by
  unfold fillEmpty; norm_num

/-- C294 is false if a parameter changes between two rounds: the normalization of the first round is used. -/
theorem C294_kept_false : ∃ (compute : Dict → Option Val) (d1 d2 : Dict), compute d1 ≠ compute d2 ∧
    normalization (some (normalization none compute d1)) compute d2 = compute d1 :=
  ⟨fun d => d.find "Ei", [("Ei", .num 70)], [("Ei", .num 30)], by decide +kernel, rfl⟩

end Verif.Proxy
