import Verif.Lemmas.McOptics2
/-!
Property theorems C257-C261: the analytic reflectivity, the second disk chopper, the filter, the radial collimator and the guide with
channels of McStas.
-/

namespace Verif.McOptB
open McStas Kinem Flight Solid McGuide McOpt Homog McMon
open Classical

/-! ### reflectivity -/

/-- C257, partial: with a width of the edge the analytic reflectivity is `R0` up to the end of the total reflection, then decreases to the
edge at `m Qc`, and is 0 behind it and for a mirror that has no `m`.  Missing: the parameters that are found from `m`
(`C257_false`), no width (`C257_sharp_false`) and that it is not negative (`C257_negative_false`). -/
theorem C257_partial (c : Reflec) (hW : 0 < c.W) (hR : 0 < c.R0) (hQ : 0 < c.Qc) (q : ℝ) :
    (c.m ≤ 0 → stdReflec c q = 0) ∧
    (0 < c.m → |q| ≤ c.total → stdReflec c q = c.R0) ∧
    (0 < c.m → c.total < |q| → |q| ≤ c.m * c.Qc + 10 * c.W → stdReflec c q = c.beyond |q|) ∧
    (0 < c.m → c.m * c.Qc + 10 * c.W < |q| → stdReflec c q = 0) := by
  have hne : ¬ (c.W = 0 ∧ c.alpha = 0) := fun h => hW.ne' h.1
  rw [std_plain hne, if_pos hW, total_eq]
  have harg : (|q| - c.m * c.Qc) / c.W > 10 ↔ c.m * c.Qc + 10 * c.W < |q| := by
    rw [gt_iff_lt, lt_div_iff₀ hW]; constructor <;> intro h <;> linarith
  simp only [harg]
  refine ⟨fun h => if_pos (.inr (.inl h)), fun hm h => ?_, fun hm h1 h2 => ?_, fun hm h => if_pos (.inl h)⟩
  · have hle : c.total ≤ c.m * c.Qc := by
      unfold Reflec.total
      rw [mul_comm c.m]
      exact mul_le_mul_of_nonneg_left (min_le_left _ _) hQ.le
    rw [if_neg, if_pos h]
    rintro (h' | h' | h' | h') <;> linarith
  · rw [if_neg (by rintro (h' | h' | h' | h') <;> linarith), if_neg (not_le.2 h1)]
    unfold Reflec.beyond
    rw [show c.R0 * 0.5 * (1 - Real.tanh ((|q| - c.m * c.Qc) / c.W)) * (1 - c.alpha * (|q| - c.total)) =
      c.R0 * (1 - c.alpha * (|q| - c.total)) * (0.5 * (1 - Real.tanh ((|q| - c.m * c.Qc) / c.W))) by ring, tanh_logistic]
    ring

/-- the defaults of the guides: all of the cases occur -/
example : (0.01 : ℝ) ≤ 0.0219 * min 2 1 ∧ (0.0219 : ℝ) * min 2 1 < 0.03 ∧ (0.03 : ℝ) ≤ 2 * 0.0219 + 10 * 0.003 ∧
    (2 * 0.0219 + 10 * 0.003 : ℝ) < 0.1 := by
  rw [min_eq_right (by norm_num)]; norm_num

/-- C257: the reflectivity does not depend on the sign of the momentum transfer -/
theorem C257_even (c : Reflec) (q : ℝ) : stdReflec c (-q) = stdReflec c q := by
  unfold stdReflec; rw [abs_neg]

/-- C257 is false: a mirror with `m` = 0, which is to absorb all neutrons, reflects them with `R0` if the width and the slope are 0 -/
theorem C257_false : ¬ ∀ (c : Reflec) (q : ℝ), c.m = 0 → stdReflec c q = 0 := by
  intro h
  have := h ⟨0.99, 0.0219, 0, 0, 0⟩ 0 rfl
  unfold stdReflec at this
  norm_num at this

/-- C257 is false: without a width of the edge there is no reflection at all, not even in the region of the total reflection -/
theorem C257_sharp_false : ¬ ∀ (c : Reflec) (q : ℝ), 0 < c.R0 → 0 < c.Qc → 1 ≤ c.m → 0 ≤ c.W → |q| ≤ c.Qc → stdReflec c q = c.R0 := by
  intro h
  have := h ⟨0.99, 0.0219, 6.07, 2, 0⟩ 0 (by norm_num) (by norm_num) (by norm_num) le_rfl (by norm_num)
  unfold stdReflec at this
  norm_num at this

/-- C257 is false: the reflectivity is negative for a supermirror with `m` = 10 -/
theorem C257_negative_false : ¬ ∀ (c : Reflec) (q : ℝ), 0 < c.R0 → 0 < c.Qc → 1 ≤ c.m → 0 < c.W → 0 ≤ c.alpha → 0 ≤ stdReflec c q := by
  intro h
  have h0 := h ⟨0.99, 0.0219, 6.07, 10, 0.003⟩ 0.2 (by norm_num) (by norm_num) (by norm_num) (by norm_num) (by norm_num)
  have ht : (⟨0.99, 0.0219, 6.07, 10, 0.003⟩ : Reflec).total = 0.0219 := by
    unfold Reflec.total; rw [min_eq_right (by norm_num)]; norm_num
  rw [(C257_partial ⟨0.99, 0.0219, 6.07, 10, 0.003⟩ (by norm_num) (by norm_num) (by norm_num) 0.2).2.2.1 (by norm_num)
    (by rw [ht]; norm_num [abs_of_pos]) (by norm_num [abs_of_pos])] at h0
  unfold Reflec.beyond at h0
  rw [ht] at h0
  have h1 : (0:ℝ) < 1 + Real.exp (2 * ((|0.2| - 10 * 0.0219) / 0.003)) := by positivity
  have h2 : (0.99 : ℝ) * (1 - 6.07 * (|0.2| - 0.0219)) < 0 := by norm_num [abs_of_pos]
  have := div_neg_of_neg_of_pos h2 h1
  simp only at h0
  linarith

/-! ### disk chopper -/

/-- C258: a neutron that comes to a disk chopper (the second version) passes unchanged if a slit is there at its time, up to the jitter,
and is stopped otherwise; one slit is at the top at the time of the delay or of the phase -/
theorem C258_slit (c : Disk2Par) (d : Disk2) (h : Disk2.new c = .ok d) (hν : c.nu ≠ 0) (hθ : c.theta_0 ≠ 0) (hf : c.isFirst = false)
    {G : Gravity} {e a : Event ℝ} (hc : Comes G e a) (g u1 u2 : ℝ) :
    disk2 d G g u1 u2 e = if c.Opens c.theta_0 (c.jitter * g) a then a else stopped a := by
  obtain ⟨θ, t0, n0, R0, k0, hθ', -, hd⟩ := new2_ok h hν
  have hθ' := hθ' (.inl hθ)
  subst hθ'
  have hp := Real.pi_pos
  have hω : 2 * Real.pi * c.nu ≠ 0 := by positivity
  have hω' : 0 < |2 * Real.pi * c.nu| := abs_pos.2 hω
  have hT : c.theta_0 * (Real.pi / 180) / |2 * Real.pi * c.nu| < 2 * Real.pi / |2 * Real.pi * c.nu| / c.nslit := by
    rw [lt_div_iff₀ n0, div_mul_eq_mul_div]
    apply (div_lt_div_iff_of_pos_right hω').2
    nlinarith
  have hj : (if d.jitter ≠ 0 then d.jitter * g else 0) = c.jitter * g := by
    rw [hd]
    by_cases hj : c.jitter = 0
    · simp [hj]
    · simp [hj]
  have hs := fmod_slit (x := a.t - c.jitter * g - c.angle a / (2 * Real.pi * c.nu) - c.late) (by positivity) hT
  rw [(slit_time hω).1] at hs
  unfold disk2
  simp only [comes_prop hc, hj]
  rw [hd]
  simp only [hf]
  have hab : a.r.y + (c.radius - c.height / 2) = c.above a := rfl
  have han : Frames.arctan2 a.r.x (c.above a) = c.angle a := rfl
  rw [hab, han, show a.t - c.angle a / (2 * Real.pi * c.nu) - c.late - c.jitter * g =
    a.t - c.jitter * g - c.angle a / (2 * Real.pi * c.nu) - c.late by ring]
  unfold Disk2Par.Opens Disk2Par.Ring
  simp only [sq, Bool.false_eq_true, if_false]
  by_cases q1 : c.absOut = true ∧ a.r.x * a.r.x + c.above a * c.above a > c.radius * c.radius
  · rw [if_pos q1, if_neg]
    · rfl
    · rintro ⟨⟨-, q⟩, -⟩; exact absurd (q q1.1) (not_le.2 q1.2)
  rw [if_neg q1]
  by_cases q2 : a.r.x * a.r.x + c.above a * c.above a < (c.radius - c.height) * (c.radius - c.height)
  · rw [if_pos q2, if_neg]
    · rfl
    · rintro ⟨⟨q, -⟩, -⟩; exact absurd q (not_le.2 q2)
  rw [if_neg q2]
  by_cases q3 : SlitAt (2 * Real.pi * c.nu) c.nslit (c.theta_0 * (Real.pi / 180)) c.late (c.angle a) (a.t - c.jitter * g)
  · rw [if_neg (not_lt.2 (hs.2 q3)), if_pos ⟨⟨not_lt.1 q2, fun q => not_lt.1 fun q' => q1 ⟨q, q'⟩⟩, q3⟩]
  · rw [if_pos (lt_of_not_ge fun q => q3 (hs.1 q)), if_neg fun q => q3 q.2]
    rfl

/-- C258: the first chopper gives the neutron a time at which a slit is there, and the weight times the part of the time in which there is
one -/
theorem C258_first (c : Disk2Par) (d : Disk2) (h : Disk2.new c = .ok d) (hν : c.nu ≠ 0) (hθ : c.theta_0 ≠ 0) (hf : c.isFirst = true)
    {G : Gravity} {e a : Event ℝ} (hc : Comes G e a) (g u1 u2 : ℝ) (h0 : 0 ≤ u1) (h1 : u1 ≤ 1) :
    (¬ c.Ring a → disk2 d G g u1 u2 e = stopped a) ∧
    (c.Ring a → ∃ t, disk2 d G g u1 u2 e = { a with t := t, p := a.p * (c.nslit * c.theta_0 / 360) } ∧
      c.Opens c.theta_0 (c.jitter * g) { a with t := t }) := by
  obtain ⟨θ, t0, n0, R0, k0, hθ', -, hd⟩ := new2_ok h hν
  have hθ' := hθ' (.inl hθ)
  subst hθ'
  have hp := Real.pi_pos
  have hω : 2 * Real.pi * c.nu ≠ 0 := by positivity
  have hω' : 0 < |2 * Real.pi * c.nu| := abs_pos.2 hω
  have hj : (if d.jitter ≠ 0 then d.jitter * g else 0) = c.jitter * g := by
    rw [hd]
    by_cases hj : c.jitter = 0
    · simp [hj]
    · simp [hj]
  unfold disk2
  simp only [comes_prop hc, hj]
  rw [hd]
  simp only [hf]
  have hab : a.r.y + (c.radius - c.height / 2) = c.above a := rfl
  have han : Frames.arctan2 a.r.x (c.above a) = c.angle a := rfl
  rw [hab, han]
  have hR : c.Ring a ↔ ¬ (c.absOut = true ∧ a.r.x * a.r.x + c.above a * c.above a > c.radius * c.radius) ∧
      ¬ a.r.x * a.r.x + c.above a * c.above a < (c.radius - c.height) * (c.radius - c.height) := by
    unfold Disk2Par.Ring
    simp only [sq, not_and, not_lt, gt_iff_lt]
    tauto
  constructor
  · intro hn
    by_cases q1 : c.absOut = true ∧ a.r.x * a.r.x + c.above a * c.above a > c.radius * c.radius
    · rw [if_pos q1]; rfl
    · rw [if_neg q1, if_pos (by by_contra q; exact hn (hR.2 ⟨q1, q⟩))]; rfl
  · intro hr
    obtain ⟨q1, q2⟩ := hR.1 hr
    rw [if_neg q1, if_neg q2]
    simp only [if_true]
    refine ⟨c.angle a / (2 * Real.pi * c.nu) + c.theta_0 * (Real.pi / 180) / |2 * Real.pi * c.nu| * (2 * u1 - 1) / 2 +
        c.late + c.jitter * g + (if c.n_pulse > 1 then ⌊c.n_pulse * u2⌋ * (2 * Real.pi / |2 * Real.pi * c.nu| / c.nslit) else 0), ?_, hr, ?_⟩
    · congr 2
      field_simp
      ring
    have ha : c.angle { a with t := c.angle a / (2 * Real.pi * c.nu) + c.theta_0 * (Real.pi / 180) / |2 * Real.pi * c.nu| * (2 * u1 - 1) / 2 +
        c.late + c.jitter * g + (if c.n_pulse > 1 then ⌊c.n_pulse * u2⌋ * (2 * Real.pi / |2 * Real.pi * c.nu| / c.nslit) else 0) } =
      c.angle a := rfl
    rw [ha, ← (slit_time hω).1]
    refine ⟨if c.n_pulse > 1 then ⌊c.n_pulse * u2⌋ else 0, ?_⟩
    have hw : 0 ≤ c.theta_0 * (Real.pi / 180) / |2 * Real.pi * c.nu| := by positivity
    have e1 : ∀ x y z : ℝ, x + c.theta_0 * (Real.pi / 180) / |2 * Real.pi * c.nu| * (2 * u1 - 1) / 2 + z + y - y - x - z =
        c.theta_0 * (Real.pi / 180) / |2 * Real.pi * c.nu| * (2 * u1 - 1) / 2 := by intros; ring
    have e2 : |c.theta_0 * (Real.pi / 180) / |2 * Real.pi * c.nu| * (2 * u1 - 1) / 2| ≤ c.theta_0 * (Real.pi / 180) / |2 * Real.pi * c.nu| / 2 := by
      rw [abs_le]; constructor <;> nlinarith
    refine le_trans (le_of_eq ?_) e2
    congr 1
    split <;> push_cast <;> ring

/-- C258: if only the width of the slits is given they have this width at the middle of the beam -/
theorem C258_width (c : Disk2Par) (d : Disk2) (h : Disk2.new c = .ok d) (hν : c.nu ≠ 0) (hθ : c.theta_0 = 0) (hx : c.xwidth ≠ 0) :
    2 * (c.radius - c.height / 2) * Real.sin (d.theta_0 / 2) = c.xwidth := by
  obtain ⟨θ, -, -, -, -, -, h2, hd⟩ := new2_ok h hν
  obtain ⟨a, ha, hy, rfl⟩ := h2 ⟨hθ, hx⟩
  have hp := Real.pi_pos
  rw [hd]
  simp only
  rw [show 2 * (180 / Real.pi) * a * (Real.pi / 180) / 2 = a by field_simp]
  unfold Powder.asinD at ha
  split at ha
  · cases ha
  · next hn =>
    push Not at hn
    rw [← Option.some.inj ha, Real.sin_arcsin hn.1 hn.2, mul_assoc, mul_div_cancel₀ _ hy]
    ring

/-- a disk chopper of radius 1 with three slits of 36 degrees, 60 times in a second -/
def threeSlits : Disk2Par :=
  { theta_0 := 36, radius := 1, yheight := 0, nu := 60, nslit := 3, jitter := 0, delay := 0, n_pulse := 1, phase := 0, xwidth := 0,
    isFirst := false, absOut := true }

example : ∃ d, Disk2.new threeSlits = .ok d := by
  unfold Disk2.new threeSlits
  norm_num

/-- a neutron at the top of the disk at the time 0 finds an opening -/
example : threeSlits.Opens 36 0 ⟨⟨0, 0, 0⟩, ⟨0, 0, 1⟩, 0, 0, 0, 1⟩ := by
  have ha : threeSlits.angle ⟨⟨0, 0, 0⟩, ⟨0, 0, 1⟩, 0, 0, 0, 1⟩ = 0 := by
    unfold Disk2Par.angle Disk2Par.above Disk2Par.height threeSlits
    norm_num
    exact Complex.arg_eq_zero_iff.2 ⟨by norm_num, rfl⟩
  refine ⟨⟨?_, fun _ => ?_⟩, 0, ?_⟩
  · norm_num [Disk2Par.height, Disk2Par.above, threeSlits]
  · norm_num [Disk2Par.height, Disk2Par.above, threeSlits]
  · rw [ha]
    simp [Disk2Par.late, threeSlits]
    positivity

/-- and between two slits it does not -/
example : ¬ threeSlits.Opens 36 0 ⟨⟨0, 0, 0⟩, ⟨0, 0, 1⟩, 0, 0, 1 / 360, 1⟩ := by
  have ha : threeSlits.angle ⟨⟨0, 0, 0⟩, ⟨0, 0, 1⟩, 0, 0, 1 / 360, 1⟩ = 0 := by
    unfold Disk2Par.angle Disk2Par.above Disk2Par.height threeSlits
    norm_num
    exact Complex.arg_eq_zero_iff.2 ⟨by norm_num, rfl⟩
  rintro ⟨-, k, hk⟩
  rw [ha] at hk
  simp only [threeSlits, Disk2Par.late, ne_eq, not_true_eq_false, if_false, sub_zero, zero_sub, abs_neg] at hk
  have hp := Real.pi_pos
  have e : 2 * Real.pi * 60 * (1 / 360) + (k : ℝ) * (2 * Real.pi / 3) = (Real.pi / 3) * (1 + 2 * k) := by ring
  rw [e, abs_mul, abs_of_pos (by positivity)] at hk
  have h1 : (1 : ℝ) ≤ |1 + 2 * (k : ℝ)| := by
    have : (1 : ℤ) ≤ |1 + 2 * k| := Int.one_le_abs (by omega)
    exact_mod_cast this
  nlinarith

example : ∃ d, Disk2.new { threeSlits with theta_0 := 0, xwidth := 0.5 } = .ok d := by
  have hp := Real.pi_pos
  have h1 : 0 < Real.arcsin (1 / 2) := Real.arcsin_pos.2 (by norm_num)
  have h2 : Real.arcsin (1 / 2) = Real.pi / 6 := by
    rw [show (1 / 2 : ℝ) = Real.sin (Real.pi / 6) by rw [Real.sin_pi_div_six], Real.arcsin_sin] <;> linarith
  unfold Disk2.new threeSlits Powder.asinD
  norm_num [divD, bind, Option.bind]
  norm_num at h2
  rw [h2]
  have h3 : 2 * (180 / Real.pi) * (Real.pi / 6) = 60 := by field_simp; norm_num
  rw [h3]
  norm_num

/-! ### filter -/

/-- C259, partial: a filter stops neutrons outside of its window; in the window the weight is multiplied by, or set to, the value of
the table for the energy, wave vector or wavelength on the straight line between two rows, times the scale and to the power of the
thickness.  Missing: adding (`C259_add_false`); variables outside of the table. -/
theorem C259_partial (f : Filter) (t : McTable.Table) (ht : f.table = some t) (he : Even t) (hk : f.kind ≠ .unknown) (hm : f.mode ≠ .add)
    {G : Gravity} {e a : Event ℝ} (hc : Comes G e a) :
    (¬ f.Window a → filter f G e = some (stopped a)) ∧
    (f.Window a → Covers t (quantity f.kind a.v) → ∃ y, OnLine t (quantity f.kind a.v) y ∧
      (0 ≤ f.scaling * y ∨ f.thickness = 1 →
        filter f G e = some { a with p := weighted f.mode a.p ((f.scaling * y) ^ f.thickness) })) := by
  unfold filter Filter.Window
  simp only [comes_prop hc]
  constructor
  · intro hw
    rw [if_neg, if_pos hk]
    · rfl
    · rintro ⟨-, h1, h2, h3, h4⟩
      exact hw ⟨⟨h1, h2⟩, h3, h4⟩
  · rintro ⟨⟨h1, h2⟩, h3, h4⟩ hX
    rw [if_pos ⟨hk, h1, h2, h3, h4⟩, quantity_eq]
    obtain ⟨y, hy, hfac⟩ := factor_line ht he hX
    refine ⟨y, hy, fun hp => ?_⟩
    have : f.factor (quantity f.kind a.v) = some ((f.scaling * y) ^ f.thickness) := by
      rw [hfac]
      by_cases h1 : f.thickness = 1
      · simp [h1]
      · rw [if_pos h1, if_neg (not_lt.2 (hp.resolve_right h1))]
    rw [this]
    cases hmo : f.mode with
    | add => exact absurd hmo hm
    | set => rfl
    | mult => rfl

/-- a table with the values 1, 3 at 0, 1 -/
def rise : McTable.Table := ⟨2, 2, fun k => if k = 0 then 0 else if k = 1 then 1 else if k = 2 then 1 else 3, 0, 1, 1, true, true, true⟩

theorem rise_even : Even rise := by
  refine ⟨le_rfl, le_rfl, by norm_num [rise], fun i hi => ?_⟩
  have : i = 0 ∨ i = 1 := by simp only [rise] at hi; omega
  rcases this with rfl | rfl <;> norm_num [rise]

example : Covers rise (quantity .wavevector ⟨0, 0, 100⟩) := by
  have : length (⟨0, 0, 100⟩ : V3 ℝ) = 100 := by
    unfold length V3.length2
    rw [show (0:ℝ) * 0 + 0 * 0 + 100 * 100 = 100 ^ 2 by norm_num]
    exact Real.sqrt_sq (by norm_num)
  unfold Covers quantity
  rw [this]
  norm_num [rise, V2K]

/-- a value in the middle of two rows -/
example : OnLine rise 0.5 2 := ⟨0, 1 / 2, by norm_num [rise], by norm_num, by norm_num, by norm_num [rise], by norm_num [rise]⟩

/-- C259: which table and which mode is chosen by the texts of the documentation -/
theorem C259_options (s : Mode × Kind) :
    filterMode "set".toList s = (.set, s.2) ∧ filterMode "multiply".toList s = (.mult, s.2) ∧ filterMode "add".toList s = (.add, s.2) ∧
    filterMode "energy".toList s = (s.1, .energy) ∧ filterMode "wavelength".toList s = (s.1, .wavelength) ∧
    filterMode "[ k p ]".toList s = (s.1, .wavevector) ∧ filterMode "[ omega p]".toList s = (s.1, .energy) ∧
    filterMode "[ lambda p ]".toList s = (s.1, .wavelength) := by
  refine ⟨?_, ?_, ?_, ?_, ?_, ?_, ?_, ?_⟩ <;> rfl

/-- C259 is false: the option to add sets the weight -/
theorem C259_add_false : ∃ (f : Filter) (e r : Event ℝ), f = Filter.new (-1) 1 (-1) 1 1 1 "wavevector add".toList (some ([], rise)) ∧
    f.mode = .add ∧ e.r = ⟨0, 0, 0⟩ ∧ e.p = 5 ∧ filter f Off e = some r ∧ r.p < 5 := by
  have hv : length (⟨0, 0, 100⟩ : V3 ℝ) = 100 := by
    unfold length V3.length2
    rw [show (0:ℝ) * 0 + 0 * 0 + 100 * 100 = 100 ^ 2 by norm_num]
    exact Real.sqrt_sq (by norm_num)
  have hf : Filter.new (-1) 1 (-1) 1 1 1 "wavevector add".toList (some ([], rise)) = ⟨-1, 1, -1, 1, 1, 1, some rise, .add, .wavevector⟩ := by
    unfold Filter.new
    simp only
    rw [if_neg (by norm_num [rise])]
    rfl
  refine ⟨_, ⟨⟨0, 0, 0⟩, ⟨0, 0, 100⟩, 0, 0, 0, 5⟩, ⟨⟨0, 0, 0⟩, ⟨0, 0, 100⟩, 0, 0, 0, 1 + 2 * (V2K * 100)⟩, rfl, by rw [hf], rfl, rfl, ?_, by norm_num [V2K]⟩
  rw [hf]
  unfold filter
  have hp : propZ0 Off ⟨⟨0, 0, 0⟩, ⟨0, 0, 100⟩, 0, 0, 0, 5⟩ = (⟨⟨0, 0, 0⟩, ⟨0, 0, 100⟩, 0, 0, 0, 5⟩ : Event ℝ) := by
    norm_num [propZ0, Off, propZ0Free, propDtFree]
  simp only [hp]
  rw [if_pos ⟨by simp, by norm_num⟩, quantity_eq]
  have hX : Covers rise (quantity .wavevector ⟨0, 0, 100⟩) := by
    unfold Covers quantity
    rw [hv]
    norm_num [rise, V2K]
  obtain ⟨y, ⟨i, s, hi, h0, h1, hx, hy⟩, hfac⟩ :=
    factor_line (f := ⟨-1, 1, -1, 1, 1, 1, some rise, .add, .wavevector⟩) rfl rise_even hX
  simp only at hfac ⊢
  rw [hfac]
  have : i = 0 := by simp only [rise] at hi; omega
  subst this
  unfold quantity at hx
  simp only [hv] at hx
  norm_num [rise] at hx hy
  simp only [ne_eq, not_true_eq_false, if_false, Option.map_some]
  rw [if_neg (by decide), hy, ← hx]
  norm_num
  ring

/-- C259 is false: the word of the documentation for a table with wave vectors, and words in capitals, choose nothing; then the component
lets all neutrons pass -/
theorem C259_words_false : (∀ s, filterMode "wavector".toList s = s) ∧ (∀ s, filterMode "Energy".toList s = s) ∧
    ∀ (f : Filter) (e a : Event ℝ) (G : Gravity), f.kind = .unknown → Comes G e a → filter f G e = some a := by
  refine ⟨fun s => rfl, fun s => rfl, fun f e a G hk hc => ?_⟩
  unfold filter
  simp only [hk, ne_eq, not_true_eq_false, false_and, if_false, comes_prop hc]

/-! ### radial collimator -/

/-- C260, partial: a neutron that flies horizontally from the axis to the angles of a channel (not oscillating) comes out at the outer
radius if the direction points into the opening of the channel, and is stopped otherwise.  Then, if the blades are approximated, the weight
is multiplied by the transmission and a triangle of the half width `divergence` around the middle of the channel; if not, it is stopped by
the blades, or multiplied by the transmission.  Missing: the numbers of the channels (`C260_channels_false`), neutrons outside
(`C260_above_false`, `C260_ideal_false`). -/
theorem C260_partial (d : Radial) (hi : d.ideal = false) (hr : 0 < d.radius) (hl : 0 < d.len) (hw : 0 < d.window) (hroc : d.roc = 0)
    {G : Gravity} (hG : G.on = false) (u : ℝ) (e : Event ℝ) (h : FromAxis e) (h1 : |e.r.y| ≤ d.h1 / 2) (h2 : |e.r.y| ≤ d.h2 / 2)
    (k : ℤ) (hk0 : 0 ≤ k) (hk1 : k < d.nchan) (hθ0 : d.theta_min + k * d.window ≤ direction e)
    (hθ1 : direction e < d.theta_min + (k + 1) * d.window) :
    (¬ d.Into k (direction e) → ∃ s, radial d G u e = some (stopped (flownFar e s))) ∧
    (d.Into k (direction e) →
      (d.divergence = 0 → radial d G u e = some (flownFar e (d.radius + d.len))) ∧
      (0 < d.divergence → d.approx = true → radial d G u e = some (
        if |direction e - d.middle k| ≤ d.divergence then
          { flownFar e (d.radius + d.len) with
            p := e.p * d.transmission * (1 - |direction e - d.middle k| / d.divergence) }
        else stopped (flownFar e (d.radius + d.len)))) ∧
      (0 < d.divergence → d.approx = false → radial d G u e = some (
        if ∃ b : ℤ, (b ≤ (direction e - d.middle k) / d.soller1 * d.nblades ∧ (direction e - d.middle k) / d.soller1 * d.nblades < b + 1) ∧
            b ≤ (direction e - d.middle k) / d.soller2 * d.nblades ∧ (direction e - d.middle k) / d.soller2 * d.nblades < b + 1 then
          { flownFar e (d.radius + d.len) with p := e.p * d.transmission }
        else stopped (flownFar e (d.radius + d.len))))) := by
  have hlen := (axis_speed h).1
  have hk : ⌊(direction e - d.theta_min) / d.window⌋ = k := by
    rw [Int.floor_eq_iff, le_div_iff₀ hw, div_lt_iff₀ hw]
    constructor <;> linarith
  have ht0 : d.radius / length e.v > 0 := by positivity
  have ht1 : (d.radius + d.len) / length e.v > d.radius / length e.v := (div_lt_div_iff_of_pos_right hlen).2 (by linarith)
  have e1 : radial d G u e =
      if |direction e - d.middle k| > d.soller1 / 2 then some (stopped (flownFar e d.radius))
      else if |direction e - d.middle k| > d.soller2 / 2 ∨ |e.r.y| > d.h2 / 2 then some (stopped (flownFar e (d.radius + d.len)))
      else some (d.weigh (d.middle k) ⌊(direction e - d.middle k) / d.soller1 * d.nblades⌋
        ⌊(direction e - d.middle k) / d.soller2 * d.nblades⌋ (flownFar e (d.radius + d.len))) := by
    unfold radial
    rw [later_axis h hr, if_pos h1, later_axis h (by linarith), if_pos h2]
    simp only
    rw [if_pos ⟨ht0, ht1⟩, far_first hG h hr, hi]
    simp only [Bool.false_eq_true, if_false, hroc, ne_eq, not_true_eq_false, direction_far h hr, add_zero, hk, far_next hG h
      (show d.radius < d.radius + d.len by linarith), direction_far h (show 0 < d.radius + d.len by linarith), far_y h, middle_eq]
    rw [if_pos ⟨hk0, hk1, h1⟩]
    rfl
  rw [e1]
  unfold Radial.Into
  constructor
  · intro hn
    by_cases q : |direction e - d.middle k| > d.soller1 / 2
    · exact ⟨_, if_pos q⟩
    · refine ⟨d.radius + d.len, ?_⟩
      rw [if_neg q, if_pos]
      left
      by_contra q'
      exact hn ⟨not_lt.1 q, not_lt.1 q'⟩
  · rintro ⟨q1, q2⟩
    rw [if_neg (not_lt.2 q1), if_neg (by rintro (q | q) <;> linarith)]
    unfold Radial.weigh
    refine ⟨fun h0 => ?_, fun h0 ha => ?_, fun h0 ha => ?_⟩
    · rw [if_neg (by simpa using h0)]
    · rw [if_pos h0.ne', if_pos ha]
      have : Frames.arctan2 (flownFar e (d.radius + d.len)).v.x (flownFar e (d.radius + d.len)).v.z = direction e := by
        rw [far_v]; rfl
      rw [this]
      by_cases q : |direction e - d.middle k| ≤ d.divergence
      · simp only [if_neg (not_lt.2 q), if_pos q]
        congr 2
        show e.p * _ = _
        ring
      · simp only [if_pos (not_le.1 q), if_neg q]
        rfl
    · rw [if_pos h0.ne', if_neg (by simp [ha])]
      by_cases q : ⌊(direction e - d.middle k) / d.soller1 * d.nblades⌋ = ⌊(direction e - d.middle k) / d.soller2 * d.nblades⌋
      · rw [if_neg (by simpa using q), if_pos]
        · rfl
        · refine ⟨_, ⟨Int.floor_le _, Int.lt_floor_add_one _⟩, ?_, ?_⟩
          · rw [q]; exact Int.floor_le _
          · rw [q]; exact Int.lt_floor_add_one _
      · rw [if_pos q, if_neg]
        · rfl
        · rintro ⟨b, hb, hb'⟩
          exact q ((Int.floor_eq_iff.2 hb).trans (Int.floor_eq_iff.2 hb').symm)

/-- C260: neutrons to angles without channels are not changed; they are only moved to the inner radius -/
theorem C260_aside (d : Radial) (hi : d.ideal = false) (hr : 0 < d.radius) (hl : 0 < d.len) (hw : 0 < d.window) (hroc : d.roc = 0)
    {G : Gravity} (hG : G.on = false) (u : ℝ) (e : Event ℝ) (h : FromAxis e) (h1 : |e.r.y| ≤ d.h1 / 2) (h2 : |e.r.y| ≤ d.h2 / 2)
    (hN : ∃ n : ℕ, d.nchan = n)
    (hθ : direction e < d.theta_min ∨ d.theta_min + d.nchan * d.window ≤ direction e) :
    radial d G u e = some (flownFar e d.radius) := by
  have hlen := (axis_speed h).1
  have ht0 : d.radius / length e.v > 0 := by positivity
  have ht1 : (d.radius + d.len) / length e.v > d.radius / length e.v := (div_lt_div_iff_of_pos_right hlen).2 (by linarith)
  obtain ⟨n, hn⟩ := hN
  unfold radial
  rw [later_axis h hr, if_pos h1, later_axis h (by linarith), if_pos h2]
  simp only
  rw [if_pos ⟨ht0, ht1⟩, far_first hG h hr, hi]
  simp only [Bool.false_eq_true, if_false, hroc, ne_eq, not_true_eq_false, direction_far h hr, add_zero]
  rw [if_neg]
  rintro ⟨q0, q1, -⟩
  rcases hθ with hθ | hθ
  · have : (direction e - d.theta_min) / d.window < 0 := div_neg_of_neg_of_pos (by linarith) hw
    have := Int.floor_nonneg.1 q0
    linarith
  · have h3 : (n : ℝ) ≤ (direction e - d.theta_min) / d.window := by
      rw [le_div_iff₀ hw, ← hn]; linarith
    have h4 : (n : ℤ) ≤ ⌊(direction e - d.theta_min) / d.window⌋ := Int.le_floor.2 (by exact_mod_cast h3)
    rw [hn] at q1
    have : (⌊(direction e - d.theta_min) / d.window⌋ : ℝ) < (n : ℝ) := q1
    have : ⌊(direction e - d.theta_min) / d.window⌋ < (n : ℤ) := by exact_mod_cast this
    omega

/-- a neutron from the axis along `x` at the height `y` -/
def sideways (y : ℝ) : Event ℝ := ⟨⟨0, y, 0⟩, ⟨1, 0, 0⟩, 0, 0, 0, 1⟩

theorem sideways_axis (y : ℝ) : FromAxis (sideways y) := by
  refine ⟨rfl, rfl, rfl, fun h => ?_⟩
  have := congrArg V3.x h
  simp [sideways] at this

theorem sideways_direction (y : ℝ) : direction (sideways y) = Real.pi / 2 := by
  unfold direction sideways
  exact Complex.arg_I

/-- two channels of a quarter of a circle with openings of half the width, at the radius 1 -/
noncomputable def twoChannels : RadialPar := ⟨1, 2, 2, 2, 1, 2700, 1, 0, 180, 2, 1, 0, 0⟩

theorem half_angle {a : ℝ} (ha : 0 < a) : Frames.arctan2 |a| a = Real.pi / 4 := by
  unfold Frames.arctan2
  rw [abs_of_pos ha]
  refine arg_unique (ρ := a * √2) (by positivity) ?_ ?_ (by linarith [Real.pi_pos]) (by linarith [Real.pi_pos])
  · rw [Real.cos_pi_div_four]
    nlinarith [Real.mul_self_sqrt (show (0:ℝ) ≤ 2 by norm_num)]
  · rw [Real.sin_pi_div_four]
    nlinarith [Real.mul_self_sqrt (show (0:ℝ) ≤ 2 by norm_num)]

/-- what becomes of it: the openings of half a quarter stay, but there are four channels -/
theorem twoChannels_new : ∃ d, Radial.new twoChannels = .ok d ∧ d.nchan = 4 ∧ d.window = Real.pi / 4 ∧ d.soller1 = Real.pi / 4 ∧
    d.soller2 = Real.pi / 4 ∧ d.theta_min = 0 ∧ d.ideal = false ∧ d.radius = 1 ∧ d.len = 1 ∧ d.roc = 0 ∧ d.h1 = 2 ∧ d.h2 = 2 ∧
    d.divergence = Real.pi / 4 ∧ d.approx = true ∧ d.transmission = 1 := by
  have hp := Real.pi_pos
  have a1 := half_angle (a := 1) one_pos
  have a2 := half_angle (a := 2) two_pos
  have e2 : (1 : ℝ) + 1 = 2 := by norm_num
  unfold Radial.new twoChannels
  simp only [e2, a1, a2]
  rw [if_neg (by norm_num), if_neg (by norm_num), if_neg (by norm_num), if_neg (by norm_num)]
  have c2 : (⌈(2:ℝ)⌉ : ℝ) = 2 := by exact_mod_cast Int.ceil_ofNat (R := ℝ) 2
  have hw : |180 * (Real.pi / 180) - 0 * (Real.pi / 180)| = Real.pi := by
    rw [zero_mul, sub_zero, show 180 * (Real.pi / 180) = Real.pi by ring, abs_of_pos hp]
  rw [c2, hw, if_neg (by rintro (h | h) <;> linarith)]
  refine ⟨_, rfl, ?_⟩
  unfold RadialPar.blades
  simp only
  rw [if_pos (by norm_num)]
  have hd : 2700 * (Real.pi / 10800) = Real.pi / 4 := by ring
  simp only [hd, hw]
  have hc : Real.pi / (Real.pi / 4) = (4 : ℝ) := by field_simp
  rw [hc]
  refine ⟨by exact_mod_cast Int.ceil_ofNat (R := ℝ) 4, trivial, trivial, trivial, by ring, trivial, trivial, trivial, trivial, trivial, trivial,
    trivial, trivial, trivial⟩

/-- the hypotheses of `C260_partial` are met: a neutron into the edge of the third channel of the above -/
example : ∃ d, Radial.new twoChannels = .ok d ∧ 0 < d.window ∧ FromAxis (sideways 0) ∧ (2 : ℤ) < d.nchan ∧
    d.theta_min + (2 : ℤ) * d.window ≤ direction (sideways 0) ∧ direction (sideways 0) < d.theta_min + ((2 : ℤ) + 1) * d.window ∧
    d.Into 2 (direction (sideways 0)) := by
  have hp := Real.pi_pos
  obtain ⟨d, hd, n, w, s1, s2, t, -⟩ := twoChannels_new
  refine ⟨d, hd, by rw [w]; positivity, sideways_axis _, by rw [n]; norm_num, ?_, ?_, ?_⟩
  · rw [sideways_direction, t, w]; push_cast; linarith
  · rw [sideways_direction, t, w]; push_cast; linarith
  · unfold Radial.Into Radial.middle
    rw [sideways_direction, t, w, s1, s2]
    push_cast
    rw [show Real.pi / 2 - (0 + (2 + 1 / 2) * (Real.pi / 4)) = -(Real.pi / 8) by ring, abs_neg, abs_of_pos (by positivity)]
    constructor <;> linarith

/-- C260 is false: the number of channels is not used with a divergence, and the channels made instead do not fit: a neutron along the
direction between the two channels, far from their openings, passes -/
theorem C260_channels_false : ∃ (d : Radial) (r : Event ℝ), Radial.new twoChannels = .ok d ∧
    (∀ k : ℤ, |direction (sideways 0) - (twoChannels.theta_min + (k + 1 / 2) * (180 / twoChannels.nchan)) * (Real.pi / 180)| >
      Real.arctan (twoChannels.w1 / twoChannels.radius) / 2) ∧
    radial d Off 0 (sideways 0) = some r ∧ r.p = 1 / 2 := by
  have hp := Real.pi_pos
  obtain ⟨d, hd, n, w, s1, s2, t, hi, hr, hl, hroc, h1, h2, hdiv, hap, htr⟩ := twoChannels_new
  have hm : direction (sideways 0) - d.middle 2 = -(Real.pi / 8) := by
    unfold Radial.middle
    rw [sideways_direction, t, w]
    push_cast
    ring
  have habs : |direction (sideways 0) - d.middle 2| = Real.pi / 8 := by rw [hm, abs_neg, abs_of_pos (by positivity)]
  have key := (C260_partial d hi (by rw [hr]; norm_num) (by rw [hl]; norm_num) (by rw [w]; positivity) hroc (G := Off) rfl 0 (sideways 0)
    (sideways_axis 0) (by rw [h1]; norm_num [sideways]) (by rw [h2]; norm_num [sideways]) 2 (by norm_num) (by rw [n]; norm_num)
    (by rw [sideways_direction, t, w]; push_cast; linarith) (by rw [sideways_direction, t, w]; push_cast; linarith)).2
    (by unfold Radial.Into; rw [habs, s1, s2]; constructor <;> linarith)
  have key := key.2.1 (by rw [hdiv]; positivity) hap
  rw [habs, if_pos (by rw [hdiv]; linarith)] at key
  refine ⟨d, _, hd, fun k => ?_, key, ?_⟩
  · rw [sideways_direction]
    have e1 : Real.pi / 2 - (twoChannels.theta_min + (k + 1 / 2) * (180 / twoChannels.nchan)) * (Real.pi / 180) = Real.pi / 4 * (1 - 2 * k) := by
      simp only [twoChannels]; ring
    have e2 : twoChannels.w1 / twoChannels.radius = 1 := by norm_num [twoChannels]
    rw [e1, e2, Real.arctan_one, abs_mul, abs_of_pos (by positivity : 0 < Real.pi / 4)]
    have h1 : (1 : ℝ) ≤ |1 - 2 * (k : ℝ)| := by
      have : (1 : ℤ) ≤ |1 - 2 * k| := Int.one_le_abs (by omega)
      exact_mod_cast this
    nlinarith
  · simp only [htr, hdiv, sideways]
    field_simp
    norm_num

/-- C260 is false: a neutron that flies above the collimator, which is to be transmitted, is absorbed -/
theorem C260_above_false : ¬ ∀ (c : RadialPar) (d : Radial) (e : Event ℝ) (u : ℝ), Radial.new c = .ok d → FromAxis e → d.h1 / 2 < |e.r.y| →
    d.h2 / 2 < |e.r.y| → 0 < e.p → ∃ r, radial d Off u e = some r ∧ r.p = e.p := by
  intro h
  obtain ⟨d, hd, n, w, s1, s2, t, hi, hr, hl, hroc, h1, h2, -⟩ := twoChannels_new
  obtain ⟨r, hr', hp⟩ := h twoChannels d (sideways 3) 0 hd (sideways_axis 3) (by rw [h1]; norm_num [sideways]) (by rw [h2]; norm_num [sideways])
    (by norm_num [sideways])
  unfold radial at hr'
  rw [later_axis (sideways_axis 3) (by rw [hr]; norm_num), if_neg (by rw [h1]; norm_num [sideways])] at hr'
  cases hr'
  norm_num [sideways, absorb] at hp

/-- C260 is false: a collimator without widths does not check the angular range; it weights a neutron far from its angles -/
theorem C260_ideal_false : ∃ (c : RadialPar) (d : Radial) (r : Event ℝ), c.theta_min = 0 ∧ c.theta_max = 45 ∧ c.transmission = 1 / 2 ∧
    Radial.new c = .ok d ∧ direction (sideways 0) = Real.pi / 2 ∧ radial d Off 0 (sideways 0) = some r ∧ r.p = 1 / 2 := by
  have hp := Real.pi_pos
  refine ⟨⟨0, 2, 0, 2, 1, 60, 1 / 2, 0, 45, 1, 1, 0, 0⟩, ?_⟩
  have hd : ∃ d, Radial.new ⟨0, 2, 0, 2, 1, 60, 1 / 2, 0, 45, 1, 1, 0, 0⟩ = .ok d ∧ d.ideal = true ∧ d.radius = 1 ∧ d.len = 1 ∧ d.h1 = 2 ∧
      d.h2 = 2 ∧ d.divergence = 60 * (Real.pi / 10800) ∧ d.approx = true ∧ d.transmission = 1 / 2 := by
    unfold Radial.new
    simp only
    rw [if_neg (by norm_num), if_neg (by norm_num), if_neg (by norm_num), if_pos (by norm_num)]
    refine ⟨_, rfl, ?_⟩
    unfold RadialPar.blades
    simp only
    rw [if_pos (by norm_num)]
    exact ⟨rfl, rfl, rfl, rfl, rfl, rfl, rfl, rfl⟩
  obtain ⟨d, hd, hi, hr, hl, h1, h2, hdiv, hap, htr⟩ := hd
  have h := sideways_axis 0
  have hlen := (axis_speed h).1
  have hr0 : 0 < d.radius := by rw [hr]; norm_num
  have hl0 : 0 < d.len := by rw [hl]; norm_num
  have ht0 : d.radius / length (sideways 0).v > 0 := by positivity
  have ht1 : (d.radius + d.len) / length (sideways 0).v > d.radius / length (sideways 0).v := (div_lt_div_iff_of_pos_right hlen).2 (by linarith)
  have hy : |(sideways 0).r.y| = 0 := by simp [sideways]
  have hdiv0 : d.divergence ≠ 0 := by rw [hdiv]; positivity
  have e1 : radial d Off 0 (sideways 0) = some { flownFar (sideways 0) (d.radius + d.len) with p := 1 / 2 } := by
    unfold radial
    rw [later_axis h hr0, if_pos (by rw [hy, h1]; norm_num), later_axis h (by linarith), if_pos (by rw [hy, h2]; norm_num)]
    simp only
    rw [if_pos ⟨ht0, ht1⟩, far_first (G := Off) rfl h hr0, hi]
    simp only [if_true, direction_far h hr0, far_next (G := Off) rfl h (show d.radius < d.radius + d.len by linarith), far_y h, hy]
    rw [if_pos (by rw [h1]; norm_num), if_neg (by rw [h2]; norm_num)]
    unfold Radial.weigh
    rw [if_pos hdiv0, if_pos hap, far_v]
    have : Frames.arctan2 (sideways 0).v.x (sideways 0).v.z = direction (sideways 0) := rfl
    rw [this, sub_self, abs_zero]
    simp only
    rw [if_neg (by rw [hdiv]; have : 0 < 60 * (Real.pi / 10800) := by positivity
                   linarith), htr]
    congr 2
    simp [flownFar, flown, sideways]
  exact ⟨d, _, rfl, rfl, rfl, hd, sideways_direction 0, e1, rfl⟩

/-! ### guide with channels -/

/-- C261, partial: a neutron that comes to the entrance of a guide with channels (without gravity) is stopped if it is not in the opening
or hits a wall between the channels; in a channel it flies straight from reflection to reflection at the walls of this channel, each of which
multiplies its weight by the reflectivity of this wall; and leaves the channel or is stopped.  Missing: that the trace ends. -/
theorem C261_partial (c : Chan) (hc : c.check = .ok ()) (hl : 0 < c.l) (hd : 0 < c.d) (hw : 0 < c.w1) (G : Gravity) (hG : G.on = false) (e a : Event ℝ)
    (h : Comes G e a) (fuel : Nat) (r : Event ℝ) (hr : channeled c G fuel e = some r) :
    (¬ (|a.r.x| < c.w1 / 2 ∧ |a.r.y| < c.h1 / 2 ∧ ∃ n : ℤ, c.In n a.r.x) → r = stopped a) ∧
    (|a.r.x| < c.w1 / 2 ∧ |a.r.y| < c.h1 / 2 → ∀ n : ℤ, c.In n a.r.x → ∃ b, Relation.ReflTransGen (c.Step n) a b ∧ c.Ends n b r) := by
  have haz : a.r.z = 0 := by
    obtain ⟨⟨s, hs, rfl⟩, -⟩ := h
    exact hs.2.1
  have hk : 0 < c.k := by
    unfold Chan.check at hc
    by_contra hn
    rw [if_pos (.inl (not_lt.1 hn))] at hc
    cases hc
  have hp : 0 < c.w1c := by unfold Chan.w1c; positivity
  unfold channeled at hr
  rw [comes_prop h] at hr
  simp only at hr
  have hiff : (a.r.x ≤ c.w1 / -2 ∨ a.r.x ≥ c.w1 / 2 ∨ a.r.y ≤ -(0.5 * c.h1) ∨ a.r.y ≥ 0.5 * c.h1) ↔
      ¬ (|a.r.x| < c.w1 / 2 ∧ |a.r.y| < c.h1 / 2) := by
    rw [abs_lt, abs_lt, div_neg]
    constructor
    · rintro (h | h | h | h) ⟨⟨_, _⟩, _, _⟩ <;> linarith
    · intro h
      by_contra hn
      push Not at hn
      exact h ⟨⟨by linarith [hn.1], by linarith [hn.2.1]⟩, by linarith [hn.2.2.1], by linarith [hn.2.2.2]⟩
  by_cases hin : |a.r.x| < c.w1 / 2 ∧ |a.r.y| < c.h1 / 2
  swap
  · rw [if_pos (hiff.2 hin)] at hr
    exact ⟨fun _ => (Option.some.inj hr).symm, fun h => absurd h hin⟩
  rw [if_neg fun h => hiff.1 h hin] at hr
  have hleft : ∀ n : ℤ, c.left n = -c.w1 / 2 + n * c.w1c := fun n => rfl
  have hwide : c.wide = c.w1c - c.d := rfl
  have hfl := Int.floor_le ((a.r.x + c.w1 / 2) / c.w1c)
  have hfu := Int.lt_floor_add_one ((a.r.x + c.w1 / 2) / c.w1c)
  rw [le_div_iff₀ hp] at hfl
  rw [div_lt_iff₀ hp] at hfu
  have huniq : ∀ n : ℤ, c.In n a.r.x → ⌊(a.r.x + c.w1 / 2) / c.w1c⌋ = n := by
    rintro n ⟨q1, q2⟩
    rw [hleft] at q1 q2
    rw [hwide] at q2
    rw [Int.floor_eq_iff, le_div_iff₀ hp, div_lt_iff₀ hp]
    constructor <;> linarith
  constructor
  · intro hn
    rw [if_pos] at hr
    · exact (Option.some.inj hr).symm
    · by_contra q
      refine hn ⟨hin.1, hin.2, ⌊(a.r.x + c.w1 / 2) / c.w1c⌋, ?_, ?_⟩
      · rw [hleft]; linarith
      · rw [hleft, hwide]; linarith
  · rintro - n hn
    rw [huniq n hn] at hr
    obtain ⟨q1, q2⟩ := hn
    rw [hleft] at q1 q2
    rw [hwide] at q2
    rw [if_neg (by linarith)] at hr
    have hmid : (n : ℝ) * c.w1c + (c.w1c - c.d) / 2 - c.w1 / 2 = c.mid n := by
      unfold Chan.mid; rw [hleft, hwide]; ring
    rw [hmid, shift_seen] at hr
    obtain ⟨r', hr', rfl⟩ := Option.map_eq_some_iff.1 hr
    have hI : c.tube.Inside (c.seen n a).r := by
      unfold Guide.Inside Guide.halfW Guide.halfH Chan.tube Chan.seen
      simp only [haz, zero_div, mul_zero, add_zero]
      refine ⟨?_, hin.2.le⟩
      rw [← hmid, hwide, abs_le]
      constructor <;> linarith
    obtain ⟨b, hb, hb'⟩ := chan_sound hG hl fuel (c.seen n a) r' hI (by show a.r.z < c.l; rw [haz]; exact hl) hr'
    refine ⟨shift (c.mid n) b, ?_, ?_⟩
    · have := hb.lift (shift (c.mid n)) (p := c.Step n) fun x y hxy => by
        show c.Step0 (c.seen n (shift (c.mid n) x)) (c.seen n (shift (c.mid n) y))
        rw [seen_shift, seen_shift]
        exact hxy
      have this : Relation.ReflTransGen (c.Step n) (shift (c.mid n) (c.seen n a)) (shift (c.mid n) b) := this
      rwa [shift_back] at this
    · unfold Chan.Ends
      rw [seen_shift, seen_shift]
      exact hb'

/-- two channels of the width 1 with a wall of 1/2 between them; a neutron in the left one, and the wall -/
example : (⟨2.5, 1, 2.5, 1, 1, 0.99, 0.021, 0.021, 6.07, 6.07, 0.003, 2, 0.5, 1, 1⟩ : Chan).check = .ok () ∧
    (⟨2.5, 1, 2.5, 1, 1, 0.99, 0.021, 0.021, 6.07, 6.07, 0.003, 2, 0.5, 1, 1⟩ : Chan).In 0 (-1) ∧
    ¬ ∃ n : ℤ, (⟨2.5, 1, 2.5, 1, 1, 0.99, 0.021, 0.021, 6.07, 6.07, 0.003, 2, 0.5, 1, 1⟩ : Chan).In n 0 := by
  refine ⟨?_, ?_, ?_⟩
  · unfold Chan.check
    norm_num
  · norm_num [Chan.In, Chan.left, Chan.wide]
  · rintro ⟨n, h1, h2⟩
    norm_num [Chan.left, Chan.wide] at h1 h2
    have a1 : (n : ℝ) < 1 := by linarith
    have a2 : (0 : ℝ) < n := by linarith
    have a1 : n < 1 := by exact_mod_cast a1
    have a2 : 0 < n := by exact_mod_cast a2
    omega

end Verif.McOptB
