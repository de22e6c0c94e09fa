import Verif.Lemmas.McSample
/-!
Properties of the samples of McStas.
-/

namespace Verif.McSample
open McStas Kinem Solid McGuide McConst Homog
noncomputable section
open Classical

/-- C196, partial: a neutron that V_sample scatters is scattered in the sample, at a point where it has flown the fraction `ud` of its way in the
material (`ud` uniform: a point taken evenly from the way, not in the hole), it gets the direction chosen for the target, the speed stays the
same (but for the quasi-elastic part), and its weight is the one of single scattering: probability to get there, density of scattering, solid
angle, ratio of the speeds, absorption on the way out, each with the true length of the way in the material.  Missing: gravity, flights
through an edge or along the axis, a point on the surface of the hole. -/
theorem C196_scatter_partial {c : VPar} {s : VVars} (hi : c.init = .ok s) (hc : c.Valid) {e : Event ℝ} (hg : c.Clear e.r e.v) {τ : ℝ}
    (hhit : c.Outer (e.r + τ • e.v)) (hb : ∀ τ : ℝ, τ < 0 → ¬ c.Outer (e.r + τ • e.v)) {ub ud : ℝ} (hu : 0 ≤ ub) (u0 : 0 ≤ ud) (u1' : ud ≤ 1)
    (hf : c.frac ≥ 1 ∨ ub < c.frac) :
    ∃ T : ℝ, 0 ≤ T ∧ c.Outer (e.r + T • e.v) ∧ way c.Material e.r e.v (Set.Icc 0 T) = ud * way c.Material e.r e.v (Set.Ici 0) ∧
      ∀ u1 u2 uq ue d Ω vf, c.direction s (s.aim (e.r + T • e.v)) u1 u2 = .ok (d, Ω) → Ω ≠ 0 → c.speed (length e.v) uq ue = some vf → 0 < vf →
        c.Clear (e.r + T • e.v) (vf • norm d) → ¬ c.Hole (e.r + T • e.v) →
        ∃ e' : Event ℝ, c.trace s Off e ub ud u1 u2 uq ue = .ok e' ∧ e'.r = e.r + T • e.v ∧ e'.t = e.t + T ∧ e'.s1 = e.s1 ∧
          e'.s2 = e.s2 ∧ e'.v = vf • norm d ∧ (c.f_QE ≤ uq → length e'.v = length e.v) ∧ e'.p = c.single e e' T Ω / c.frac := by
  obtain ⟨t0, t1, t2, t3, h0, h1, h2, h3, ho, hh, hh', htr⟩ := VPar.trace_hit hi hc hg hhit hb
  have hfr : c.frac ≠ 0 := by rcases hf with h | h <;> linarith
  obtain ⟨T, hT, hTo, -, hTw, hsc⟩ := VPar.scatter_eq hi hc hfr hg h0 h1 h2 h3 ho hh hh' u0 u1'
  refine ⟨T, hT, hTo, hTw, fun u1 u2 uq ue d Ω vf hd hΩ hvf hvf0 hcl hnh => ?_⟩
  obtain ⟨e', L, a1, a2, a3, a4, a5, a6, a7, a8⟩ := hsc u1 u2 uq ue d Ω vf hd hΩ hvf hvf0 hcl
  refine ⟨e', ?_, a2, a3, a4, a5, a6, fun hq => ?_, ?_⟩
  · rw [htr, if_pos hf, a1]
  · unfold VPar.speed at hvf
    rw [if_neg (not_lt.2 hq)] at hvf
    rw [a6, length_dir hvf0.le hcl.1]
    exact (Option.some.inj hvf).symm
  · rw [a7, a8 hnh]; rfl

/-- C196, partial: a neutron that does not meet V_sample is left alone; one that is not scattered keeps its way and loses what is absorbed or
scattered.  Missing as before. -/
theorem C196_transmit_partial {c : VPar} {s : VVars} (hi : c.init = .ok s) (hc : c.Valid) {e : Event ℝ} (hg : c.Clear e.r e.v)
    (ub ud u1 u2 uq ue : ℝ) :
    ((∀ τ : ℝ, ¬ c.Outer (e.r + τ • e.v)) → c.trace s Off e ub ud u1 u2 uq ue = .ok e) ∧
    ((∃ τ : ℝ, c.Outer (e.r + τ • e.v)) → (∀ τ : ℝ, τ < 0 → ¬ c.Outer (e.r + τ • e.v)) → c.frac < 1 → c.frac ≤ ub →
      c.trace s Off e ub ud u1 u2 uq ue =
        .ok { e with p := e.p * Real.exp (-(c.muS + c.muA (length e.v)) * way c.Material e.r e.v (Set.Ici 0)) / (1 - c.frac) }) := by
  refine ⟨fun h => ?_, fun ⟨τ, h⟩ hb hf hu => ?_⟩
  · rcases c.outer_spec (VPar.init_ok hi).1 hc hg with ⟨h1, -⟩ | ⟨t0, t3, -, h03, ho⟩
    · unfold VPar.trace; rw [h1]; rfl
    · exact absurd ((ho t0).2 ⟨le_rfl, h03⟩) (h t0)
  · obtain ⟨t0, t1, t2, t3, -, -, -, -, -, -, -, htr⟩ := VPar.trace_hit hi hc hg h hb
    rw [htr, if_neg (by push Not; exact ⟨hf, hu⟩), num_divD (by linarith), add_comm (c.muA _)]
    rfl

-- the hypotheses are met by a neutron that flies into a hollow cylinder
example : (ex (1 / 2) (1 / 2)).init = .ok exv ∧ (ex (1 / 2) (1 / 2)).Valid ∧ (ex (1 / 2) (1 / 2)).Clear exe.r exe.v ∧
    (ex (1 / 2) (1 / 2)).Outer (exe.r + (1 : ℝ) • exe.v) ∧ (∀ τ : ℝ, τ < 0 → ¬ (ex (1 / 2) (1 / 2)).Outer (exe.r + τ • exe.v)) ∧
    (1 / 4 < (ex (1 / 2) (1 / 2)).frac) ∧ (ex (1 / 2) (1 / 2)).speed (length exe.v) 0 0 = some (length exe.v) := by
  refine ⟨ex_init _ _, ex_valid (by norm_num) (by norm_num), ex_clear _ _, (ex_outer _ _ _).2 (by norm_num), fun τ h h' => ?_, by norm_num [ex], ?_⟩
  · have := (ex_outer _ _ _).1 h'
    nlinarith
  · unfold VPar.speed
    rw [if_neg (by norm_num [ex])]

/-- C196 is false for neutrons that have the sample behind them: they will never meet it, but are absorbed -/
theorem C196_behind_false : ∃ (c : VPar) (s : VVars) (e : Event ℝ), c.init = .ok s ∧ c.Valid ∧ c.Clear e.r e.v ∧
    (∀ τ : ℝ, 0 ≤ τ → ¬ c.Outer (e.r + τ • e.v)) ∧ 0 < e.p ∧
    ∀ ub ud u1 u2 uq ue, c.trace s Off e ub ud u1 u2 uq ue = .ok { e with p := -1 } := by
  have hcl : (ex 0 1).Clear ⟨0, 0, 2⟩ ⟨0, 0, 1⟩ :=
    ⟨fun h => by have := congrArg V3.z h; norm_num at this, fun h => absurd h (ex_rect _ _), fun _ => .inr (by norm_num)⟩
  have ho : ∀ τ : ℝ, (ex 0 1).Outer (⟨0, 0, 2⟩ + τ • ⟨0, 0, 1⟩) ↔ (2 + τ) ^ 2 ≤ 1 := by
    intro τ
    unfold VPar.Outer
    rw [if_neg (ex_rect _ _)]
    simp only [ex, V3.add_x, V3.add_y, V3.add_z, V3.smul_x, V3.smul_y, V3.smul_z]
    norm_num
  refine ⟨ex 0 1, exv, ⟨⟨0, 0, 2⟩, ⟨0, 0, 1⟩, 0, 0, 0, 1⟩, ex_init _ _, ex_valid le_rfl zero_le_one, hcl, fun τ h h' => ?_, by norm_num,
    fun ub ud u1 u2 uq ue => ?_⟩
  · have := (ho τ).1 h'
    nlinarith
  · rcases (ex 0 1).outer_spec (VPar.init_ok (ex_init 0 1)).1 (ex_valid le_rfl zero_le_one) hcl with ⟨-, h⟩ | ⟨t0, t3, h, h03, h'⟩
    · exact absurd ((ho (-2)).2 (by norm_num)) (h (-2))
    · have : t0 < 0 := by
        have := ((h' (-2)).1 ((ho (-2)).2 (by norm_num))).1
        linarith
      unfold VPar.trace
      simp only
      rw [h]
      show (if t0 < 0 then _ else _) = _
      rw [if_pos this]
      rfl

/-- C197, partial: without absorption and with `frac` between 0 and 1, the neutrons scattered into the whole sphere and the transmitted ones
carry together, in the mean over the place of scattering and over the choice between the two, exactly the weight of the neutron.  For every
direction `d` out.  Missing: gravity, edges (finitely many points of the way), absorption and quasi-elastic scattering. -/
theorem C197_balance_partial {c : VPar} {s : VVars} (hi : c.init = .ok s) (hc : c.Valid) (hf0 : 0 < c.frac) (hf1 : c.frac < 1) {e : Event ℝ}
    (hg : c.Clear e.r e.v) (ha : c.sig_a = 0) (hq : c.f_QE ≤ 0) {τ : ℝ} (hhit : c.Outer (e.r + τ • e.v))
    (hb : ∀ τ : ℝ, τ < 0 → ¬ c.Outer (e.r + τ • e.v)) {u1 u2 : ℝ} {d : V3 ℝ}
    (hd : ∀ q, c.Outer q → c.direction s (s.aim q) u1 u2 = .ok (d, 4 * Real.pi))
    (hout : {τ : ℝ | c.Outer (e.r + τ • e.v) ∧ ¬ c.Clear (e.r + τ • e.v) (length e.v • norm d)}.Finite) {uq ue : ℝ} (huq : 0 ≤ uq) :
    mean (fun ub => mean (fun ud => weight (c.trace s Off e ub ud u1 u2 uq ue))) = e.p := by
  obtain ⟨t0, t1, t2, t3, h0, h1, h2, h3, ho, hh, hh', htr⟩ := VPar.trace_hit hi hc hg hhit hb
  have hm := VPar.mean_scatter hi hc hf0.ne' hg ha hq h0 h1 h2 h3 ho hh hh' hd hout (uq := uq) (ue := ue) huq
  have hmu : c.muA (length e.v) = 0 := by unfold VPar.muA; rw [ha]; ring
  rw [mean_two hf0.le hf1.le (e.p * (1 - Real.exp (-c.muS * way c.Material e.r e.v (Set.Ici 0))) / c.frac)
    (e.p * Real.exp (-c.muS * way c.Material e.r e.v (Set.Ici 0)) / (1 - c.frac))]
  · have : 1 - c.frac ≠ 0 := by linarith
    field_simp
    ring
  · intro ub _ g
    rw [← hm]
    apply mean_congr
    intro ud _ _
    rw [htr, if_pos (.inr g)]
  · intro ub g _
    rw [← mean_const (e.p * Real.exp (-c.muS * way c.Material e.r e.v (Set.Ici 0)) / (1 - c.frac))]
    apply mean_congr
    intro ud _ _
    rw [htr, if_neg (by push Not; exact ⟨hf1, g.le⟩), num_divD (by linarith), hmu, zero_add]
    rfl

/-- C197, partial: with the default `frac` of 1 the mean weight is the probability to be scattered, 1 - exp (-muS l) for the way `l` -/
theorem C197_all_partial {c : VPar} {s : VVars} (hi : c.init = .ok s) (hc : c.Valid) (hf : 1 ≤ c.frac) {e : Event ℝ}
    (hg : c.Clear e.r e.v) (ha : c.sig_a = 0) (hq : c.f_QE ≤ 0) {τ : ℝ} (hhit : c.Outer (e.r + τ • e.v))
    (hb : ∀ τ : ℝ, τ < 0 → ¬ c.Outer (e.r + τ • e.v)) {u1 u2 : ℝ} {d : V3 ℝ}
    (hd : ∀ q, c.Outer q → c.direction s (s.aim q) u1 u2 = .ok (d, 4 * Real.pi))
    (hout : {τ : ℝ | c.Outer (e.r + τ • e.v) ∧ ¬ c.Clear (e.r + τ • e.v) (length e.v • norm d)}.Finite) {uq ue : ℝ} (huq : 0 ≤ uq) (ub : ℝ) :
    mean (fun ud => weight (c.trace s Off e ub ud u1 u2 uq ue)) =
      e.p * (1 - Real.exp (-c.muS * way c.Material e.r e.v (Set.Ici 0))) / c.frac := by
  obtain ⟨t0, t1, t2, t3, h0, h1, h2, h3, ho, hh, hh', htr⟩ := VPar.trace_hit hi hc hg hhit hb
  rw [← VPar.mean_scatter hi hc (by linarith) hg ha hq h0 h1 h2 h3 ho hh hh' hd hout (uq := uq) (ue := ue) huq]
  apply mean_congr
  intro ud _ _
  rw [htr, if_pos (.inl hf)]

-- the hypotheses are met by a neutron through the middle of a cylinder
example : ∃ (c : VPar) (s : VVars) (e : Event ℝ) (u1 u2 : ℝ) (d : V3 ℝ), c.init = .ok s ∧ c.Valid ∧ 0 < c.frac ∧ c.frac < 1 ∧ c.Clear e.r e.v ∧
    c.sig_a = 0 ∧ c.f_QE ≤ 0 ∧ c.Outer (e.r + (2 : ℝ) • e.v) ∧ (∀ τ : ℝ, τ < 0 → ¬ c.Outer (e.r + τ • e.v)) ∧
    (∀ q, c.Outer q → c.direction s (s.aim q) u1 u2 = .ok (d, 4 * Real.pi)) ∧
    {τ : ℝ | c.Outer (e.r + τ • e.v) ∧ ¬ c.Clear (e.r + τ • e.v) (length e.v • norm d)}.Finite := by
  obtain ⟨d, hd, hcl⟩ := ex_dir (1 / 2) (1 / 2)
  refine ⟨ex (1 / 2) (1 / 2), exv, exe, 1 / 2, 0, d, ex_init _ _, ex_valid (by norm_num) (by norm_num), by norm_num [ex], by norm_num [ex],
    ex_clear _ _, rfl, le_rfl, (ex_outer _ _ _).2 (by norm_num), fun τ h h' => ?_, fun q _ => hd q, ?_⟩
  · have := (ex_outer _ _ _).1 h'
    nlinarith
  · convert Set.finite_empty
    rw [Set.eq_empty_iff_forall_notMem]
    exact fun τ h => h.2 (hcl _)

/-- C197 is false for `frac` above 1, which is accepted: all neutrons are scattered, but the weight is divided by `frac` -/
theorem C197_above_false : ∃ (c : VPar) (s : VVars) (e : Event ℝ) (u1 u2 : ℝ), c.init = .ok s ∧ c.Valid ∧ c.Clear e.r e.v ∧ c.sig_a = 0 ∧ 0 < e.p ∧
    0 < c.muS * way c.Material e.r e.v (Set.Ici 0) ∧
    ∀ ub, mean (fun ud => weight (c.trace s Off e ub ud u1 u2 0 0)) <
      e.p * (1 - Real.exp (-c.muS * way c.Material e.r e.v (Set.Ici 0))) := by
  obtain ⟨d, hd, hcl⟩ := ex_dir 0 2
  have hneg : ∀ τ : ℝ, τ < 0 → ¬ (ex 0 2).Outer (exe.r + τ • exe.v) := by
    intro τ h h'
    have := (ex_outer _ _ _).1 h'
    nlinarith
  have hw : 0 < (ex 0 2).muS * way (ex 0 2).Material exe.r exe.v (Set.Ici 0) := by
    obtain ⟨t0, t1, t2, t3, h0, h1, h2, h3, ho, hh, hh', -⟩ :=
      VPar.trace_hit (ex_init 0 2) (ex_valid le_rfl zero_le_one) (ex_clear 0 2) ((ex_outer _ _ 2).2 (by norm_num)) hneg
    rw [(VPar.way_eq h0 h1 h2 h3 ho hh hh').1]
    have a1 := ((ho 1).1 ((ex_outer _ _ 1).2 (by norm_num))).1
    have a3 := ((ho 3).1 ((ex_outer _ _ 3).2 (by norm_num))).2
    have a2 : t1 = t2 := by
      by_contra hne
      have hlt := lt_of_le_of_ne h2 hne
      obtain ⟨x, hx1, hx2⟩ := exists_between hlt
      exact (hh x hx1 hx2).2.1 rfl
    have hl : 0 < length exe.v := Kinem.length_pos (ex_clear 0 2).1
    have hm : 0 < (ex 0 2).muS := by unfold VPar.muS ex; norm_num
    have : 0 < t1 - t0 + (t3 - t2) := by linarith
    positivity
  refine ⟨ex 0 2, exv, exe, 1 / 2, 0, ex_init _ _, ex_valid le_rfl zero_le_one, ex_clear _ _, rfl, by norm_num [exe], hw, fun ub => ?_⟩
  rw [C197_all_partial (ex_init 0 2) (ex_valid le_rfl zero_le_one) (by norm_num [ex]) (ex_clear 0 2) rfl le_rfl
    ((ex_outer _ _ 2).2 (by norm_num)) hneg (fun q _ => hd q) (by convert Set.finite_empty; rw [Set.eq_empty_iff_forall_notMem]; exact fun τ h => h.2 (hcl _)) le_rfl ub]
  have : Real.exp (-(ex 0 2).muS * way (ex 0 2).Material exe.r exe.v (Set.Ici 0)) < 1 := by
    rw [Real.exp_lt_one_iff]; linarith
  have hp : exe.p = 1 := rfl
  have hf : (ex 0 2).frac = 2 := rfl
  rw [hp, hf]
  linarith

/-- C199: the energy transfer of the quasi-elastic scattering has a Lorentzian (Cauchy) distribution: the probability for at most `x` is
1/2 + arctan (x / gamma) / π; so half of them are not above gamma in size, that is, gamma is the half width at half maximum -/
theorem C199_lorentz {gamma : ℝ} (hg : 0 < gamma) :
    (∀ x, mean (fun u => if quasi gamma u ≤ x then 1 else 0) = 1 / 2 + Real.arctan (x / gamma) / Real.pi) ∧
    mean (fun u => if |quasi gamma u| ≤ gamma then 1 else 0) = 1 / 2 := by
  have hp := Real.pi_pos
  have range : ∀ x : ℝ, 0 ≤ 1 / 2 + Real.arctan (x / gamma) / Real.pi ∧ 1 / 2 + Real.arctan (x / gamma) / Real.pi ≤ 1 := by
    intro x
    have h1 := Real.neg_pi_div_two_lt_arctan (x / gamma)
    have h2 := Real.arctan_lt_pi_div_two (x / gamma)
    constructor
    · have : -(1 / 2) ≤ Real.arctan (x / gamma) / Real.pi := by rw [le_div_iff₀ hp]; linarith
      linarith
    · have : Real.arctan (x / gamma) / Real.pi ≤ 1 / 2 := by rw [div_le_iff₀ hp]; linarith
      linarith
  constructor
  · intro x
    obtain ⟨r0, r1⟩ := range x
    rw [mean_two r0 r1 1 0]
    · ring
    · intro u g0 g1
      rw [if_pos ((quasi_le hg g0 (by linarith) x).2 g1.le)]
    · intro u g0 g1
      rw [if_neg (fun h => by have := (quasi_le hg (by linarith) g1 x).1 h; linarith)]
  · have e1 : 1 / 2 + Real.arctan (gamma / gamma) / Real.pi = 3 / 4 := by
      rw [div_self hg.ne', Real.arctan_one]; field_simp; norm_num
    have e2 : 1 / 2 + Real.arctan (-gamma / gamma) / Real.pi = 1 / 4 := by
      rw [neg_div, div_self hg.ne', Real.arctan_neg, Real.arctan_one]; field_simp; norm_num
    rw [mean_step (a := 1 / 4) (b := 3 / 4) (A := 1) (by norm_num) (by norm_num) (by norm_num)]
    · norm_num
    · intro u g0 g1
      rw [if_neg]
      intro h
      have h1 := (abs_le.1 h).1
      -- a number between `u` and the quartile
      obtain ⟨w, hw1, hw2⟩ := exists_between g1
      have h3 := (quasi_le hg (by linarith) (by linarith) (-gamma)).2 (by rw [e2]; exact hw2.le : w ≤ _)
      have h8 : quasi gamma u < quasi gamma w := by
        unfold quasi
        apply mul_lt_mul_of_pos_left _ hg
        exact Real.tan_lt_tan_of_lt_of_lt_pi_div_two (by nlinarith) (by nlinarith) (by nlinarith)
      linarith
    · intro u g0 g1
      rw [if_pos]
      rw [abs_le]
      refine ⟨?_, (quasi_le hg (by linarith) (by linarith) gamma).2 (by rw [e1]; exact g1.le)⟩
      by_contra hc
      push Not at hc
      have := (quasi_le hg (by linarith) (by linarith) (-gamma)).1 hc.le
      rw [e2] at this
      linarith
    · intro u g0 g1
      rw [if_neg]
      intro h
      have := (quasi_le hg (by linarith) g1 gamma).1 (abs_le.1 h).2
      rw [e1] at this
      linarith

/-- C198, partial: V_sample aims at the given position: with a radius every direction that is chosen leads to a point of the disk of this
radius at the position, perpendicular to the line of sight; with a width and a height (metres) to a point of this rectangle.  Missing: a
rectangle in degrees (see C163), a target above or below (C164), and the index of a component, see `C198_index_false`. -/
theorem C198_target_partial {c : VPar} {s : VVars} (hi : c.init = .ok s) (hx : c.target_index = 0)
    (hP : (⟨c.target_x, c.target_y, c.target_z⟩ : V3 ℝ) ≠ 0) (haw : c.focus_aw = 0 ∨ c.focus_ah = 0) {r : V3 ℝ}
    (hr : (⟨c.target_x, c.target_y, c.target_z⟩ : V3 ℝ) - r ≠ 0) {u1 u2 : ℝ} (h1 : 0 ≤ u1) (h2 : u1 ≤ 1) (h3 : 0 ≤ u2) (h4 : u2 ≤ 1) :
    (c.focus_xw = 0 ∨ c.focus_yh = 0 → 0 < c.focus_r → ∃ d Ω, c.direction s (s.aim r) u1 u2 = .ok (d, Ω) ∧ ∃ T : ℝ, 0 < T ∧
      (r + T • d - ⟨c.target_x, c.target_y, c.target_z⟩).dot (⟨c.target_x, c.target_y, c.target_z⟩ - r) = 0 ∧
      length (r + T • d - ⟨c.target_x, c.target_y, c.target_z⟩) ≤ c.focus_r) ∧
    (0 < c.focus_xw → 0 < c.focus_yh → ((⟨c.target_x, c.target_y, c.target_z⟩ : V3 ℝ) - r).cross ⟨0, 1, 0⟩ ≠ 0 →
      ∃ d Ω x y n k, c.direction s (s.aim r) u1 u2 = .ok (d, Ω) ∧ |x| ≤ c.focus_xw / 2 ∧ |y| ≤ c.focus_yh / 2 ∧ n.dot n = 1 ∧ k.dot k = 1 ∧
        n.dot k = 0 ∧ n.dot (⟨c.target_x, c.target_y, c.target_z⟩ - r) = 0 ∧ k.dot (⟨c.target_x, c.target_y, c.target_z⟩ - r) = 0 ∧
        n.dot ⟨0, 1, 0⟩ = 0 ∧ r + d = ⟨c.target_x, c.target_y, c.target_z⟩ + x • n + y • k) := by
  obtain ⟨-, -, -, -, e1, e2, e3, e4, e5⟩ := VPar.init_ok hi
  rw [if_neg (by simpa using hx)] at e5
  have haim : s.aim r = (⟨c.target_x, c.target_y, c.target_z⟩ : V3 ℝ) - r := by
    unfold VVars.aim
    rw [if_pos, e5]
    · rfl
    · rw [e5]
      by_contra hc
      push Not at hc
      exact hP (by ext; exacts [hc.1, hc.2.1, hc.2.2])
  have hdir : ¬ (s.aw ≠ 0 ∧ s.ah ≠ 0) := by
    rw [e1, e2]
    rcases haw with h | h <;> simp [h]
  unfold VPar.direction
  rw [if_neg hdir, haim, e3, e4]
  generalize (⟨c.target_x, c.target_y, c.target_z⟩ : V3 ℝ) = P at hr
  constructor
  · intro hw hf
    rw [if_neg (by tauto)]
    obtain ⟨d, g1, g2, g3⟩ := C162_cone hr hf.ne' h1 h2 u2
    obtain ⟨T, hT, k1, k2⟩ := disk_hit hr hf (c := 1 - (1 - Sampling.edge (P - r) c.focus_r) * u1)
      (by have := abs_le.1 (Sampling.edge_range hr c.focus_r); nlinarith [this.1, this.2]) g2 g3
    have e : r + T • d - P = T • d - (P - r) := by ext <;> simp <;> ring
    exact ⟨d, _, by rw [g1]; rfl, T, hT, by rw [e]; exact k1, by rw [e]; exact k2⟩
  · intro hw hh hv
    rw [if_pos ⟨hw.ne', hh.ne'⟩]
    have hm : M3.one.mulVec (⟨0, 1, 0⟩ : V3 ℝ) = ⟨0, 1, 0⟩ := by ext <;> simp [M3.one, M3.mulVec]
    obtain ⟨n, k, a1, a2, a3, a4, a5, a6, a7, -⟩ := C164_rectangle_partial (t := P - r) Frames.one_ortho (by rw [hm]; exact hv) hw hh
    obtain ⟨x, y, w, b1, b2, b3⟩ := a7 u1 u2 h1 h2 h3 h4
    rw [hm] at a6
    exact ⟨_, w, x, y, n, k, by rw [b3]; rfl, b1, b2, a1, a2, a5, a3, a4, a6, by ext <;> simp <;> ring⟩

-- the hypotheses are met by a target beside the sample
example : ∃ (c : VPar) (s : VVars) (r : V3 ℝ), c.init = .ok s ∧ c.target_index = 0 ∧ (⟨c.target_x, c.target_y, c.target_z⟩ : V3 ℝ) ≠ 0 ∧
    (c.focus_aw = 0 ∨ c.focus_ah = 0) ∧ (⟨c.target_x, c.target_y, c.target_z⟩ : V3 ℝ) - r ≠ 0 ∧ 0 < c.focus_r ∧ 0 < c.focus_xw ∧ 0 < c.focus_yh ∧
    ((⟨c.target_x, c.target_y, c.target_z⟩ : V3 ℝ) - r).cross ⟨0, 1, 0⟩ ≠ 0 := by
  obtain ⟨s, hs⟩ : ∃ s, (⟨0, 1, 2, 1, 1, 1, 0, 0, 3, 0, 0, 1, 1, 0, 0, 0, 0, 0, 0, 0.01, 1, 0⟩ : VPar).init = .ok s := by
    unfold VPar.init
    simp only [true_or, if_true]
    rw [if_neg (by norm_num), num_divD (by norm_num)]
    exact ⟨_, rfl⟩
  refine ⟨_, s, ⟨0, 1, 0⟩, hs, rfl, fun h => ?_, .inl rfl, fun h => ?_, by norm_num, by norm_num, by norm_num, fun h => ?_⟩
  · have := congrArg V3.x h; norm_num at this
  · have := congrArg V3.x h; norm_num at this
  · have := congrArg V3.z h; norm_num [V3.cross] at this

/-- C198 is false if the target is given by the index of a component: whatever the index, V_sample aims along its z axis -/
theorem C198_index_false {c : VPar} {s : VVars} (hi : c.init = .ok s) (hx : c.target_index ≠ 0) (r : V3 ℝ) : s.aim r = ⟨0, 0, 1⟩ := by
  obtain ⟨-, -, -, -, -, -, -, -, e5⟩ := VPar.init_ok hi
  rw [if_pos hx] at e5
  unfold VVars.aim
  rw [e5, if_neg (by simp)]

/-- C200: the form factor of Sans_spheres is the Fourier transform of a homogeneous sphere, relative to its volume -/
theorem C200_amplitude {q R : ℝ} (hq : q ≠ 0) (hR : R ≠ 0) : ∃ f, formFactor q R = some f ∧ f * ball R = amplitude q R := by
  refine ⟨_, divD_ok (by positivity), ?_⟩
  rw [amplitude_eq hq, ball]
  field_simp

example : ∃ f, formFactor 0.1 100 = some f ∧ f * ball 100 = amplitude 0.1 100 := C200_amplitude (by norm_num) (by norm_num)

/-- C200 is false for a neutron that is not deflected: the form factor is 1 there, but the code has 0 / 0 -/
theorem C200_forward_false : (∀ R, formFactor 0 R = none) ∧ ∃ (c : Sans) (a b : ℝ) (e : Event ℝ), c.init = .ok (a, b) ∧ 0 < c.R ∧ 0 < c.Rdet ∧
    0 < c.dist ∧ ∀ ud u2, c.trace a b Off e ud 0 u2 = .error .undefinedBehaviour := by
  have h0 : ∀ R, formFactor 0 R = none := by intro R; unfold formFactor; simp [divD]
  refine ⟨h0, ⟨1, 1, 1, 1, 1, 1, 2, 2, 2⟩, 1 * 2200 * 100, 1 * 4 * Real.pi * 1 * 1 * 1 / 3 * 1 * 1, ⟨⟨0, 0, -2⟩, ⟨0, 0, 1⟩, 0, 0, 0, 1⟩, ?_, by norm_num,
    by norm_num, by norm_num, fun ud u2 => ?_⟩
  · unfold Sans.init; rw [if_neg (by norm_num)]
  have hb : boxIntersect ⟨0, 0, -2⟩ ⟨0, 0, 1⟩ ⟨2, 2, 2⟩ = some (1, 3) := by
    unfold boxIntersect faces face
    norm_num [collect]
  have ht : (⟨0, 0, 1⟩ : V3 ℝ) ≠ 0 := by intro h; have := congrArg V3.z h; norm_num at this
  obtain ⟨d, g1, g2, g3⟩ := C162_cone ht (radius := 1) one_ne_zero le_rfl zero_le_one u2
  have hd : d = ⟨0, 0, 1⟩ := by
    simp only [V3.dot] at g2 g3
    norm_num at g2 g3
    rw [g3] at g2
    have hx : d.x = 0 := by nlinarith [mul_self_nonneg d.x, mul_self_nonneg d.y]
    have hy : d.y = 0 := by nlinarith [mul_self_nonneg d.x, mul_self_nonneg d.y]
    ext; exacts [hx, hy, g3]
  have hn : norm (⟨0, 0, 1⟩ : V3 ℝ) = ⟨0, 0, 1⟩ := by unfold McStas.norm; norm_num
  have hp : (propDt Off (ud * (3 - 1) + 1) ⟨⟨0, 0, -2⟩, ⟨0, 0, 1⟩, 0, 0, 0, 1⟩).v = ⟨0, 0, 1⟩ := by
    unfold propDt
    by_cases h : ud * (3 - 1) + 1 < (-1e-15 : ℝ)
    · rw [if_pos h]; rfl
    · rw [if_neg h, if_neg (by simp [Off])]; rfl
  unfold Sans.trace
  simp only [hb]
  rw [if_neg (by norm_num)]
  simp only [g1, hp, num, bind, Except.bind, hd, hn]
  norm_num [transfer, h0]

/-- C201, partial: a neutron that meets Sans_spheres is scattered at a point taken evenly from its way in the box, with its speed kept, into the
cone of the detector, and its weight is, up to the constant factor 1 / (4π), the one of the cross section of spheres of number density
`Phi / V`: way × solid angle × number density × (contrast × amplitude)², times the absorption on the whole way, with 100 times the cross
section (`C201_absorption_false`).  Missing: gravity, edges, undeflected neutrons. -/
theorem C201_weight_partial {c : Sans} {a b : ℝ} (hi : c.init = .ok (a, b)) (hx : 0 < c.xwidth) (hy : 0 < c.yheight) (hz : 0 < c.zthick)
    (hR : c.R ≠ 0) (hdist : c.dist ≠ 0) (hdet : c.Rdet ≠ 0) {e : Event ℝ} (hv : e.v ≠ 0) (hg : NoEdge e.r e.v ⟨c.xwidth, c.yheight, c.zthick⟩)
    {ud u1 u2 : ℝ} (u0 : 0 ≤ ud) (ud1 : ud ≤ 1) (h1 : 0 ≤ u1) (h2 : u1 ≤ 1) :
    ((∀ τ : ℝ, ¬ c.Box (e.r + τ • e.v)) → c.trace a b Off e ud u1 u2 = .ok e) ∧
    ((∃ τ : ℝ, c.Box (e.r + τ • e.v)) → (∀ τ : ℝ, τ < 0 → ¬ c.Box (e.r + τ • e.v)) →
      ∃ (T : ℝ) (w : V3 ℝ), 0 ≤ T ∧ c.Box (e.r + T • e.v) ∧ way c.Box e.r e.v (Set.Icc 0 T) = ud * way c.Box e.r e.v (Set.Ici 0) ∧
        length w = length e.v ∧ w.z * c.dist ≥ Sampling.edge ⟨0, 0, c.dist⟩ c.Rdet * length e.v * |c.dist| ∧
        (w ≠ e.v → NoEdge (e.r + T • e.v) w ⟨c.xwidth, c.yheight, c.zthick⟩ →
        ∃ e' : Event ℝ, c.trace a b Off e ud u1 u2 = .ok e' ∧ e'.r = e.r + T • e.v ∧ e'.t = e.t + T ∧ e'.s1 = e.s1 ∧ e'.s2 = e.s2 ∧ e'.v = w ∧
          e'.p = c.law (100 * c.sigma_a) e e' T / (4 * Real.pi))) := by
  have hl : 0 < length e.v := Kinem.length_pos hv
  have hab : a = c.sigma_a * 2200 * 100 ∧ b = c.Phi * 4 * Real.pi * c.R * c.R * c.R / 3 * c.Delta_rho * c.Delta_rho := by
    unfold Sans.init at hi
    rw [if_neg (by push Not; exact ⟨hx.ne', hy.ne', hz.ne'⟩)] at hi
    cases hi; exact ⟨rfl, rfl⟩
  rcases Sans.box_spec hx hy hz hv hg with ⟨hb, hn⟩ | ⟨t0, t1, hb, h01, ho⟩
  · exact ⟨fun _ => by unfold Sans.trace; rw [hb], fun ⟨τ, h⟩ => absurd h (hn τ)⟩
  refine ⟨fun h => absurd ((ho t0).2 ⟨le_rfl, h01.le⟩) (h t0), fun _ hneg => ?_⟩
  have h0 : 0 ≤ t0 := by
    by_contra hc
    push Not at hc
    exact hneg t0 hc ((ho t0).2 ⟨le_rfl, h01.le⟩)
  have hut : 0 ≤ ud * (t1 - t0) := mul_nonneg u0 (by linarith)
  have hut1 : ud * (t1 - t0) ≤ t1 - t0 := by nlinarith
  set T := ud * (t1 - t0) + t0 with hT
  have wfull : way c.Box e.r e.v (Set.Ici 0) = length e.v * (t1 - t0) := by
    apply way_box ho h01.le
    intro τ n0 n1
    rw [Set.mem_Ici]
    constructor
    · rintro ⟨_, g1, g2⟩; exact ⟨lt_of_le_of_ne g1 n0.symm, lt_of_le_of_ne g2 n1⟩
    · rintro ⟨g1, g2⟩; exact ⟨by linarith, g1.le, g2.le⟩
  have wT : way c.Box e.r e.v (Set.Icc 0 T) = length e.v * (T - t0) := by
    apply way_box ho (by linarith)
    intro τ n0 n1
    rw [Set.mem_Icc]
    constructor
    · rintro ⟨⟨_, g3⟩, g1, g2⟩; exact ⟨lt_of_le_of_ne g1 n0.symm, lt_of_le_of_ne g3 n1⟩
    · rintro ⟨g1, g2⟩; exact ⟨⟨by linarith, g2.le⟩, g1.le, by linarith⟩
  have ht : (⟨0, 0, c.dist⟩ : V3 ℝ) ≠ 0 := by intro h; exact hdist (congrArg V3.z h)
  obtain ⟨d, g1, g2, g3⟩ := C162_cone ht hdet h1 h2 u2
  have hdd : d.dot d = c.dist ^ 2 := by rw [g2]; simp [V3.dot]; ring
  have hd : d ≠ 0 := by
    intro h
    rw [h] at hdd
    simp [V3.dot] at hdd
    exact hdist (pow_eq_zero_iff (two_ne_zero)|>.1 hdd.symm)
  have hlw : length (length e.v • norm d) = length e.v := by
    rw [McSource.length_smul, abs_of_pos hl, Flight.length_eq (norm d), norm_unit hd, Real.sqrt_one, mul_one]
  have hTin : c.Box (e.r + T • e.v) := (ho T).2 ⟨by linarith, by linarith⟩
  refine ⟨T, length e.v • norm d, by linarith, hTin, by rw [wT, wfull, hT]; ring, hlw, ?_, fun hne hge => ?_⟩
  · have hld : length d = |c.dist| := by
      rw [Flight.length_eq, hdd, Real.sqrt_sq_eq_abs]
    have hdz : d.z * c.dist = (1 - (1 - Sampling.edge ⟨0, 0, c.dist⟩ c.Rdet) * u1) * c.dist ^ 2 := by
      have := g3
      simp only [V3.dot] at this
      rw [sq]
      linarith
    rw [norm_eq hd, V3.smul_z, V3.smul_z, hld]
    have hab' : 0 < |c.dist| := abs_pos.2 hdist
    have hsq : |c.dist| * |c.dist| = c.dist ^ 2 := by rw [← sq, sq_abs]
    have e1 : length e.v * (1 / |c.dist| * d.z) * c.dist = length e.v * (1 - (1 - Sampling.edge ⟨0, 0, c.dist⟩ c.Rdet) * u1) * |c.dist| := by
      rw [show length e.v * (1 / |c.dist| * d.z) * c.dist = length e.v * (d.z * c.dist) / |c.dist| by ring, hdz, ← hsq]
      field_simp
    rw [e1]
    have hr := abs_le.1 (Sampling.edge_range ht c.Rdet)
    have : Sampling.edge ⟨0, 0, c.dist⟩ c.Rdet ≤ 1 - (1 - Sampling.edge ⟨0, 0, c.dist⟩ c.Rdet) * u1 := by nlinarith [hr.1, hr.2]
    have h5 := mul_le_mul_of_nonneg_right (mul_le_mul_of_nonneg_left this hl.le) hab'.le
    linarith
  · have hwne : length e.v • norm d ≠ 0 := by
      intro h
      rw [h] at hlw
      have : length (0 : V3 ℝ) = 0 := by rw [Flight.length_eq]; simp [V3.dot]
      linarith
    have r0 : ∀ q w : V3 ℝ, q + (0 : ℝ) • w = q := by intro q w; ext <;> simp
    rcases Sans.box_spec hx hy hz hwne hge with ⟨-, hn⟩ | ⟨s0, s1, hb', h01', ho'⟩
    · exact absurd ((r0 _ _).symm ▸ hTin) (hn 0)
    have hs := (ho' 0).1 ((r0 _ _).symm ▸ hTin)
    have wout : way c.Box (e.r + T • e.v) (length e.v • norm d) (Set.Ici 0) = length e.v * (s1 - 0) := by
      refine (way_box ho' hs.2 (S := Set.Ici 0) ?_).trans (by rw [hlw])
      intro τ n0 n1
      rw [Set.mem_Ici]
      constructor
      · rintro ⟨k0, k1, k2⟩; exact ⟨lt_of_le_of_ne k0 n0.symm, lt_of_le_of_ne k2 n1⟩
      · rintro ⟨k1, k2⟩; exact ⟨k1.le, by linarith, k2.le⟩
    have hprop : propDt Off T e = { e with r := e.r + T • e.v, t := e.t + T } := by
      rw [(C160_dt Off T e).1 (by linarith), flown]
      ext <;> simp [accel, Off]
    have hvec : (⟨(norm d).x * length e.v, (norm d).y * length e.v, (norm d).z * length e.v⟩ : V3 ℝ) = length e.v • norm d := by
      ext <;> simp <;> ring
    have hq := transfer_eq e.v (length e.v • norm d)
    have hq0 : V2K * length (e.v - length e.v • norm d) ≠ 0 := by
      apply mul_ne_zero (by unfold V2K; norm_num)
      apply (Kinem.length_pos _).ne'
      intro h
      apply hne
      ext
      · have := congrArg V3.x h; simp only [V3.sub_x, V3.zero_x] at this; linarith
      · have := congrArg V3.y h; simp only [V3.sub_y, V3.zero_y] at this; linarith
      · have := congrArg V3.z h; simp only [V3.sub_z, V3.zero_z] at this; linarith
    obtain ⟨f, hf, hfa⟩ := C200_amplitude hq0 hR
    unfold Sans.trace
    rw [hb]
    simp only []
    rw [if_neg (not_lt.2 h0)]
    simp only [speed_eq, ← hT, hprop, g1, num, bind, Except.bind, hvec, hq, hf, hb', divD_ok hl.ne']
    refine ⟨_, rfl, rfl, rfl, rfl, rfl, rfl, ?_⟩
    unfold Sans.law
    simp only
    rw [wfull, wT, wout, ← hfa, hab.1, hab.2]
    have hexp : -(c.sigma_a * 2200 * 100) * (length e.v * (T - t0) + length e.v * s1) / length e.v =
        -(100 * c.sigma_a * (2200 / length e.v)) * (length e.v * (T - t0) + length e.v * (s1 - 0)) := by
      field_simp
      ring
    rw [hexp, ball]
    have hp := Real.pi_pos
    have hR3 : c.R ^ 3 ≠ 0 := pow_ne_zero 3 hR
    field_simp

-- the hypotheses are met by a neutron along the z axis scattered to the side
example : ∃ (c : Sans) (a b : ℝ) (e : Event ℝ), c.init = .ok (a, b) ∧ 0 < c.xwidth ∧ 0 < c.yheight ∧ 0 < c.zthick ∧ c.R ≠ 0 ∧ c.dist ≠ 0 ∧
    c.Rdet ≠ 0 ∧ e.v ≠ 0 ∧ NoEdge e.r e.v ⟨c.xwidth, c.yheight, c.zthick⟩ ∧ (∃ τ : ℝ, c.Box (e.r + τ • e.v)) ∧
    ∀ τ : ℝ, τ < 0 → ¬ c.Box (e.r + τ • e.v) := by
  refine ⟨⟨1, 1, 1, 1, 1, 1, 2, 2, 2⟩, _, _, ⟨⟨0, 0, -2⟩, ⟨0, 0, 1⟩, 0, 0, 0, 1⟩, by unfold Sans.init; rw [if_neg (by norm_num)], by norm_num, by norm_num,
    by norm_num, by norm_num, by norm_num, by norm_num, fun h => by have := congrArg V3.z h; norm_num at this, fun s _ => ?_, ⟨2, ?_⟩, fun τ h h' => ?_⟩
  · norm_num
  · unfold Sans.Box; norm_num
  · unfold Sans.Box at h'
    norm_num at h'
    have := (abs_le.1 h').1
    linarith

/-- C201 is false for the absorption: `sigma_a` is documented as the cross section per volume at 2200 m/s in 1/m, but it is multiplied by
100, a conversion from barn.  So every neutron has a smaller weight than with the documented cross section. -/
theorem C201_absorption_false {c : Sans} {a b : ℝ} (hi : c.init = .ok (a, b)) (hx : 0 < c.xwidth) (hy : 0 < c.yheight) (hz : 0 < c.zthick)
    (hR : c.R ≠ 0) (hdist : c.dist ≠ 0) (hdet : c.Rdet ≠ 0) (hs : 0 < c.sigma_a) {e : Event ℝ} (hv : e.v ≠ 0)
    (hg : NoEdge e.r e.v ⟨c.xwidth, c.yheight, c.zthick⟩) {ud u1 u2 : ℝ} (u0 : 0 < ud) (ud1 : ud ≤ 1) (h1 : 0 ≤ u1) (h2 : u1 ≤ 1)
    (hhit : ∃ τ : ℝ, c.Box (e.r + τ • e.v)) (hneg : ∀ τ : ℝ, τ < 0 → ¬ c.Box (e.r + τ • e.v)) :
    ∃ (T : ℝ) (w : V3 ℝ), length w = length e.v ∧ (w ≠ e.v → NoEdge (e.r + T • e.v) w ⟨c.xwidth, c.yheight, c.zthick⟩ →
      ∃ e' : Event ℝ, c.trace a b Off e ud u1 u2 = .ok e' ∧ e'.v = w ∧ (e'.p ≠ 0 → |e'.p| < |c.law c.sigma_a e e' T / (4 * Real.pi)|)) := by
  obtain ⟨T, w, hT, -, hTw, hw, -, h⟩ := (C201_weight_partial hi hx hy hz hR hdist hdet hv hg u0.le ud1 h1 h2 (u2 := u2)).2 hhit hneg
  refine ⟨T, w, hw, fun hne hge => ?_⟩
  obtain ⟨e', h1, -, -, -, -, h6, h7⟩ := h hne hge
  refine ⟨e', h1, h6, fun hp => ?_⟩
  have hl : 0 < length e.v := Kinem.length_pos hv
  have hway : 0 < way c.Box e.r e.v (Set.Ici 0) := by
    rcases lt_or_eq_of_le (show 0 ≤ way c.Box e.r e.v (Set.Ici 0) from mul_nonneg hl.le ENNReal.toReal_nonneg) with h | h
    · exact h
    · rw [h7] at hp
      exfalso; apply hp
      unfold Sans.law
      rw [← h]; ring
  have hout : 0 ≤ way c.Box e'.r e'.v (Set.Ici 0) := mul_nonneg (Kinem.length_nonneg _) ENNReal.toReal_nonneg
  have hX : 0 < (2200 / length e.v) * (way c.Box e.r e.v (Set.Icc 0 T) + way c.Box e'.r e'.v (Set.Ici 0)) := by
    rw [hTw]
    have := mul_pos u0 hway
    positivity
  have hlt : Real.exp (-(100 * c.sigma_a * (2200 / length e.v)) * (way c.Box e.r e.v (Set.Icc 0 T) + way c.Box e'.r e'.v (Set.Ici 0))) <
      Real.exp (-(c.sigma_a * (2200 / length e.v)) * (way c.Box e.r e.v (Set.Icc 0 T) + way c.Box e'.r e'.v (Set.Ici 0))) := by
    apply Real.exp_lt_exp.2
    nlinarith
  rw [h7] at hp ⊢
  unfold Sans.law at hp ⊢
  rw [abs_div, abs_div]
  apply div_lt_div_of_pos_right _ (abs_pos.2 (by positivity))
  rw [abs_mul _ (Real.exp _), abs_mul _ (Real.exp (-(c.sigma_a * _) * _)), abs_of_pos (Real.exp_pos _), abs_of_pos (Real.exp_pos _)]
  apply mul_lt_mul_of_pos_left hlt
  rw [abs_pos]
  intro h0
  apply hp
  rw [h0]
  ring

end
end Verif.McSample
