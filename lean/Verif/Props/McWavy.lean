import Verif.Lemmas.McWavy
/-!
Property theorems: the guide with waviness.
-/

namespace Verif.McWavy
open McStas Kinem Flight Solid Homog McMon McOpt McGuide
open Classical

/-- C281, partial: a neutron outside of the opening is stopped; the others fly straight from mirror to mirror and are mirrored with a normal that is tilted
by the random numbers of this reflection, with the reflectivity of the coating of this mirror, until they leave the guide or are not
reflected.  Missing: gravity; that a neutron is sent away from the mirror (`C281_behind_false`) -/
theorem C281_partial (g : Wavy) (hl : 0 < g.l) (fuel : Nat) (u : ℕ → ℝ × ℝ) (e a r : Event ℝ) (h : Comes Off e a)
    (hr : g.trace Off fuel u e = some r) :
    (¬ (|a.r.x| < g.w1 / 2 ∧ |a.r.y| < g.h1 / 2) → r = stopped a) ∧
    (|a.r.x| < g.w1 / 2 ∧ |a.r.y| < g.h1 / 2 → g.Travels u a r) := by
  have haz : a.r.z = 0 := by
    obtain ⟨⟨s, hs, rfl⟩, -⟩ := h
    exact hs.2.1
  unfold Wavy.trace at hr
  rw [comes_prop h] at hr
  simp only at hr
  have hiff : (a.r.x ≤ -(0.5 * g.w1) ∨ a.r.x ≥ 0.5 * g.w1 ∨ a.r.y ≤ -(0.5 * g.h1) ∨ a.r.y ≥ 0.5 * g.h1) ↔
      ¬ (|a.r.x| < g.w1 / 2 ∧ |a.r.y| < g.h1 / 2) := by
    rw [abs_lt, abs_lt]
    constructor
    · rintro (h | h | h | h) ⟨⟨_, _⟩, _, _⟩ <;> linarith
    · intro h
      by_contra hn
      push Not at hn
      obtain ⟨n1, n2, n3, n4⟩ := hn
      exact h ⟨⟨by linarith, by linarith⟩, by linarith, by linarith⟩
  constructor
  · intro ho
    rw [if_pos (hiff.2 ho)] at hr
    exact (Option.some.inj hr).symm
  · intro ho
    rw [if_neg (fun hc => hiff.1 hc ho)] at hr
    refine loop_sound hl fuel u a r ?_ (by rw [haz]; exact hl) hr
    unfold Wavy.Inside Wavy.halfW Wavy.halfH
    rw [haz]
    simp only [zero_div, mul_zero, add_zero]
    exact ⟨ho.1.le, ho.2.le⟩

/-- C281: the width of the distribution: a number with the standard normal distribution has half of the maximal density where the angle is half of the
given width -/
theorem C281_width (f x : ℝ) (hx : Real.exp (-x ^ 2 / 2) = 1 / 2) : |spread f x| = |f| / 2 * (Real.pi / 180) := by
  have h2 := Real.log_pos (by norm_num : (1 : ℝ) < 2)
  have h3 : x ^ 2 = 2 * Real.log 2 := by
    have := congrArg Real.log hx
    rw [Real.log_exp, one_div, Real.log_inv] at this
    linarith
  have h4 : |x| = √(2 * Real.log 2) := by rw [← h3, Real.sqrt_sq_eq_abs]
  have h5 : √(2 * Real.log 2) ≠ 0 := by positivity
  unfold spread
  rw [abs_mul, abs_mul, abs_div, h4, abs_of_pos (by positivity : 0 < Real.pi / 180), abs_of_pos (by positivity : 0 < 2 * √(2 * Real.log 2))]
  field_simp

example : Real.exp (-(√(2 * Real.log 2)) ^ 2 / 2) = 1 / 2 := by
  rw [Real.sq_sqrt (by positivity [Real.log_pos (by norm_num : (1 : ℝ) < 2)]), show -(2 * Real.log 2) / 2 = -Real.log 2 by ring, Real.exp_neg,
    Real.exp_log (by norm_num)]
  norm_num

/-- C281: in a guide of constant size the tangent of the angle between the normal of the mirror and the tilted one is the root of the sum of the squares of
the two angles -/
theorem C281_angle (n : V3 ℝ) (hz : n.z = 0) (h1 : n.dot n = 1) (dz dxy : ℝ) (n' : V3 ℝ) (h : Tilted n dz dxy n') :
    n'.dot n = 1 ∧ n'.dot n' = 1 + dz ^ 2 + dxy ^ 2 := by
  obtain ⟨a, b, rfl, h2, h3, h4, h5, -, h7⟩ := h
  rw [hz, abs_zero, mul_zero, abs_eq_zero] at h3
  simp only [V3.dot, V3.add_x, V3.add_y, V3.add_z, V3.smul_x, V3.smul_y, V3.smul_z] at *
  constructor
  · linear_combination h1 + dz * h3 + dxy * h5
  · linear_combination h1 + dz ^ 2 * h2 + dz ^ 2 * h1 + dxy ^ 2 * h4 + 2 * dz * h3 + 2 * dxy * h5 + 2 * dz * dxy * h7

example : Tilted ⟨1, 0, 0⟩ 0.1 0.2 ⟨1, 0.2, 0.1⟩ :=
  ⟨⟨0, 0, 1⟩, ⟨0, 1, 0⟩, by ext <;> norm_num, by norm_num [V3.dot], by norm_num [V3.dot], by norm_num [V3.dot], by norm_num [V3.dot], rfl, by norm_num [V3.dot]⟩

/-- C281: the speed is kept in a guide of constant size -/
theorem C281_speed (g : Wavy) (hw : g.w2 = g.w1) (hh : g.h2 = g.h1) (u : ℕ → ℝ × ℝ) (e r : Event ℝ) (h : g.Travels u e r) :
    r.v.dot r.v = e.v.dot e.v := by
  induction h with
  | leaves => rfl
  | @stops u e s n n' v' _ => show (flown Off e s).v.dot (flown Off e s).v = _; rw [off_v]
  | @step u e s n n' v' k r hm _ ih =>
    rw [ih]
    obtain ⟨c, -, hs, -, -, ht, hmir, -⟩ := hm
    have hn : n.z = 0 ∧ n.dot n = 1 := by
      rcases hs with ⟨-, rfl, -⟩ | ⟨-, rfl, -⟩ | ⟨-, rfl, -⟩ | ⟨-, rfl, -⟩ <;> simp [hw, hh, V3.dot]
    have hne : n' ≠ 0 := by
      intro h0
      have := (C281_angle n hn.1 hn.2 _ _ n' ht).1
      rw [h0] at this
      simp [V3.dot] at this
    obtain ⟨⟨k, hk⟩, hm⟩ := hmir hne
    have hx := congrArg V3.x hk
    have hy := congrArg V3.y hk
    have hz := congrArg V3.z hk
    simp only [V3.sub_x, V3.sub_y, V3.sub_z, V3.smul_x, V3.smul_y, V3.smul_z] at hx hy hz
    simp only [V3.dot] at hm ⊢
    have hx : v'.x = e.v.x + k * n'.x := by linarith
    have hy : v'.y = e.v.y + k * n'.y := by linarith
    have hz : v'.z = e.v.z + k * n'.z := by linarith
    rw [hx, hy, hz] at hm ⊢
    linear_combination k * hm

/-- a guide of constant size with large waviness along the beam -/
noncomputable def rough : Wavy :=
  ⟨2, 2, 2, 2, 5 / 2, 1 / 2, 1, 0, 1, 1, 0, 1, 1, 0, 1, 1, 0, 1, 1, 360 * √(2 * Real.log 2) / Real.pi, 0⟩

/-- the random numbers of the reflections: -1 for the first one, otherwise 0 -/
noncomputable def first : ℕ → ℝ × ℝ := fun i => if i = 0 then (-1, 0) else (0, 0)

/-- a neutron that flies to the wall `x = 1` -/
noncomputable def hitter : Event ℝ := ⟨⟨0, 0, 0⟩, ⟨1, 0, 2⟩, 0, 0, 0, 1⟩

theorem rough_angle (x : ℝ) : DEG2RAD * rough.etaZ * x = x ∧ DEG2RAD * rough.etaXY * x = 0 := by
  have h2 := Real.log_pos (by norm_num : (1 : ℝ) < 2)
  unfold Wavy.etaZ Wavy.etaXY
  rw [spread_eq, spread_eq]
  unfold spread rough
  have := Real.pi_ne_zero
  have h3 : √(2 * Real.log 2) ≠ 0 := by positivity
  constructor
  · field_simp; norm_num
  · simp

theorem hitter_comes : Comes Off hitter hitter := by
  refine ⟨⟨0, ⟨le_rfl, ?_, ?_⟩, ?_⟩, .inl ⟨rfl, by norm_num [hitter]⟩⟩
  · rw [off_r]; norm_num [hitter]
  · intro s' h1 h2; linarith
  · apply Event.ext
    · rw [off_r]; ext <;> simp
    · rw [off_v]
    all_goals simp [flown]

theorem tanhless (c : Coating) (hm : c.m ≠ 0) (ht : c.table = none) {q : ℝ} (hq : q ≤ c.Qc) : c.R q = some c.R0 := by
  unfold Coating.R
  rw [if_neg hm, ht]
  simp only
  rw [if_pos hq]

/-- the next mirror for a place between the walls -/
theorem rough_next {e : Event ℝ} (hv : 0 < e.v.z) (hy : e.v.y = 0) (hx : 0 < e.v.x) (ht : (1 - e.r.x) / e.v.x < (5 / 2 - e.r.z) / e.v.z) :
    rough.next e = some ((1 - e.r.x) / e.v.x, ⟨⟨-(5 / 2), 0, 0⟩, 5 / 2⟩) := by
  have h1 : rough.walls = [⟨⟨-(5 / 2), 0, 0⟩, 5 / 2⟩, ⟨⟨5 / 2, 0, 0⟩, 5 / 2⟩, ⟨⟨0, -(5 / 2), 0⟩, 5 / 2⟩, ⟨⟨0, 5 / 2, 0⟩, 5 / 2⟩] := by
    simp only [Wavy.walls, rough]; norm_num
  have ht1 : -(-(5 / 2) * e.r.x + 0 * e.r.y + 0 * e.r.z + 5 / 2) / (-(5 / 2) * e.v.x + 0 * e.v.y + 0 * e.v.z) = (1 - e.r.x) / e.v.x := by
    field_simp; ring
  unfold Wavy.next Wavy.toExit
  rw [h1, if_neg hv.ne']
  have hl : rough.l = 5 / 2 := rfl
  rw [hl]
  simp only [List.foldl_cons, List.foldl_nil]
  have s1 : nearer e ((((5 / 2 - e.r.z) / e.v.z : ℝ) : EReal), none) ⟨⟨-(5 / 2), 0, 0⟩, 5 / 2⟩ =
      ((((1 - e.r.x) / e.v.x : ℝ) : EReal), some ((1 - e.r.x) / e.v.x, ⟨⟨-(5 / 2), 0, 0⟩, 5 / 2⟩)) := by
    have hT : Wall.time ⟨⟨-(5 / 2), 0, 0⟩, 5 / 2⟩ e = (1 - e.r.x) / e.v.x := ht1
    rw [← hT] at ht ⊢
    exact if_pos ⟨by simp only [V3.dot]; nlinarith, EReal.coe_lt_coe_iff.2 ht⟩
  rw [s1]
  have sk : ∀ (b : EReal × Option (ℝ × Wall)) (w : Wall), 0 ≤ w.n.dot e.v → nearer e b w = b := by
    intro b w hw
    unfold nearer
    rw [if_neg (fun h => absurd h.1 (not_lt.2 hw))]
  rw [sk _ ⟨⟨5 / 2, 0, 0⟩, 5 / 2⟩ (by simp only [V3.dot]; nlinarith), sk _ ⟨⟨0, -(5 / 2), 0⟩, 5 / 2⟩ (by simp [V3.dot, hy]),
    sk _ ⟨⟨0, 5 / 2, 0⟩, 5 / 2⟩ (by simp [V3.dot, hy])]

theorem rough_out : rough.next ⟨⟨1, 0, 2⟩, ⟨-2, 0, 1⟩, 0, 0, 1, 1 / 4⟩ = none := by
  rcases h : rough.next ⟨⟨1, 0, 2⟩, ⟨-2, 0, 1⟩, 0, 0, 1, 1 / 4⟩ with _ | ⟨t, w⟩
  · rfl
  · exfalso
    obtain ⟨h1, h2, h3, h4, -⟩ := next_some h
    unfold Wavy.toExit at h4
    rw [if_neg (by norm_num), EReal.coe_lt_coe_iff] at h4
    simp only [Wavy.walls, List.mem_cons, List.not_mem_nil, or_false] at h1
    rcases h1 with rfl | rfl | rfl | rfl <;> norm_num [V3.dot, rough] at h2
    subst h3
    norm_num [Wall.time, Wall.at, V3.dot, rough] at h4

theorem rough_case (w : Wall) (hw : w.n.x < 0) (dz : ℝ) : rough.case w dz 0 = (⟨1 / 2, 1, 0, 1, 1, none⟩, ⟨-(5 / 2), 0, -(5 / 2 * dz)⟩) := by
  unfold Wavy.case
  rw [if_pos hw]
  simp only [rough]
  norm_num

/-- C281 is false: a neutron whose direction is on the other side of the tilted mirror is mirrored into the wall, and then reflected again at the same
place and time: with one contact it gets the factor of the reflectivity twice, and the direction of two reflections -/
theorem C281_behind_false : ∃ r, Comes Off hitter hitter ∧ rough.trace Off 3 first hitter = some r ∧ r.r = (flown Off hitter 1).r ∧ r.t = 1 ∧
    (∀ s, 0 ≤ s → s < 1 → |(flown Off hitter s).r.x| < 1) ∧ rough.R0 = 1 / 2 ∧ r.p = hitter.p * (1 / 2) ^ 2 ∧ r.v = ⟨-2, 0, 1⟩ := by
  refine ⟨⟨⟨1, 0, 2⟩, ⟨-2, 0, 1⟩, 0, 0, 1, 1 / 4⟩, hitter_comes, ?_, ?_, rfl, ?_, rfl, by norm_num [hitter], rfl⟩
  · unfold Wavy.trace
    rw [comes_prop hitter_comes]
    simp only
    rw [if_neg (by norm_num [hitter, rough])]
    have n1 := rough_next (e := hitter) (by norm_num [hitter]) rfl (by norm_num [hitter]) (by norm_num [hitter])
    have c1 := rough_case ⟨⟨-(5 / 2), 0, 0⟩, 5 / 2⟩ (by norm_num) (-1)
    have hsq : √((25 : ℝ) / 2) ≠ 0 := by positivity
    have q1 : (⟨1 / 2, 1, 0, 1, 1, none⟩ : Coating).R (kick ⟨-(5 / 2), 0, -(5 / 2 * -1)⟩ hitter.v).1 = some (1 / 2) := by
      apply tanhless _ (by norm_num) rfl
      have h1 : √((25 : ℝ) / 2) ≥ 1 := Real.one_le_sqrt.2 (by norm_num)
      have hA : (⟨-(5 / 2), 0, -(5 / 2 * -1)⟩ : V3 ℝ).dot ⟨-(5 / 2), 0, -(5 / 2 * -1)⟩ = 25 / 2 := by norm_num [V3.dot]
      have hB : |hitter.v.dot ⟨-(5 / 2), 0, -(5 / 2 * -1)⟩| = 5 / 2 := by norm_num [V3.dot, hitter]
      simp only [kick]
      rw [hA, hB, div_le_one (by positivity)]
      refine le_trans ?_ h1
      norm_num [V2K]
    rw [loop_some n1 (by norm_num [hitter]) (by
      show rough.case _ (DEG2RAD * rough.etaZ * (-1)) (DEG2RAD * rough.etaXY * 0) = _
      rw [(rough_angle _).1, (rough_angle _).2, c1]), q1]
    simp only [Option.elim_some]
    have e1 : ({ flown Off hitter ((1 - hitter.r.x) / hitter.v.x) with
        v := hitter.v + (kick ⟨-(5 / 2), 0, -(5 / 2 * -1)⟩ hitter.v).2, p := hitter.p * (1 / 2) } : Event ℝ) =
        ⟨⟨1, 0, 2⟩, ⟨2, 0, 1⟩, 0, 0, 1, 1 / 2⟩ := by
      apply Event.ext
      · simp only [off_r]; ext <;> norm_num [hitter]
      · ext <;> norm_num [kick, hitter, V3.dot]
      · rfl
      · rfl
      · norm_num [flown, hitter]
      · norm_num [hitter]
    rw [e1]
    have n2 := rough_next (e := ⟨⟨1, 0, 2⟩, ⟨2, 0, 1⟩, 0, 0, 1, 1 / 2⟩) (by norm_num) rfl (by norm_num) (by norm_num)
    have c2 := rough_case ⟨⟨-(5 / 2), 0, 0⟩, 5 / 2⟩ (by norm_num) 0
    have q2 : (⟨1 / 2, 1, 0, 1, 1, none⟩ : Coating).R (kick ⟨-(5 / 2), 0, -(5 / 2 * 0)⟩ ⟨2, 0, 1⟩).1 = some (1 / 2) := by
      apply tanhless _ (by norm_num) rfl
      have : √((25 : ℝ) / 4) = 5 / 2 := by
        rw [show (25 : ℝ) / 4 = (5 / 2) ^ 2 by norm_num, Real.sqrt_sq (by norm_num)]
      norm_num [kick, V3.dot, V2K, this]
    rw [loop_some n2 (by norm_num) (by
      show rough.case _ (DEG2RAD * rough.etaZ * 0) (DEG2RAD * rough.etaXY * 0) = _
      rw [(rough_angle _).1, (rough_angle _).2, c2]), q2]
    simp only [Option.elim_some]
    have e2 : ({ flown Off (⟨⟨1, 0, 2⟩, ⟨2, 0, 1⟩, 0, 0, 1, 1 / 2⟩ : Event ℝ) ((1 - (1 : ℝ)) / 2) with
        v := (⟨2, 0, 1⟩ : V3 ℝ) + (kick ⟨-(5 / 2), 0, -(5 / 2 * 0)⟩ ⟨2, 0, 1⟩).2, p := (1 / 2 : ℝ) * (1 / 2) } : Event ℝ) =
        ⟨⟨1, 0, 2⟩, ⟨-2, 0, 1⟩, 0, 0, 1, 1 / 4⟩ := by
      apply Event.ext
      · simp only [off_r]; ext <;> norm_num
      · ext <;> norm_num [kick, V3.dot]
      · rfl
      · rfl
      · norm_num [flown]
      · norm_num
    rw [e2, Wavy.loop, rough_out]
  · rw [off_r]; ext <;> norm_num [hitter]
  · intro s h0 h1
    rw [off_r]
    simp only [hitter, V3.add_x, V3.smul_x]
    rw [abs_lt]; constructor <;> linarith

end Verif.McWavy
