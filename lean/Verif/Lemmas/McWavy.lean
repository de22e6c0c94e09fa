import Verif.Spec.McWavy
import Verif.Lemmas.McGuide
/-!
Lemmas for the guide with waviness.
-/

namespace Verif.McWavy
open McStas Kinem Flight Solid Homog McMon McOpt McGuide
open Classical

/-- the same shape without waviness -/
noncomputable def shape (g : Wavy) : McGuide.Guide := ⟨g.w1, g.h1, g.w2, g.h2, g.l, ⟨0, 0, 0, 0, 0, none⟩⟩

theorem mem_walls (g : Wavy) (w : Wall) : w ∈ g.walls ↔ w ∈ (shape g).walls := by
  unfold Wavy.walls McGuide.Guide.walls shape
  simp only [List.mem_cons, List.not_mem_nil, or_false]
  tauto

theorem inside_iff (g : Wavy) (r : V3 ℝ) : (shape g).Inside r ↔ g.Inside r := Iff.rfl

theorem next_none {g : Wavy} {e : Event ℝ} (h : g.next e = none) {w : Wall} (hw : w ∈ g.walls) (hv : w.n.dot e.v < 0) :
    g.toExit e ≤ (w.time e : EReal) := by
  obtain ⟨-, h2, h3⟩ := nearest e g.walls (g.toExit e) none
  unfold Wavy.next at h
  rcases h3 with h3 | ⟨w', a, b, c, d⟩
  · have := h2 w hw hv
    rwa [h3] at this
  · rw [d] at h; cases h

theorem next_some {g : Wavy} {e : Event ℝ} {t : ℝ} {w : Wall} (h : g.next e = some (t, w)) :
    w ∈ g.walls ∧ w.n.dot e.v < 0 ∧ t = w.time e ∧ (t : EReal) < g.toExit e ∧ ∀ w' ∈ g.walls, w'.n.dot e.v < 0 → t ≤ w'.time e := by
  obtain ⟨-, h2, h3⟩ := nearest e g.walls (g.toExit e) none
  unfold Wavy.next at h
  rcases h3 with h3 | ⟨w', a, b, c, d⟩
  · rw [h3] at h; cases h
  · rw [d] at h
    cases h
    refine ⟨a, b, rfl, c, fun w' hw' hv => ?_⟩
    have := h2 w' hw' hv
    rw [d] at this
    exact EReal.coe_le_coe_iff.1 this

theorem side_of {g : Wavy} (hl : 0 < g.l) {w : Wall} (hw : w ∈ g.walls) {r : V3 ℝ} (h : w.at r = 0) (dz dxy : ℝ) :
    g.Side ((1 / g.l) • w.n) (g.case w dz dxy).1 r := by
  have hl' := hl.ne'
  unfold Wavy.Side Wavy.halfW Wavy.halfH
  unfold Wavy.walls at hw
  simp only [List.mem_cons, List.not_mem_nil, or_false] at hw
  have key : ∀ a b x z : ℝ, (g.l * x + 0.5 * (b - a) * z + 0.5 * a * g.l = 0 → x = -((a + (b - a) * (z / g.l)) / 2)) := by
    intro a b x z h
    have : g.l * x + 0.5 * (b - a) * z + 0.5 * a * g.l = g.l * (x + (a + (b - a) * (z / g.l)) / 2) := by
      field_simp; ring
    rw [this] at h
    have := (mul_eq_zero.1 h).resolve_left hl'
    linarith
  have hn : ∀ a b : ℝ, 1 / g.l * (0.5 * (b - a)) = (b - a) / (2 * g.l) := by intro a b; field_simp; ring
  rcases hw with rfl | rfl | rfl | rfl <;> simp only [Wall.at, V3.dot] at h
  · refine .inl ⟨by linarith [key g.w1 g.w2 (-r.x) r.z (by linarith)], ?_, ?_⟩
    · ext
      · simp [hl']
      · simp
      · exact hn _ _
    · simp [Wavy.case, hl]
  · refine .inr (.inl ⟨key _ _ _ _ (by linarith), ?_, ?_⟩)
    · ext
      · simp [hl']
      · simp
      · exact hn _ _
    · simp [Wavy.case, hl, hl.le, not_lt.2 hl.le]
  · refine .inr (.inr (.inl ⟨by linarith [key g.h1 g.h2 (-r.y) r.z (by linarith)], ?_, ?_⟩))
    · ext
      · simp
      · simp [hl']
      · exact hn _ _
    · simp [Wavy.case, hl]
  · refine .inr (.inr (.inr ⟨key _ _ _ _ (by linarith), ?_, ?_⟩))
    · ext
      · simp
      · simp [hl']
      · exact hn _ _
    · simp [Wavy.case, hl, hl.le, not_lt.2 hl.le]

theorem tilted_of {g : Wavy} (hl : 0 < g.l) {w : Wall} (hw : w ∈ g.walls) (dz dxy : ℝ) :
    Tilted ((1 / g.l) • w.n) dz dxy ((1 / g.l) • (g.case w dz dxy).2) := by
  have hl' := hl.ne'
  unfold Wavy.walls at hw
  simp only [List.mem_cons, List.not_mem_nil, or_false] at hw
  have habs : ∀ x : ℝ, |2 * x| = 2 * |x| := fun x => by rw [abs_mul, abs_two]
  have habs' : ∀ x : ℝ, |-(2 * x)| = 2 * |x| := fun x => by rw [abs_neg, habs]
  rcases hw with rfl | rfl | rfl | rfl
  · have hc : (g.case ⟨⟨-g.l, 0, 0.5 * (g.w2 - g.w1)⟩, 0.5 * g.w1 * g.l⟩ dz dxy).2 =
        ⟨-g.l + 0.5 * (g.w2 - g.w1) * dz, g.l * dxy, 0.5 * (g.w2 - g.w1) - g.l * dz⟩ := by simp [Wavy.case, hl]
    rw [hc]
    refine ⟨⟨1 / g.l * (0.5 * (g.w2 - g.w1)), 0, -1⟩, ⟨0, 1, 0⟩, ?_, ?_, ?_, ?_, ?_, rfl, ?_⟩
    · ext <;> simp <;> field_simp
      ring
    · simp only [V3.dot, V3.smul_x, V3.smul_y, V3.smul_z]; field_simp; ring
    · simp only [V3.dot, V3.smul_x, V3.smul_y, V3.smul_z]
      rw [← habs']; congr 1; field_simp; ring
    all_goals simp [V3.dot]
  · have hc : (g.case ⟨⟨g.l, 0, 0.5 * (g.w2 - g.w1)⟩, 0.5 * g.w1 * g.l⟩ dz dxy).2 =
        ⟨g.l + 0.5 * (g.w2 - g.w1) * dz, -g.l * dxy, 0.5 * (g.w2 - g.w1) + g.l * dz⟩ := by simp [Wavy.case, hl, not_lt.2 hl.le]
    rw [hc]
    refine ⟨⟨1 / g.l * (0.5 * (g.w2 - g.w1)), 0, 1⟩, ⟨0, -1, 0⟩, ?_, ?_, ?_, ?_, ?_, rfl, ?_⟩
    · ext <;> simp <;> field_simp
    · simp only [V3.dot, V3.smul_x, V3.smul_y, V3.smul_z]; field_simp; ring
    · simp only [V3.dot, V3.smul_x, V3.smul_y, V3.smul_z]
      rw [← habs]; congr 1; field_simp; ring
    all_goals simp [V3.dot]
  · have hc : (g.case ⟨⟨0, -g.l, 0.5 * (g.h2 - g.h1)⟩, 0.5 * g.h1 * g.l⟩ dz dxy).2 =
        ⟨g.l * dxy, -g.l + 0.5 * (g.h2 - g.h1) * dz, 0.5 * (g.h2 - g.h1) - g.l * dz⟩ := by simp [Wavy.case, hl]
    rw [hc]
    refine ⟨⟨0, 1 / g.l * (0.5 * (g.h2 - g.h1)), -1⟩, ⟨1, 0, 0⟩, ?_, ?_, ?_, ?_, ?_, rfl, ?_⟩
    · ext <;> simp <;> field_simp
      ring
    · simp only [V3.dot, V3.smul_x, V3.smul_y, V3.smul_z]; field_simp; ring
    · simp only [V3.dot, V3.smul_x, V3.smul_y, V3.smul_z]
      rw [← habs']; congr 1; field_simp; ring
    all_goals simp [V3.dot]
  · have hc : (g.case ⟨⟨0, g.l, 0.5 * (g.h2 - g.h1)⟩, 0.5 * g.h1 * g.l⟩ dz dxy).2 =
        ⟨-g.l * dxy, g.l + 0.5 * (g.h2 - g.h1) * dz, 0.5 * (g.h2 - g.h1) + g.l * dz⟩ := by simp [Wavy.case, hl, not_lt.2 hl.le]
    rw [hc]
    refine ⟨⟨0, 1 / g.l * (0.5 * (g.h2 - g.h1)), 1⟩, ⟨-1, 0, 0⟩, ?_, ?_, ?_, ?_, ?_, rfl, ?_⟩
    · ext <;> simp <;> field_simp
    · simp only [V3.dot, V3.smul_x, V3.smul_y, V3.smul_z]; field_simp; ring
    · simp only [V3.dot, V3.smul_x, V3.smul_y, V3.smul_z]
      rw [← habs]; congr 1; field_simp; ring
    all_goals simp [V3.dot]

theorem dot_pos {n : V3 ℝ} (h : n ≠ 0) : 0 < n.dot n := by
  by_contra hc
  apply h
  simp only [V3.dot] at hc
  have hx := mul_self_nonneg n.x
  have hy := mul_self_nonneg n.y
  have hz := mul_self_nonneg n.z
  ext
  · exact mul_self_eq_zero.1 (by linarith)
  · exact mul_self_eq_zero.1 (by linarith)
  · exact mul_self_eq_zero.1 (by linarith)

theorem kick_mirrored {n : V3 ℝ} {k : ℝ} (hk : 0 < k) (v : V3 ℝ) (h : k • n ≠ 0) : Mirrored (k • n) v (v + (kick n v).2) := by
  have hn : n ≠ 0 := fun h0 => h (by rw [h0]; ext <;> simp)
  have hp := dot_pos hn
  refine ⟨⟨-2 * v.dot n / n.dot n / k, ?_⟩, ?_⟩
  · unfold kick
    ext <;> simp <;> field_simp
  · have : (v + (kick n v).2).dot (k • n) = k * (v.dot n + -2 * v.dot n / n.dot n * n.dot n) := by
      simp only [kick, V3.dot, V3.add_x, V3.add_y, V3.add_z, V3.smul_x, V3.smul_y, V3.smul_z]; ring
    rw [this, div_mul_cancel₀ _ hp.ne']
    simp only [V3.dot, V3.smul_x, V3.smul_y, V3.smul_z]; ring

theorem kick_q (n v : V3 ℝ) : (kick n v).1 = V2K * length (v + (kick n v).2 - v) := by
  have hd : v + (kick n v).2 - v = (kick n v).2 := by ext <;> simp
  rw [hd, length_eq]
  unfold kick
  simp only
  have : ((-2 * v.dot n / n.dot n) • n).dot ((-2 * v.dot n / n.dot n) • n) = (-2 * v.dot n / n.dot n) ^ 2 * n.dot n := by
    simp only [V3.dot, V3.smul_x, V3.smul_y, V3.smul_z]; ring
  rw [this, Real.sqrt_mul (sq_nonneg _), Real.sqrt_sq_eq_abs, abs_div, abs_mul, abs_neg, abs_two]
  by_cases h : n.dot n = 0
  · simp [h]
  · have h0 : 0 ≤ n.dot n := by simp only [V3.dot]; nlinarith [mul_self_nonneg n.x, mul_self_nonneg n.y, mul_self_nonneg n.z]
    have h1 : 0 < n.dot n := lt_of_le_of_ne h0 (Ne.symm h)
    rw [abs_of_pos h1]
    have h2 := Real.sq_sqrt h0
    have h3 : 0 < √(n.dot n) := Real.sqrt_pos.2 h1
    have h4 : 2 * |v.dot n| / n.dot n * √(n.dot n) = 2 * |v.dot n| / √(n.dot n) := by
      rw [div_mul_eq_mul_div, div_eq_div_iff h h3.ne', mul_assoc, Real.mul_self_sqrt h0]
    rw [h4]; ring

theorem spread_eq (f u : ℝ) : DEG2RAD * (f / √(8 * Real.log 2)) * u = spread f u := by
  unfold spread DEG2RAD
  have h8 : √(8 * Real.log 2) = 2 * √(2 * Real.log 2) := by
    have : (8 : ℝ) * Real.log 2 = 2 ^ 2 * (2 * Real.log 2) := by ring
    rw [this, Real.sqrt_mul (by norm_num), Real.sqrt_sq (by norm_num)]
  rw [h8]; ring

/-- one turn of the loop -/
theorem next_meets {g : Wavy} (hl : 0 < g.l) {e : Event ℝ} (hin : g.Inside e.r) (hz : e.r.z < g.l) {t : ℝ} {w : Wall}
    (h : g.next e = some (t, w)) (u : ℝ × ℝ) (c : Coating) (n : V3 ℝ) (hc : g.case w (DEG2RAD * g.etaZ * u.1) (DEG2RAD * g.etaXY * u.2) = (c, n)) :
    0 ≤ t ∧ g.Meets u e t ((1 / g.l) • w.n) ((1 / g.l) • n) (e.v + (kick n e.v).2) (c.R (kick n e.v).1) ∧ g.Inside (flown Off e t).r ∧
      (flown Off e t).r.z < g.l := by
  obtain ⟨hw, hv, ht, hx, hmin⟩ := next_some h
  have hl2 : 0 < (shape g).l := hl
  have hin' := (McGuide.inside_iff hl2 _).1 hin
  have ht0 : 0 ≤ t := ht ▸ time_nonneg (hin' w ((mem_walls g w).1 hw)) hv
  have hz0 : 0 ≤ e.v.z := by
    by_contra hn
    push Not at hn
    unfold Wavy.toExit at hx
    rw [if_neg hn.ne, EReal.coe_lt_coe_iff] at hx
    have : (g.l - e.r.z) / e.v.z ≤ 0 := div_nonpos_of_nonneg_of_nonpos (by linarith) hn.le
    linarith
  have hzt : ∀ τ, 0 ≤ τ → τ ≤ t → (flown Off e τ).r.z < g.l := by
    intro τ h0 h1
    rw [off_r]
    simp only [V3.add_z, V3.smul_z]
    rcases hz0.eq_or_lt with h2 | h2
    · rw [← h2]; linarith
    · unfold Wavy.toExit at hx
      rw [if_neg h2.ne', EReal.coe_lt_coe_iff, lt_div_iff₀ h2] at hx
      have := mul_le_mul_of_nonneg_right h1 h2.le
      linarith
  have hins : ∀ τ, 0 ≤ τ → τ ≤ t → g.Inside (flown Off e τ).r := by
    intro τ h0 h1
    exact (McGuide.inside_iff hl2 _).2 fun w' hw' => before_wall (hin' w' hw') h0 fun hv' => h1.trans (hmin w' ((mem_walls g w').2 hw') hv')
  refine ⟨ht0, ⟨c, ht0, ?_, ?_, fun τ h0 h1 => ⟨hins τ h0 h1, hzt τ h0 h1⟩, ?_, kick_mirrored (by positivity) _, ?_⟩, hins t ht0 le_rfl, hzt t ht0 le_rfl⟩
  · have := side_of hl hw (r := (flown Off e t).r) (by rw [ht]; exact on_wall hv) (DEG2RAD * g.etaZ * u.1) (DEG2RAD * g.etaXY * u.2)
    rwa [hc] at this
  · have : ((1 / g.l) • w.n).dot e.v = 1 / g.l * w.n.dot e.v := by
      simp only [V3.dot, V3.smul_x, V3.smul_y, V3.smul_z]; ring
    rw [this]
    exact mul_neg_of_pos_of_neg (by positivity) hv
  · have := tilted_of hl hw (DEG2RAD * g.etaZ * u.1) (DEG2RAD * g.etaXY * u.2)
    rw [hc] at this
    unfold Wavy.etaZ Wavy.etaXY at this
    rwa [spread_eq, spread_eq] at this
  · rw [kick_q]

theorem next_leaves {g : Wavy} (hl : 0 < g.l) {e : Event ℝ} (hin : g.Inside e.r) (hz' : e.r.z < g.l) (h : g.next e = none) :
    e.v.z < 0 ∨ ∀ s, 0 ≤ s → (flown Off e s).r.z ≤ g.l → g.Inside (flown Off e s).r := by
  have hl2 : 0 < (shape g).l := hl
  have hin' := (McGuide.inside_iff hl2 _).1 hin
  rcases lt_or_ge e.v.z 0 with hz | hz
  · exact .inl hz
  · refine .inr fun s hs hsl => (McGuide.inside_iff hl2 _).2 fun w hw => before_wall (hin' w hw) hs fun hv => ?_
    have h1 := next_none h ((mem_walls g w).2 hw) hv
    unfold Wavy.toExit at h1
    rw [off_r] at hsl
    simp only [V3.add_z, V3.smul_z] at hsl
    rcases hz.eq_or_lt with h2 | h2
    · rw [if_pos h2.symm, if_pos hz'] at h1
      exact absurd (top_le_iff.1 h1) (EReal.coe_ne_top _)
    · rw [if_neg h2.ne', EReal.coe_le_coe_iff] at h1
      refine le_trans ?_ h1
      rw [le_div_iff₀ h2]; linarith

theorem loop_some {g : Wavy} {e : Event ℝ} {t : ℝ} {w : Wall} {u : ℕ → ℝ × ℝ} {c : Coating} {n : V3 ℝ} (h : g.next e = some (t, w))
    (ht : 0 ≤ t) (hc : g.case w (DEG2RAD * g.etaZ * (u 0).1) (DEG2RAD * g.etaXY * (u 0).2) = (c, n)) (fuel : Nat) :
    g.loop Off (fuel + 1) u e = (c.R (kick n e.v).1).elim (some (stopped (flown Off e t)))
      fun k => g.loop Off fuel (fun i => u (i + 1)) { flown Off e t with v := e.v + (kick n e.v).2, p := e.p * k } := by
  rw [Wavy.loop, h]
  simp only [fly ht, hc, off_v, weight_eq]
  cases c.R (kick n e.v).1 <;> rfl

theorem loop_sound {g : Wavy} (hl : 0 < g.l) : ∀ (fuel : Nat) (u : ℕ → ℝ × ℝ) (e r : Event ℝ), g.Inside e.r → e.r.z < g.l →
    g.loop Off fuel u e = some r → g.Travels u e r
  | 0, u, e, r, _, _, h => by cases h
  | fuel + 1, u, e, r, hin, hz, h => by
    rcases hn : g.next e with _ | ⟨t, w⟩
    · rw [Wavy.loop, hn] at h
      simp only [Option.some.injEq] at h
      subst h
      exact .leaves (next_leaves hl hin hz hn)
    · rcases hc : g.case w (DEG2RAD * g.etaZ * (u 0).1) (DEG2RAD * g.etaXY * (u 0).2) with ⟨c, n⟩
      obtain ⟨h0, h1, h2, h3⟩ := next_meets hl hin hz hn (u 0) c n hc
      rw [loop_some hn h0 hc] at h
      cases hR : c.R (kick n e.v).1 with
      | none =>
        rw [hR] at h h1
        simp only [Option.elim_none, Option.some.injEq] at h
        subst h
        exact .stops h1
      | some k =>
        rw [hR] at h h1
        exact .step h1 (loop_sound hl fuel _ _ r h2 h3 h)

end Verif.McWavy
