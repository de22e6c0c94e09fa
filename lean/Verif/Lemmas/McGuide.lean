import Verif.Spec.McGuide
import Verif.Lemmas.McOptics
/-!
Lemmas for guides, mirrors and monochromators of McStas.
-/

namespace Verif.McGuide
open McStas Kinem Flight Solid Homog McMon McOpt

/-- the value of a wall at a point -/
noncomputable def Wall.at (w : Wall) (r : V3 ℝ) : ℝ := w.n.dot r + w.c

/-- the time until a neutron is on a wall -/
noncomputable def Wall.time (w : Wall) (e : Event ℝ) : ℝ := -w.at e.r / w.n.dot e.v

theorem off_r (e : Event ℝ) (s : ℝ) : (flown Off e s).r = e.r + s • e.v := by
  unfold flown accel Off
  ext <;> simp
theorem off_v (e : Event ℝ) (s : ℝ) : (flown Off e s).v = e.v := by
  unfold flown accel Off
  ext <;> simp

theorem flown_off {G : Gravity} (h : G.on = false) (e : Event ℝ) (s : ℝ) : flown G e s = flown Off e s := by
  unfold flown
  rw [accel_off h, accel_off (G := Off) rfl]

theorem wall_flown (w : Wall) (e : Event ℝ) (s : ℝ) : w.at (flown Off e s).r = w.at e.r + s * w.n.dot e.v := by
  rw [off_r]; simp only [Wall.at, V3.dot, V3.add_x, V3.add_y, V3.add_z, V3.smul_x, V3.smul_y, V3.smul_z]; ring

theorem inside_iff {g : Guide} (hl : 0 < g.l) (r : V3 ℝ) : g.Inside r ↔ ∀ w ∈ g.walls, 0 ≤ w.at r := by
  unfold Guide.Inside Guide.walls Guide.halfW Guide.halfH
  simp only [List.mem_cons, List.not_mem_nil, or_false, forall_eq_or_imp, forall_eq, Wall.at, V3.dot, abs_le]
  have key : ∀ a b x z : ℝ, (0 ≤ g.l * x + 0.5 * (b - a) * z + 0.5 * a * g.l ↔ -((a + (b - a) * (z / g.l)) / 2) ≤ x) := by
    intro a b x z
    have : g.l * x + 0.5 * (b - a) * z + 0.5 * a * g.l = g.l * (x + (a + (b - a) * (z / g.l)) / 2) := by
      field_simp; ring
    rw [this]
    constructor
    · intro h
      have := nonneg_of_mul_nonneg_right h hl
      linarith
    · intro h
      exact mul_nonneg hl.le (by linarith)
  have k1 := key g.w1 g.w2 r.x r.z
  have k2 := key g.w1 g.w2 (-r.x) r.z
  have k3 := key g.h1 g.h2 r.y r.z
  have k4 := key g.h1 g.h2 (-r.y) r.z
  constructor
  · rintro ⟨⟨h1, h2⟩, h3, h4⟩
    exact ⟨by linarith [k1.2 h1], by linarith [k2.2 (by linarith)], by linarith [k3.2 h3], by linarith [k4.2 (by linarith)]⟩
  · rintro ⟨h1, h2, h3, h4⟩
    have := k1.1 (by linarith)
    have := k2.1 (by linarith)
    have := k3.1 (by linarith)
    have := k4.1 (by linarith)
    exact ⟨⟨by linarith, by linarith⟩, by linarith, by linarith⟩

theorem face_of {g : Guide} (hl : 0 < g.l) {w : Wall} (hw : w ∈ g.walls) {r : V3 ℝ} (h : w.at r = 0) : g.Face ((1 / g.l) • w.n) r := by
  have hl' := hl.ne'
  unfold Guide.Face Guide.halfW Guide.halfH
  unfold Guide.walls at hw
  simp only [List.mem_cons, List.not_mem_nil, or_false] at hw
  have key : ∀ a b x z : ℝ, (g.l * x + 0.5 * (b - a) * z + 0.5 * a * g.l = 0 → x = -((a + (b - a) * (z / g.l)) / 2)) := by
    intro a b x z h
    have : g.l * x + 0.5 * (b - a) * z + 0.5 * a * g.l = g.l * (x + (a + (b - a) * (z / g.l)) / 2) := by
      field_simp; ring
    rw [this] at h
    have := (mul_eq_zero.1 h).resolve_left hl'
    linarith
  have hn : ∀ a b : ℝ, 1 / g.l * (0.5 * (b - a)) = (b - a) / (2 * g.l) := by intro a b; field_simp; ring
  rcases hw with rfl | rfl | rfl | rfl <;> simp only [Wall.at, V3.dot] at h
  · refine .inl ⟨key _ _ _ _ (by linarith), ?_⟩
    ext
    · simp [hl']
    · simp
    · exact hn _ _
  · refine .inr (.inl ⟨by linarith [key g.w1 g.w2 (-r.x) r.z (by linarith)], ?_⟩)
    ext
    · simp [hl']
    · simp
    · exact hn _ _
  · refine .inr (.inr (.inl ⟨key _ _ _ _ (by linarith), ?_⟩))
    ext
    · simp
    · simp [hl']
    · exact hn _ _
  · refine .inr (.inr (.inr ⟨by linarith [key g.h1 g.h2 (-r.y) r.z (by linarith)], ?_⟩))
    ext
    · simp
    · simp [hl']
    · exact hn _ _

theorem wall_pos {g : Guide} (hl : 0 < g.l) {w : Wall} (hw : w ∈ g.walls) : 0 < w.n.dot w.n := by
  unfold Guide.walls at hw
  simp only [List.mem_cons, List.not_mem_nil, or_false] at hw
  have := mul_pos hl hl
  rcases hw with rfl | rfl | rfl | rfl <;> simp only [V3.dot] <;> nlinarith [sq_nonneg (0.5 * (g.w2 - g.w1)), sq_nonneg (0.5 * (g.h2 - g.h1))]

theorem nearest (e : Event ℝ) : ∀ (ws : List Wall) (T : EReal) (o : Option (ℝ × Wall)),
    let r := ws.foldl (nearer e) (T, o)
    r.1 ≤ T ∧ (∀ w ∈ ws, w.n.dot e.v < 0 → r.1 ≤ (w.time e : EReal)) ∧
    (r = (T, o) ∨ ∃ w ∈ ws, w.n.dot e.v < 0 ∧ (w.time e : EReal) < T ∧ r = ((w.time e : EReal), some (w.time e, w)))
  | [], T, o => ⟨le_refl _, by simp, .inl rfl⟩
  | w :: ws, T, o => by
    intro r
    by_cases h : w.n.dot e.v < 0 ∧ (w.time e : EReal) < T
    · have hs : nearer e (T, o) w = ((w.time e : EReal), some (w.time e, w)) := if_pos h
      have hr : r = ws.foldl (nearer e) ((w.time e : EReal), some (w.time e, w)) := by
        change List.foldl _ (nearer e (T, o) w) ws = _
        rw [hs]
      obtain ⟨h1, h2, h3⟩ := nearest e ws (w.time e) (some (w.time e, w))
      rw [← hr] at h1 h2 h3
      refine ⟨h1.trans h.2.le, ?_, ?_⟩
      · intro w' hw' hv
        rcases List.mem_cons.1 hw' with rfl | hw'
        · exact h1
        · exact h2 w' hw' hv
      · rcases h3 with h3 | ⟨w', a, b, c, d⟩
        · exact .inr ⟨w, List.mem_cons_self, h.1, h.2, h3⟩
        · exact .inr ⟨w', List.mem_cons_of_mem _ a, b, c.trans h.2, d⟩
    · have hs : nearer e (T, o) w = (T, o) := if_neg h
      have hr : r = ws.foldl (nearer e) (T, o) := by
        change List.foldl _ (nearer e (T, o) w) ws = _
        rw [hs]
      obtain ⟨h1, h2, h3⟩ := nearest e ws T o
      rw [← hr] at h1 h2 h3
      refine ⟨h1, ?_, ?_⟩
      · intro w' hw' hv
        rcases List.mem_cons.1 hw' with rfl | hw'
        · exact h1.trans (not_lt.1 fun hh => h ⟨hv, hh⟩)
        · exact h2 w' hw' hv
      · rcases h3 with h3 | ⟨w', a, b, c, d⟩
        · exact .inl h3
        · exact .inr ⟨w', List.mem_cons_of_mem _ a, b, c, d⟩

theorem next_none {g : Guide} {e : Event ℝ} (h : g.next e = none) {w : Wall} (hw : w ∈ g.walls) (hv : w.n.dot e.v < 0) :
    g.toExit e ≤ (w.time e : EReal) := by
  obtain ⟨-, h2, h3⟩ := nearest e g.walls (g.toExit e) none
  unfold Guide.next at h
  rcases h3 with h3 | ⟨w', a, b, c, d⟩
  · have := h2 w hw hv
    rwa [h3] at this
  · rw [d] at h; cases h

theorem next_some {g : Guide} {e : Event ℝ} {t : ℝ} {w : Wall} (h : g.next e = some (t, w)) :
    w ∈ g.walls ∧ w.n.dot e.v < 0 ∧ t = w.time e ∧ (t : EReal) < g.toExit e ∧ ∀ w' ∈ g.walls, w'.n.dot e.v < 0 → t ≤ w'.time e := by
  obtain ⟨-, h2, h3⟩ := nearest e g.walls (g.toExit e) none
  unfold Guide.next at h
  rcases h3 with h3 | ⟨w', a, b, c, d⟩
  · rw [h3] at h; cases h
  · rw [d] at h
    cases h
    refine ⟨a, b, rfl, c, fun w' hw' hv => ?_⟩
    have := h2 w' hw' hv
    rw [d] at this
    exact EReal.coe_le_coe_iff.1 this

theorem time_nonneg {w : Wall} {e : Event ℝ} (h : 0 ≤ w.at e.r) (hv : w.n.dot e.v < 0) : 0 ≤ w.time e :=
  div_nonneg_of_nonpos (by linarith) hv.le

theorem before_wall {w : Wall} {e : Event ℝ} (h : 0 ≤ w.at e.r) {s : ℝ} (hs : 0 ≤ s) (ht : w.n.dot e.v < 0 → s ≤ w.time e) :
    0 ≤ w.at (flown Off e s).r := by
  rw [wall_flown]
  rcases lt_or_ge (w.n.dot e.v) 0 with hv | hv
  · have h1 := ht hv
    unfold Wall.time at h1
    rw [le_div_iff_of_neg hv] at h1
    linarith
  · have := mul_nonneg hs hv
    linarith

theorem on_wall {w : Wall} {e : Event ℝ} (hv : w.n.dot e.v < 0) : w.at (flown Off e (w.time e)).r = 0 := by
  rw [wall_flown, Wall.time, div_mul_cancel₀ _ hv.ne]; ring

/-- the new velocity is the mirror image -/
theorem bounce_mirrored {w : Wall} (h : 0 < w.n.dot w.n) {k : ℝ} (hk : 0 < k) (v : V3 ℝ) : Mirrored (k • w.n) v (bounce w v).2 := by
  unfold Mirrored bounce
  refine ⟨⟨-(2 * w.n.dot v / w.n.dot w.n) / k, ?_⟩, ?_⟩
  · ext <;> simp <;> field_simp
  · have : (v - (2 * w.n.dot v / w.n.dot w.n) • w.n).dot (k • w.n) =
        k * (v.dot w.n - 2 * w.n.dot v / w.n.dot w.n * w.n.dot w.n) := by
      simp only [V3.dot, V3.sub_x, V3.sub_y, V3.sub_z, V3.smul_x, V3.smul_y, V3.smul_z]; ring
    simp only
    rw [this, div_mul_cancel₀ _ h.ne']
    simp only [V3.dot, V3.smul_x, V3.smul_y, V3.smul_z]; ring

theorem bounce_dot {w : Wall} (h : 0 < w.n.dot w.n) (v : V3 ℝ) : w.n.dot (bounce w v).2 = -w.n.dot v := by
  unfold bounce
  have : w.n.dot (v - (2 * w.n.dot v / w.n.dot w.n) • w.n) = w.n.dot v - 2 * w.n.dot v / w.n.dot w.n * w.n.dot w.n := by
    simp only [V3.dot, V3.sub_x, V3.sub_y, V3.sub_z, V3.smul_x, V3.smul_y, V3.smul_z]; ring
  simp only
  rw [this, div_mul_cancel₀ _ h.ne']; ring

theorem bounce_q {w : Wall} (h : 0 < w.n.dot w.n) {v : V3 ℝ} (hv : w.n.dot v < 0) :
    (bounce w v).1 = V2K * length ((bounce w v).2 - v) := by
  have hd : (bounce w v).2 - v = (-(2 * w.n.dot v / w.n.dot w.n)) • w.n := by
    unfold bounce
    ext <;> simp
  have hs : 0 < √(w.n.dot w.n) := Real.sqrt_pos.2 h
  rw [hd, length_eq]
  have h0 : 0 ≤ -(2 * w.n.dot v / w.n.dot w.n) := by
    rw [← neg_div]; exact div_nonneg (by linarith) h.le
  have : ((-(2 * w.n.dot v / w.n.dot w.n)) • w.n).dot ((-(2 * w.n.dot v / w.n.dot w.n)) • w.n) =
      (-(2 * w.n.dot v / w.n.dot w.n)) ^ 2 * w.n.dot w.n := by
    simp only [V3.dot, V3.smul_x, V3.smul_y, V3.smul_z]; ring
  rw [this, Real.sqrt_mul (sq_nonneg _), Real.sqrt_sq h0]
  unfold bounce
  simp only
  have h2 := Real.mul_self_sqrt h.le
  have : -(2 * w.n.dot v / w.n.dot w.n) * √(w.n.dot w.n) = -(2 * w.n.dot v) / √(w.n.dot w.n) := by
    rw [← neg_div, div_mul_eq_mul_div, div_eq_div_iff h.ne' hs.ne', mul_assoc, h2]
  rw [this]; ring

theorem tanh_logistic (x : ℝ) : 0.5 * (1 - Real.tanh x) = 1 / (1 + Real.exp (2 * x)) := by
  rw [Real.tanh_eq_sinh_div_cosh, Real.sinh_eq, Real.cosh_eq]
  have h1 := Real.exp_pos x
  have h2 := Real.exp_pos (-x)
  have h3 : Real.exp (2 * x) = Real.exp x * Real.exp x := by rw [← Real.exp_add]; ring_nf
  have h4 : Real.exp x * Real.exp (-x) = 1 := by rw [← Real.exp_add]; simp
  have h5 : Real.exp (-x) = 1 / Real.exp x := by field_simp; linarith
  rw [h3, h5]
  field_simp
  ring

theorem weight_eq (c : Coating) (q : ℝ) : c.weight q = c.R q := by
  unfold Coating.weight Coating.R
  split
  · rfl
  · cases ht : c.table with
    | some f => rfl
    | none =>
      by_cases h : q > c.Qc
      · rw [if_pos h, if_neg (not_le.2 h)]
        simp only
        by_cases h2 : (q - c.m * c.Qc) / c.W < 10
        · rw [if_pos h2, if_neg (not_le.2 h2), tanh_logistic]
          congr 1; ring
        · rw [if_neg h2, if_pos (not_lt.1 h2)]
      · rw [if_neg h, if_pos (not_lt.1 h), one_mul]

/-- one turn of the loop is a reflection -/
theorem next_hit {g : Guide} (hl : 0 < g.l) {e : Event ℝ} (hin : g.Inside e.r) (hz : e.r.z < g.l) {t : ℝ} {w : Wall}
    (h : g.next e = some (t, w)) :
    0 ≤ t ∧ 0 ≤ e.v.z ∧ g.Hit e { flown Off e t with v := (bounce w e.v).2 } (bounce w e.v).1 ∧ g.Inside (flown Off e t).r ∧
      (flown Off e t).r.z < g.l := by
  obtain ⟨hw, hv, ht, hx, hmin⟩ := next_some h
  have hin' := (inside_iff hl _).1 hin
  have ht0 : 0 ≤ t := ht ▸ time_nonneg (hin' w hw) hv
  have hz0 : 0 ≤ e.v.z := by
    by_contra hn
    push Not at hn
    unfold Guide.toExit at hx
    rw [if_neg hn.ne, EReal.coe_lt_coe_iff] at hx
    have : (g.l - e.r.z) / e.v.z ≤ 0 := div_nonpos_of_nonneg_of_nonpos (by linarith) hn.le
    linarith
  have hzt : ∀ τ, 0 ≤ τ → τ ≤ t → (flown Off e τ).r.z < g.l := by
    intro τ h0 h1
    rw [off_r]
    simp only [V3.add_z, V3.smul_z]
    rcases hz0.eq_or_lt with h2 | h2
    · rw [← h2]; linarith
    · unfold Guide.toExit at hx
      rw [if_neg h2.ne', EReal.coe_lt_coe_iff, lt_div_iff₀ h2] at hx
      have := mul_le_mul_of_nonneg_right h1 h2.le
      linarith
  have hins : ∀ τ, 0 ≤ τ → τ ≤ t → g.Inside (flown Off e τ).r := by
    intro τ h0 h1
    exact (inside_iff hl _).2 fun w' hw' => before_wall (hin' w' hw') h0 fun hv' => h1.trans (hmin w' hw' hv')
  refine ⟨ht0, hz0, ⟨t, (1 / g.l) • w.n, ht0, ?_, ?_, fun τ h0 h1 => ⟨hins τ h0 h1, hzt τ h0 h1⟩, ?_, rfl, ?_⟩, hins t ht0 le_rfl, hzt t ht0 le_rfl⟩
  · exact face_of hl hw (by rw [ht]; exact on_wall hv)
  · have : ((1 / g.l) • w.n).dot e.v = 1 / g.l * w.n.dot e.v := by
      simp only [V3.dot, V3.smul_x, V3.smul_y, V3.smul_z]; ring
    rw [this]
    exact mul_neg_of_pos_of_neg (by positivity) hv
  · exact bounce_mirrored (wall_pos hl hw) (by positivity) _
  · exact bounce_q (wall_pos hl hw) hv

theorem next_leaves {g : Guide} (hl : 0 < g.l) {e : Event ℝ} (hin : g.Inside e.r) (hz' : e.r.z < g.l) (h : g.next e = none) :
    g.Leaves e := by
  have hin' := (inside_iff hl _).1 hin
  rcases lt_or_ge e.v.z 0 with hz | hz
  · exact .inl hz
  · refine .inr fun s hs hsl => (inside_iff hl _).2 fun w hw => before_wall (hin' w hw) hs fun hv => ?_
    have h1 := next_none h hw hv
    unfold Guide.toExit at h1
    rw [off_r] at hsl
    simp only [V3.add_z, V3.smul_z] at hsl
    rcases hz.eq_or_lt with h2 | h2
    · rw [if_pos h2.symm, if_pos hz'] at h1
      exact absurd (top_le_iff.1 h1) (EReal.coe_ne_top _)
    · rw [if_neg h2.ne', EReal.coe_le_coe_iff] at h1
      refine le_trans ?_ h1
      rw [le_div_iff₀ h2]; linarith

theorem guideLoop_some {g : Guide} {G : Gravity} {e : Event ℝ} {t : ℝ} {w : Wall} (hG : G.on = false) (h : g.next e = some (t, w))
    (ht : 0 ≤ t) (fuel : Nat) :
    guideLoop g G (fuel + 1) e = match g.coat.R (bounce w e.v).1 with
      | none => some (stopped { flown Off e t with v := (bounce w e.v).2 })
      | some k => guideLoop g G fuel { flown Off e t with v := (bounce w e.v).2, p := e.p * k } := by
  rw [guideLoop, h]
  simp only [fly ht, flown_off hG, off_v, weight_eq]
  cases g.coat.R (bounce w e.v).1 <;> rfl

theorem guideLoop_none {g : Guide} {G : Gravity} {e : Event ℝ} (h : g.next e = none) (fuel : Nat) :
    guideLoop g G (fuel + 1) e = some e := by rw [guideLoop, h]

theorem loop_sound {g : Guide} {G : Gravity} (hG : G.on = false) (hl : 0 < g.l) : ∀ (fuel : Nat) (e r : Event ℝ), g.Inside e.r →
    e.r.z < g.l → guideLoop g G fuel e = some r → ∃ b, Relation.ReflTransGen g.Step e b ∧ g.Ends b r
  | 0, e, r, _, _, h => by cases h
  | fuel + 1, e, r, hin, hz, h => by
    cases hn : g.next e with
    | none =>
      rw [guideLoop_none hn] at h
      cases h
      exact ⟨_, .refl, .inl ⟨next_leaves hl hin hz hn, rfl⟩⟩
    | some tw =>
      obtain ⟨t, w⟩ := tw
      obtain ⟨h0, -, h1, h2, h3⟩ := next_hit hl hin hz hn
      rw [guideLoop_some hG hn h0] at h
      cases hR : g.coat.R (bounce w e.v).1 with
      | none =>
        rw [hR] at h
        cases h
        exact ⟨e, .refl, .inr ⟨_, _, h1, hR, rfl⟩⟩
      | some k =>
        rw [hR] at h
        obtain ⟨b, hb, hr⟩ := loop_sound hG hl fuel { flown Off e t with v := (bounce w e.v).2, p := e.p * k } r h2 h3 h
        exact ⟨b, .head ⟨_, _, k, h1, hR, rfl⟩ hb, hr⟩

/-- the distance from the wall behind a neutron between walls at `-a` and `a` -/
noncomputable def behind (a x v : ℝ) : ℝ := if v < 0 then a - x else x + a

/-- the number of reflections to come, in units of the width and not rounded -/
noncomputable def Guide.todo (g : Guide) (e : Event ℝ) : ℝ :=
  ((g.l - e.r.z) / e.v.z * |e.v.x| + behind (g.w1 / 2) e.r.x e.v.x) / g.w1 +
  ((g.l - e.r.z) / e.v.z * |e.v.y| + behind (g.h1 / 2) e.r.y e.v.y) / g.h1

theorem behind_fly (a x v s : ℝ) : behind a (x + s * v) v = behind a x v + s * |v| := by
  unfold behind
  split
  · next h => rw [abs_of_neg h]; ring
  · next h => rw [abs_of_nonneg (not_lt.1 h)]; ring

theorem behind_le {a x v : ℝ} (h : |x| ≤ a) : 0 ≤ behind a x v ∧ behind a x v ≤ 2 * a := by
  unfold behind
  rw [abs_le] at h
  split <;> constructor <;> linarith

/-- in a straight guide every reflection reduces the number of reflections to come by 1 -/
theorem todo_step {g : Guide} (hl : 0 < g.l) (hw : 0 < g.w1) (hh : 0 < g.h1) (h2 : g.w2 = g.w1) (h3 : g.h2 = g.h1) {e : Event ℝ}
    (hv : 0 < e.v.z) {t : ℝ} {w : Wall} (h : g.next e = some (t, w)) (k : ℝ) :
    (bounce w e.v).2.z = e.v.z ∧
    g.todo { flown Off e t with v := (bounce w e.v).2, p := e.p * k } = g.todo e - 1 := by
  obtain ⟨hwm, hvn, rfl, -, -⟩ := next_some h
  have hon := on_wall hvn
  have hwm' := hwm
  unfold Guide.walls at hwm
  simp only [h2, h3, sub_self, mul_zero, List.mem_cons, List.not_mem_nil, or_false] at hwm
  have hT : ∀ s, (g.l - (e.r.z + s * e.v.z)) / e.v.z = (g.l - e.r.z) / e.v.z - s := by intro s; field_simp; ring
  set s := w.time e with hs
  rw [off_r] at hon
  have hx : ∀ a, behind a (e.r.x + s * e.v.x) e.v.x = behind a e.r.x e.v.x + s * |e.v.x| := fun a => behind_fly a _ _ _
  have hy : ∀ a, behind a (e.r.y + s * e.v.y) e.v.y = behind a e.r.y e.v.y + s * |e.v.y| := fun a => behind_fly a _ _ _
  have hb : (bounce w e.v).2 = e.v - (2 * w.n.dot e.v / w.n.dot w.n) • w.n := rfl
  unfold Guide.todo
  simp only [off_r, V3.add_x, V3.add_y, V3.add_z, V3.smul_x, V3.smul_y, V3.smul_z]
  rcases hwm with rfl | rfl | rfl | rfl <;>
    simp only [Wall.at, V3.dot, V3.add_x, V3.add_y, V3.add_z, V3.smul_x, V3.smul_y, V3.smul_z, mul_zero, zero_mul, add_zero, zero_add] at hon hvn hb
  · have h4 : e.v.x < 0 := by nlinarith
    have h5 : (bounce ⟨⟨g.l, 0, 0⟩, 0.5 * g.w1 * g.l⟩ e.v).2 = ⟨-e.v.x, e.v.y, e.v.z⟩ := by
      rw [hb]
      ext <;> simp
      field_simp; ring
    have h6 : e.r.x + s * e.v.x = -(g.w1 / 2) := by
      have : g.l * (e.r.x + s * e.v.x + g.w1 / 2) = 0 := by linarith
      linarith [(mul_eq_zero.1 this).resolve_left hl.ne']
    rw [h5]
    refine ⟨rfl, ?_⟩
    simp only [hT, hy, h6, abs_neg]
    have h7 : behind (g.w1 / 2) (-(g.w1 / 2)) (-e.v.x) = 0 := by
      unfold behind; rw [if_neg (by linarith)]; ring
    have h8 : behind (g.w1 / 2) e.r.x e.v.x = g.w1 - s * |e.v.x| := by
      unfold behind; rw [if_pos h4, abs_of_neg h4]; linarith
    rw [h7, h8]
    field_simp
    ring
  · have h4 : 0 < e.v.x := by nlinarith
    have h5 : (bounce ⟨⟨-g.l, 0, 0⟩, 0.5 * g.w1 * g.l⟩ e.v).2 = ⟨-e.v.x, e.v.y, e.v.z⟩ := by
      rw [hb]
      ext <;> simp
      field_simp; ring
    have h6 : e.r.x + s * e.v.x = g.w1 / 2 := by
      have : g.l * (e.r.x + s * e.v.x - g.w1 / 2) = 0 := by linarith
      linarith [(mul_eq_zero.1 this).resolve_left hl.ne']
    rw [h5]
    refine ⟨rfl, ?_⟩
    simp only [hT, hy, h6, abs_neg]
    have h7 : behind (g.w1 / 2) (g.w1 / 2) (-e.v.x) = 0 := by
      unfold behind; rw [if_pos (by linarith)]; ring
    have h8 : behind (g.w1 / 2) e.r.x e.v.x = g.w1 - s * |e.v.x| := by
      unfold behind; rw [if_neg h4.not_gt, abs_of_pos h4]; linarith
    rw [h7, h8]
    field_simp
    ring
  · have h4 : e.v.y < 0 := by nlinarith
    have h5 : (bounce ⟨⟨0, g.l, 0⟩, 0.5 * g.h1 * g.l⟩ e.v).2 = ⟨e.v.x, -e.v.y, e.v.z⟩ := by
      rw [hb]
      ext <;> simp
      field_simp; ring
    have h6 : e.r.y + s * e.v.y = -(g.h1 / 2) := by
      have : g.l * (e.r.y + s * e.v.y + g.h1 / 2) = 0 := by linarith
      linarith [(mul_eq_zero.1 this).resolve_left hl.ne']
    rw [h5]
    refine ⟨rfl, ?_⟩
    simp only [hT, hx, h6, abs_neg]
    have h7 : behind (g.h1 / 2) (-(g.h1 / 2)) (-e.v.y) = 0 := by
      unfold behind; rw [if_neg (by linarith)]; ring
    have h8 : behind (g.h1 / 2) e.r.y e.v.y = g.h1 - s * |e.v.y| := by
      unfold behind; rw [if_pos h4, abs_of_neg h4]; linarith
    rw [h7, h8]
    field_simp
    ring
  · have h4 : 0 < e.v.y := by nlinarith
    have h5 : (bounce ⟨⟨0, -g.l, 0⟩, 0.5 * g.h1 * g.l⟩ e.v).2 = ⟨e.v.x, -e.v.y, e.v.z⟩ := by
      rw [hb]
      ext <;> simp
      field_simp; ring
    have h6 : e.r.y + s * e.v.y = g.h1 / 2 := by
      have : g.l * (e.r.y + s * e.v.y - g.h1 / 2) = 0 := by linarith
      linarith [(mul_eq_zero.1 this).resolve_left hl.ne']
    rw [h5]
    refine ⟨rfl, ?_⟩
    simp only [hT, hx, h6, abs_neg]
    have h7 : behind (g.h1 / 2) (g.h1 / 2) (-e.v.y) = 0 := by
      unfold behind; rw [if_pos (by linarith)]; ring
    have h8 : behind (g.h1 / 2) e.r.y e.v.y = g.h1 - s * |e.v.y| := by
      unfold behind; rw [if_neg h4.not_gt, abs_of_pos h4]; linarith
    rw [h7, h8]
    field_simp
    ring

theorem straight_inside {g : Guide} (h2 : g.w2 = g.w1) (h3 : g.h2 = g.h1) (r : V3 ℝ) :
    g.Inside r ↔ |r.x| ≤ g.w1 / 2 ∧ |r.y| ≤ g.h1 / 2 := by
  unfold Guide.Inside Guide.halfW Guide.halfH
  rw [h2, h3]
  simp

theorem todo_nonneg {g : Guide} (hw : 0 < g.w1) (hh : 0 < g.h1) {e : Event ℝ} (hv : 0 < e.v.z) (hz : e.r.z < g.l)
    (hx : |e.r.x| ≤ g.w1 / 2) (hy : |e.r.y| ≤ g.h1 / 2) : 0 ≤ g.todo e := by
  unfold Guide.todo
  have h1 := (behind_le (v := e.v.x) hx).1
  have h2 := (behind_le (v := e.v.y) hy).1
  have h3 : 0 ≤ (g.l - e.r.z) / e.v.z := div_nonneg (by linarith) hv.le
  positivity

theorem todo_le {g : Guide} (hw : 0 < g.w1) (hh : 0 < g.h1) {e : Event ℝ}
    (hx : |e.r.x| ≤ g.w1 / 2) (hy : |e.r.y| ≤ g.h1 / 2) :
    g.todo e ≤ (g.l - e.r.z) / e.v.z * (|e.v.x| / g.w1 + |e.v.y| / g.h1) + 2 := by
  unfold Guide.todo
  have h1 := (behind_le (v := e.v.x) hx).2
  have h2 := (behind_le (v := e.v.y) hy).2
  have h3 : behind (g.w1 / 2) e.r.x e.v.x / g.w1 ≤ 1 := by rw [div_le_one hw]; linarith
  have h4 : behind (g.h1 / 2) e.r.y e.v.y / g.h1 ≤ 1 := by rw [div_le_one hh]; linarith
  rw [add_div, add_div]
  have : (g.l - e.r.z) / e.v.z * (|e.v.x| / g.w1 + |e.v.y| / g.h1) =
    (g.l - e.r.z) / e.v.z * |e.v.x| / g.w1 + (g.l - e.r.z) / e.v.z * |e.v.y| / g.h1 := by ring
  linarith

theorem loop_ends {g : Guide} {G : Gravity} (hG : G.on = false) (hl : 0 < g.l) (hw : 0 < g.w1) (hh : 0 < g.h1) (h2 : g.w2 = g.w1)
    (h3 : g.h2 = g.h1) : ∀ (fuel : Nat) (e : Event ℝ), g.Inside e.r → e.r.z < g.l → 0 < e.v.z → g.todo e < fuel →
    ∃ r, guideLoop g G fuel e = some r
  | 0, e, hin, hz, hv, h => by
    have hin' := (straight_inside h2 h3 _).1 hin
    have := todo_nonneg hw hh hv hz hin'.1 hin'.2
    simp only [Nat.cast_zero] at h
    linarith
  | fuel + 1, e, hin, hz, hv, h => by
    cases hn : g.next e with
    | none => exact ⟨e, guideLoop_none hn _⟩
    | some tw =>
      obtain ⟨t, w⟩ := tw
      obtain ⟨h0, -, -, h5, h6⟩ := next_hit hl hin hz hn
      rw [guideLoop_some hG hn h0]
      cases g.coat.R (bounce w e.v).1 with
      | none => exact ⟨_, rfl⟩
      | some k =>
        obtain ⟨h7, h8⟩ := todo_step hl hw hh h2 h3 hv hn k
        refine loop_ends hG hl hw hh h2 h3 fuel _ h5 h6 ?_ ?_
        · rw [h7]; exact hv
        · rw [h8]; push_cast at h; linarith

/-! ### a neutron that does not move along the guide -/

/-- a straight guide of the width and height 1 and the length 1 with the default coating -/
noncomputable def unitGuide : Guide := ⟨1, 1, 1, 1, 1, ⟨0.99, 0.0219, 6.07, 2, 0.003, none⟩⟩

theorem R_low {c : Coating} (hm : c.m ≠ 0) (ht : c.table = none) {q : ℝ} (h : q ≤ c.Qc) : c.R q = some c.R0 := by
  unfold Coating.R
  rw [if_neg hm, ht]
  exact if_pos h

theorem forever {G : Gravity} (hG : G.on = false) : ∀ (fuel : Nat) (e : Event ℝ), |e.r.x| ≤ 1 / 2 → e.r.y = 0 → e.r.z < 1 →
    (e.v = ⟨1, 0, 0⟩ ∨ e.v = ⟨-1, 0, 0⟩) → guideLoop unitGuide G fuel e = none
  | 0, _, _, _, _, _ => rfl
  | fuel + 1, e, hx, hy, hz, hv => by
    have hin : unitGuide.Inside e.r :=
      (straight_inside rfl rfl _).2 ⟨by simpa [unitGuide] using hx, by rw [hy]; simp [unitGuide]⟩
    have hT : unitGuide.toExit e = ⊤ := by
      unfold Guide.toExit
      have : e.v.z = 0 := by rcases hv with h | h <;> rw [h]
      rw [if_pos this]
      exact if_pos hz
    cases hn : unitGuide.next e with
    | none =>
      exfalso
      rcases hv with h | h
      · have := next_none hn (w := ⟨⟨-1, 0, 0.5 * (1 - 1)⟩, 0.5 * 1 * 1⟩) (by simp [Guide.walls, unitGuide]) (by rw [h]; simp [V3.dot])
        rw [hT] at this
        exact absurd (top_le_iff.1 this) (EReal.coe_ne_top _)
      · have := next_none hn (w := ⟨⟨1, 0, 0.5 * (1 - 1)⟩, 0.5 * 1 * 1⟩) (by simp [Guide.walls, unitGuide]) (by rw [h]; simp [V3.dot])
        rw [hT] at this
        exact absurd (top_le_iff.1 this) (EReal.coe_ne_top _)
    | some tw =>
      obtain ⟨t, w⟩ := tw
      obtain ⟨h0, -, -, h5, h6⟩ := next_hit (by norm_num [unitGuide]) hin hz hn
      obtain ⟨hw, hvn, -, -, -⟩ := next_some hn
      have h7 : (flown Off e t).r.y = 0 := by
        rw [off_r]
        rcases hv with h | h <;> simp [h, hy]
      have h8 := (straight_inside rfl rfl _).1 h5
      have hb : ((bounce w e.v).2 = ⟨1, 0, 0⟩ ∨ (bounce w e.v).2 = ⟨-1, 0, 0⟩) ∧ (bounce w e.v).1 = 2 * V2K := by
        unfold Guide.walls unitGuide at hw
        simp only [sub_self, mul_zero, List.mem_cons, List.not_mem_nil, or_false, mul_one] at hw
        rcases hv with h | h <;> rw [h] at hvn ⊢ <;> rcases hw with rfl | rfl | rfl | rfl <;>
          first
            | (exfalso; revert hvn; norm_num [V3.dot]; done)
            | (constructor
               · first
                   | (left; ext <;> norm_num [bounce, V3.dot]; done)
                   | (right; ext <;> norm_num [bounce, V3.dot]; done)
               · norm_num [bounce, V3.dot]; ring)
      rw [guideLoop_some hG hn h0, R_low (by norm_num [unitGuide]) rfl (by rw [hb.2]; norm_num [unitGuide, V2K])]
      exact forever hG fuel _ (by simpa [unitGuide] using h8.1) h7 h6 hb.1

/-! ### single mirrors -/

theorem clipped_eq {c : Coating} (hm : c.m ≠ 0) (q : ℝ) : c.clipped q = c.unit q := by
  have h : ∀ B : ℝ, (if B < 0 then 0 else if B > 1 then 1 else B) = max 0 (min 1 B) := by
    intro B
    split
    · next h => rw [min_eq_right (by linarith), max_eq_left h.le]
    · next h =>
      split
      · next h2 => rw [min_eq_left h2.le]; simp
      · next h2 => rw [min_eq_right (not_lt.1 h2), max_eq_right (not_lt.1 h)]
  unfold Coating.clipped
  simp only
  rw [h, Coating.unit, ← weight_eq, Coating.weight, if_neg hm]
  congr 2
  cases ht : c.table with
  | some f => rfl
  | none =>
    simp only
    split
    · split
      · simp only [Option.getD_some]; ring
      · rfl
    · simp

theorem unit_mem (c : Coating) (q : ℝ) : 0 ≤ c.unit q ∧ c.unit q ≤ 1 := by
  unfold Coating.unit
  exact ⟨le_max_left _ _, max_le (by norm_num) (min_le_left _ _)⟩

/-- the reflectivity is between 0 and `R0` -/
theorem R_mem {c : Coating} (ht : c.table = none) (h0 : 0 ≤ c.R0) (ha : 0 ≤ c.alpha) (hW : 0 < c.W)
    (h : c.alpha * ((c.m - 1) * c.Qc + 10 * c.W) ≤ 1) {q w : ℝ} (hw : c.R q = some w) : 0 ≤ w ∧ w ≤ c.R0 := by
  unfold Coating.R at hw
  rw [ht] at hw
  split at hw
  · cases hw
  · simp only at hw
    split at hw
    · cases hw; exact ⟨h0, le_rfl⟩
    · next h1 =>
      split at hw
      · cases hw
      · next h2 =>
        cases hw
        push Not at h1 h2
        rw [div_lt_iff₀ hW] at h2
        have h3 : 0 ≤ 1 - c.alpha * (q - c.Qc) := by
          have := mul_le_mul_of_nonneg_left h2.le ha
          nlinarith
        have h4 : 1 - c.alpha * (q - c.Qc) ≤ 1 := by
          have := mul_nonneg ha (by linarith : 0 ≤ q - c.Qc)
          linarith
        have h5 := Real.exp_pos (2 * ((q - c.m * c.Qc) / c.W))
        constructor
        · positivity
        · rw [div_le_iff₀ (by linarith)]
          nlinarith [mul_le_mul_of_nonneg_left h4 h0, mul_nonneg h0 h5.le]

end Verif.McGuide
