import Verif.Spec.McHyspecGuide
import Verif.Lemmas.McGuide
/-!
Lemmas for the curved guide of HYSPEC.
-/

namespace Verif.McHyspec
open McStas Kinem Flight Solid Homog McMon McOpt McGuide
open Classical

theorem tube_iff (g : Guide) (m : ℝ) (r : V3 ℝ) : (g.segment m).Inside r ↔ g.Tube r := by
  unfold McGuide.Guide.Inside Guide.Tube McGuide.Guide.halfW McGuide.Guide.halfH Guide.segment
  simp

theorem side_of {g : Guide} (hl : 0 < g.l) {w : Wall} (hw : w ∈ (g.segment 0).walls) {r : V3 ℝ} (h : w.at r = 0) :
    g.Side ((1 / g.l) • w.n) (g.coat w) r := by
  have hl' := hl.ne'
  unfold McGuide.Guide.walls Guide.segment at hw
  simp only [List.mem_cons, List.not_mem_nil, or_false, sub_self, mul_zero] at hw
  unfold Guide.Side
  have key : ∀ a x : ℝ, g.l * x + 0.5 * a * g.l = 0 → x = -(a / 2) := by
    intro a x h
    have : g.l * (x + a / 2) = 0 := by linarith
    have := (mul_eq_zero.1 this).resolve_left hl'
    linarith
  rcases hw with rfl | rfl | rfl | rfl <;> simp only [Wall.at, V3.dot] at h
  · refine .inl ⟨key _ _ (by linarith), ?_, ?_⟩
    · ext <;> simp [hl']
    · simp [Guide.coat, hl]
  · refine .inr (.inl ⟨by linarith [key g.w (-r.x) (by linarith)], ?_, ?_⟩)
    · ext <;> simp [hl']
    · simp [Guide.coat, hl.le, hl]
  · refine .inr (.inr (.inl ⟨key _ _ (by linarith), ?_, ?_⟩))
    · ext <;> simp [hl']
    · simp [Guide.coat, hl]
  · refine .inr (.inr (.inr ⟨by linarith [key g.h (-r.y) (by linarith)], ?_, ?_⟩))
    · ext <;> simp [hl']
    · simp [Guide.coat, hl.le, hl]

/-- one turn of the loop is a reflection -/
theorem next_meets {g : Guide} (hl : 0 < g.l) {e : Event ℝ} (hin : g.Tube e.r) (hz : e.r.z < g.l) (hv : 0 < e.v.z) {t : ℝ} {w : Wall}
    (h : (g.segment 0).next e = some (t, w)) :
    0 ≤ t ∧ g.Meets e { flown Off e t with v := (bounce w e.v).2 } ((g.segment (g.coat w)).coat.R (bounce w e.v).1) ∧
      g.Tube (flown Off e t).r ∧ (flown Off e t).r.z < g.l ∧ (bounce w e.v).2.z = e.v.z := by
  have hl2 : 0 < (g.segment 0).l := hl
  obtain ⟨h0, -, -, h2, h3⟩ := next_hit hl2 ((tube_iff g 0 _).2 hin) hz h
  obtain ⟨hw, hvn, ht, hx, hmin⟩ := next_some h
  have hin' := (inside_iff hl2 _).1 ((tube_iff g 0 _).2 hin)
  have hzt : ∀ τ, 0 ≤ τ → τ ≤ t → (flown Off e τ).r.z < g.l := by
    intro τ h0 h1
    rw [off_r]
    simp only [V3.add_z, V3.smul_z]
    unfold McGuide.Guide.toExit at hx
    rw [if_neg hv.ne', EReal.coe_lt_coe_iff, lt_div_iff₀ hv] at hx
    have := mul_le_mul_of_nonneg_right h1 hv.le
    have hsl : (g.segment 0).l = g.l := rfl
    rw [hsl] at hx
    linarith
  have hins : ∀ τ, 0 ≤ τ → τ ≤ t → g.Tube (flown Off e τ).r := by
    intro τ h0 h1
    exact (tube_iff g 0 _).1 ((inside_iff hl2 _).2 fun w' hw' => before_wall (hin' w' hw') h0 fun hv' => h1.trans (hmin w' hw' hv'))
  refine ⟨h0, ⟨t, (1 / g.l) • w.n, g.coat w, h0, side_of hl hw (by rw [ht]; exact on_wall hvn), ?_, fun τ h0 h1 => ⟨hins τ h0 h1, hzt τ h0 h1⟩,
    bounce_mirrored (wall_pos hl2 hw) (by positivity) _, rfl, ?_⟩, hins t h0 le_rfl, hzt t h0 le_rfl, ?_⟩
  · have : ((1 / g.l) • w.n).dot e.v = 1 / g.l * w.n.dot e.v := by
      simp only [V3.dot, V3.smul_x, V3.smul_y, V3.smul_z]; ring
    rw [this]
    exact mul_neg_of_pos_of_neg (by positivity) hvn
  · rw [bounce_q (wall_pos hl2 hw) hvn]; rfl
  · have hwz : w.n.z = 0 := by
      unfold McGuide.Guide.walls Guide.segment at hw
      simp only [List.mem_cons, List.not_mem_nil, or_false, sub_self, mul_zero] at hw
      rcases hw with rfl | rfl | rfl | rfl <;> rfl
    unfold bounce
    simp only [V3.sub_z, V3.smul_z, hwz, mul_zero, sub_zero]

theorem loop_some {g : Guide} {e : Event ℝ} {t : ℝ} {w : Wall} (h : (g.segment 0).next e = some (t, w))
    (ht : 0 ≤ t) (fuel : Nat) :
    g.loop Off (fuel + 1) e = ((g.segment (g.coat w)).coat.R (bounce w e.v).1).elim
      (some (true, stopped { flown Off e t with v := (bounce w e.v).2 }))
      fun k => g.loop Off fuel { flown Off e t with v := (bounce w e.v).2, p := e.p * k } := by
  rw [Guide.loop, h]
  simp only [fly ht, off_v, weight_eq]
  cases (g.segment (g.coat w)).coat.R (bounce w e.v).1 <;> rfl

/-- the loop in a piece -/
theorem loop_sound {g : Guide} (hl : 0 < g.l) : ∀ (fuel : Nat) (e r : Event ℝ) (x : Bool), g.Tube e.r →
    e.r.z < g.l → 0 < e.v.z → g.loop Off fuel e = some (x, r) →
    (x = true ∧ ∃ c e1, Relation.ReflTransGen g.Step e c ∧ g.Meets c e1 none ∧ r = stopped e1) ∨
    (x = false ∧ ∃ c s, Relation.ReflTransGen g.Step e c ∧ 0 ≤ s ∧ r = flown Off c s ∧ r.r.z = g.l ∧
      ∀ τ, 0 ≤ τ → τ ≤ s → g.Tube (flown Off c τ).r)
  | 0, e, r, x, _, _, _, h => by cases h
  | fuel + 1, e, r, x, hin, hz, hv, h => by
    have hl2 : 0 < (g.segment 0).l := hl
    cases hn : (g.segment 0).next e with
    | none =>
      rw [Guide.loop, hn] at h
      simp only [if_neg hv.ne'] at h
      have h0 : 0 ≤ (g.l - e.r.z) / e.v.z := div_nonneg (by linarith) hv.le
      rw [fly h0] at h
      simp only [Option.some.injEq, Prod.mk.injEq] at h
      obtain ⟨rfl, rfl⟩ := h
      have hlv := next_leaves hl2 ((tube_iff g 0 _).2 hin) hz hn
      rcases hlv with hlv | hlv
      · exact absurd hlv (not_lt.2 hv.le)
      right
      have hzl : (flown Off e ((g.l - e.r.z) / e.v.z)).r.z = g.l := by
        rw [off_r]; simp only [V3.add_z, V3.smul_z]; rw [div_mul_cancel₀ _ hv.ne']; ring
      refine ⟨rfl, e, _, .refl, h0, rfl, hzl, fun τ h1 h2 => (tube_iff g 0 _).1 (hlv τ h1 ?_)⟩
      rw [off_r]; simp only [V3.add_z, V3.smul_z]
      rw [le_div_iff₀ hv] at h2
      have hsl : (g.segment 0).l = g.l := rfl
      rw [hsl]
      linarith
    | some tw =>
      obtain ⟨t, w⟩ := tw
      obtain ⟨h0, h1, h2, h3, h4⟩ := next_meets hl hin hz hv hn
      rw [loop_some hn h0] at h
      cases hR : (g.segment (g.coat w)).coat.R (bounce w e.v).1 with
      | none =>
        rw [hR] at h h1
        simp only [Option.elim_none, Option.some.injEq, Prod.mk.injEq] at h
        obtain ⟨rfl, rfl⟩ := h
        exact .inl ⟨rfl, e, _, .refl, h1, rfl⟩
      | some k =>
        rw [hR] at h h1
        have ih := loop_sound hl fuel { flown Off e t with v := (bounce w e.v).2, p := e.p * k } r x h2 h3 (by simpa only [h4] using hv) h
        have hst : g.Step e { flown Off e t with v := (bounce w e.v).2, p := e.p * k } := ⟨_, k, h1, rfl⟩
        rcases ih with ⟨rfl, c, e1, a, b⟩ | ⟨rfl, c, s, a, b⟩
        · exact .inl ⟨rfl, c, e1, .head hst a, b⟩
        · exact .inr ⟨rfl, c, s, .head hst a, b⟩

/-- a piece -/
theorem pass_sound {g : Guide} (hl : 0 < g.l) {fuel : Nat} {e a r : Event ℝ} {x : Bool} (hf : Forward e a)
    (h : g.pass Off fuel e = some (x, r)) : (x = true ∧ g.Blocked a r) ∨ (x = false ∧ g.Leg a r) := by
  obtain ⟨hc, hv⟩ := hf
  have haz : a.r.z = 0 ∧ a.v = e.v := by
    obtain ⟨⟨s, hs, rfl⟩, -⟩ := hc
    exact ⟨hs.2.1, off_v _ _⟩
  unfold Guide.pass at h
  rw [comes_prop hc] at h
  simp only at h
  have hiff : (a.r.x ≤ -(0.5 * g.w) ∨ a.r.x ≥ 0.5 * g.w ∨ a.r.y ≤ -(0.5 * g.h) ∨ a.r.y ≥ 0.5 * g.h) ↔ ¬ g.Open a.r := by
    unfold Guide.Open
    rw [abs_lt, abs_lt]
    constructor
    · rintro (h | h | h | h) ⟨⟨h1, h2⟩, h3, h4⟩ <;> linarith
    · intro h
      by_contra hn
      push Not at hn
      obtain ⟨h1, h2, h3, h4⟩ := hn
      exact h ⟨⟨by linarith, by linarith⟩, by linarith, by linarith⟩
  by_cases ho : g.Open a.r
  · rw [if_neg (by rw [hiff]; exact not_not.2 ho)] at h
    have ht : g.Tube a.r := ⟨ho.1.le, ho.2.le⟩
    rcases loop_sound hl fuel a r x ht (by rw [haz.1]; exact hl) (by rw [haz.2]; exact hv) h with ⟨h1, h2⟩ | ⟨h1, h2⟩
    · exact .inl ⟨h1, .inr ⟨ho, h2⟩⟩
    · exact .inr ⟨h1, ho, h2⟩
  · rw [if_pos (hiff.2 ho)] at h
    simp only [Option.some.injEq, Prod.mk.injEq] at h
    obtain ⟨rfl, rfl⟩ := h
    exact .inl ⟨rfl, .inl ⟨ho, rfl⟩⟩

theorem alf_eq (g : Guide) : g.alf = g.angle := by
  unfold Guide.alf Guide.angle
  congr 2
  rw [mul_comm 2 g.R, ← div_div]
  ring

theorem half_angle (g : Guide) : g.alf = 2 * Real.arctan ((g.l + g.dseg) / 2 / g.R) := by
  unfold Guide.alf
  congr 3
  ring

/-- `R sin = (l + dseg)/2 (1 + cos)` and `R (1 - cos) = (l + dseg)/2 sin` -/
theorem tangents {g : Guide} (hR : g.R ≠ 0) :
    g.R * Real.sin g.alf = (g.l + g.dseg) / 2 * (1 + Real.cos g.alf) ∧
    g.R * (1 - Real.cos g.alf) = (g.l + g.dseg) / 2 * Real.sin g.alf := by
  rw [half_angle]
  set x := (g.l + g.dseg) / 2 / g.R with hx
  have hxr : (g.l + g.dseg) / 2 = x * g.R := by rw [hx, div_mul_cancel₀ _ hR]
  have h1 : (1 + x ^ 2) ≠ 0 := by positivity
  have hc : Real.cos (2 * Real.arctan x) = 2 * (1 / (1 + x ^ 2)) - 1 := by rw [Real.cos_two_mul, Real.cos_sq_arctan]
  have hs : Real.sin (2 * Real.arctan x) = 2 * x * (1 / (1 + x ^ 2)) := by
    have h3 : Real.sin (Real.arctan x) = x * Real.cos (Real.arctan x) := by
      have := Real.tan_arctan x
      rw [Real.tan_eq_sin_div_cos, div_eq_iff (Real.cos_arctan_pos x).ne'] at this
      exact this
    rw [Real.sin_two_mul, h3, ← Real.cos_sq_arctan]
    ring
  rw [hc, hs, hxr]
  constructor
  · field_simp; ring
  · field_simp; ring

/-- the next frame -/
theorem seen_turn {g : Guide} (hR : g.R ≠ 0) (j : ℕ) (e : Event ℝ) : g.seen (j + 1) (g.turn e) = g.seen j e := by
  obtain ⟨h1, h2⟩ := tangents hR
  have hcs := Real.cos_sq_add_sin_sq g.alf
  unfold Guide.seen Guide.turn
  have ha : (((j + 1 : ℕ) : ℝ)) * g.angle = j * g.angle + g.alf := by rw [alf_eq]; push_cast; ring
  simp only [ha, Real.cos_add, Real.sin_add]
  generalize Real.cos (j * g.angle) = C
  generalize Real.sin (j * g.angle) = S
  generalize Real.cos g.alf = c at *
  generalize Real.sin g.alf = s at *
  apply Event.ext
  · ext
    · simp only
      linear_combination (-C) * (-h2) + S * h1 + (e.r.x * C + (e.r.z - g.l - 0.5 * g.dseg) * S) * hcs
    · rfl
    · simp only
      linear_combination C * h1 + (-S) * h2 + (-(e.r.x * S) + (e.r.z - g.l - 0.5 * g.dseg) * C) * hcs
  · ext
    · simp only
      linear_combination (e.v.x * C + e.v.z * S) * hcs
    · rfl
    · simp only
      linear_combination (-(e.v.x * S) + e.v.z * C) * hcs
  all_goals rfl

theorem seen_inj (g : Guide) (j : ℕ) {a b : Event ℝ} (h : g.seen j a = g.seen j b) : a = b := by
  have hcs := Real.cos_sq_add_sin_sq (j * g.angle)
  unfold Guide.seen at h
  simp only [Event.mk.injEq, V3.mk.injEq] at h
  generalize Real.cos (j * g.angle) = c at *
  generalize Real.sin (j * g.angle) = s at *
  obtain ⟨⟨h1, h2, h3⟩, ⟨h4, h5, h6⟩, h7, h8, h9, h10⟩ := h
  apply Event.ext
  · ext
    · linear_combination c * h1 - s * h3 - (a.r.x - b.r.x) * hcs
    · exact h2
    · linear_combination s * h1 + c * h3 - (a.r.z - b.r.z) * hcs
  · ext
    · linear_combination c * h4 - s * h6 - (a.v.x - b.v.x) * hcs
    · exact h5
    · linear_combination s * h4 + c * h6 - (a.v.z - b.v.z) * hcs
  all_goals assumption

theorem segments_sound {g : Guide} (hl : 0 < g.l) (hR : g.R ≠ 0) (fuel : Nat) {N : ℕ} (hN : g.nseg = N) : ∀ (n k : ℕ) (e r : Event ℝ) (x : Bool),
    k + n = N → g.segments Off fuel (n + 1) k e = some (x, r) →
    (x = false ∧ g.Travels (n + 1) e r) ∨ (x = true ∧ g.Halts (n + 1) e r) ∨ g.Astray (n + 1) e
  | n, k, e, r, x, hk, h => by
    by_cases hf : ∃ a, Forward e a
    swap
    · exact .inr (.inr (.here hf))
    obtain ⟨a, hf⟩ := hf
    rw [Guide.segments] at h
    rcases hp : g.pass Off fuel e with _ | ⟨y, b⟩
    · rw [hp] at h; cases h
    · rw [hp] at h
      rcases pass_sound hl hf hp with ⟨rfl, hb⟩ | ⟨rfl, hb⟩
      · simp only [Option.some.injEq, Prod.mk.injEq] at h
        obtain ⟨rfl, rfl⟩ := h
        exact .inr (.inl ⟨rfl, .here hf hb⟩)
      · simp only at h
        cases n with
        | zero =>
          rw [if_pos (by rw [hN, ← hk, add_zero])] at h
          simp only [Option.some.injEq, Prod.mk.injEq] at h
          obtain ⟨rfl, rfl⟩ := h
          exact .inl ⟨rfl, .last hf hb⟩
        | succ n =>
          rw [if_neg (by rw [hN, ← hk]; push_cast; intro h; have : (0:ℝ) ≤ n := Nat.cast_nonneg n; linarith)] at h
          have hs : g.Same b (g.turn b) := by
            have := seen_turn hR 0 b
            exact this.symm
          have h' : g.segments Off fuel (n + 1) ((k + 1 : ℕ) : ℝ) (g.turn b) = some (x, r) := by push_cast; exact h
          rcases segments_sound hl hR fuel hN n (k + 1) (g.turn b) r x (by omega) h' with ⟨h1, h2⟩ | ⟨h1, h2⟩ | h2
          · exact .inl ⟨h1, .more hf hb hs h2⟩
          · exact .inr (.inl ⟨h1, .later hf hb hs h2⟩)
          · exact .inr (.inr (.later hf hb hs h2))

theorem next_free {g : Guide} (hl : 0 < g.l) {e : Event ℝ} (hz : e.r.z < g.l) (hv : 0 < e.v.z)
    (ho : ∀ τ, 0 ≤ τ → τ ≤ (g.l - e.r.z) / e.v.z → g.Open (flown Off e τ).r) : (g.segment 0).next e = none := by
  have h0 : 0 ≤ (g.l - e.r.z) / e.v.z := div_nonneg (by linarith) hv.le
  have hin : g.Tube e.r := by
    have := ho 0 le_rfl h0
    rw [off_r] at this
    have he : e.r + (0 : ℝ) • e.v = e.r := by ext <;> simp
    rw [he] at this
    exact ⟨this.1.le, this.2.le⟩
  rcases hn : (g.segment 0).next e with _ | ⟨t, w⟩
  · rfl
  obtain ⟨ht, ⟨s, n, m, -⟩, -, h3, -⟩ := next_meets hl hin hz hv hn
  obtain ⟨hw, hvn, htw, -, -⟩ := next_some hn
  have hs := side_of hl hw (by rw [htw]; exact on_wall hvn : w.at (flown Off e t).r = 0)
  have hle : t ≤ (g.l - e.r.z) / e.v.z := by
    rw [le_div_iff₀ hv]
    rw [off_r] at h3
    simp only [V3.add_z, V3.smul_z] at h3
    linarith
  obtain ⟨hx, hy⟩ := ho t ht hle
  rw [abs_lt] at hx hy
  rcases hs with ⟨h, -⟩ | ⟨h, -⟩ | ⟨h, -⟩ | ⟨h, -⟩ <;> linarith

theorem flown_eq (e : Event ℝ) (s : ℝ) : flown Off e s = ⟨e.r + s • e.v, e.v, e.s1, e.s2, e.t + s, e.p⟩ :=
  Event.ext (off_r e s) (off_v e s) rfl rfl rfl rfl

/-- a neutron that does not touch a mirror -/
theorem pass_free {g : Guide} (hl : 0 < g.l) {e a : Event ℝ} (hf : Forward e a) (fuel : Nat)
    (ho : ∀ τ, 0 ≤ τ → τ ≤ g.l / e.v.z → g.Open (flown Off a τ).r) :
    g.pass Off (fuel + 1) e = some (false, flown Off a (g.l / e.v.z)) := by
  obtain ⟨hc, hv⟩ := hf
  have haz : a.r.z = 0 ∧ a.v = e.v := by
    obtain ⟨⟨s, hs, rfl⟩, -⟩ := hc
    exact ⟨hs.2.1, off_v _ _⟩
  have h0 : 0 ≤ g.l / e.v.z := div_nonneg hl.le hv.le
  have hoa : g.Open a.r := by
    have := ho 0 le_rfl h0
    rw [off_r] at this
    have he : a.r + (0 : ℝ) • a.v = a.r := by ext <;> simp
    rwa [he] at this
  have hn : (g.segment 0).next a = none := by
    apply next_free hl (by rw [haz.1]; exact hl) (by rw [haz.2]; exact hv)
    rw [haz.1, haz.2, sub_zero]
    exact ho
  unfold Guide.pass
  rw [comes_prop hc]
  simp only
  obtain ⟨hx, hy⟩ := hoa
  rw [abs_lt] at hx hy
  rw [if_neg (by rintro (h | h | h | h) <;> linarith), Guide.loop, hn]
  simp only [haz.1, haz.2, sub_zero, if_neg hv.ne', fly h0]

theorem arc_half {g : Guide} (h : 0.5 * (g.l + g.dseg) / g.R = 1 / 2) : Real.cos g.alf = 3 / 5 ∧ Real.sin g.alf = 4 / 5 := by
  unfold Guide.alf
  rw [h]
  have h3 : Real.sin (Real.arctan (1 / 2)) = (1 / 2) * Real.cos (Real.arctan (1 / 2)) := by
    have := Real.tan_arctan (1 / 2)
    rw [Real.tan_eq_sin_div_cos, div_eq_iff (Real.cos_arctan_pos _).ne'] at this
    exact this
  rw [Real.cos_two_mul, Real.sin_two_mul, h3]
  have := Real.cos_sq_arctan (1 / 2)
  constructor
  · rw [this]; norm_num
  · have h4 : 2 * (1 / 2 * Real.cos (Real.arctan (1 / 2))) * Real.cos (Real.arctan (1 / 2)) = Real.cos (Real.arctan (1 / 2)) ^ 2 := by ring
    rw [h4, this]; norm_num

theorem forward_of {e : Event ℝ} (hz : e.r.z ≤ 0) (hv : 0 < e.v.z) : Forward e (flown Off e (-e.r.z / e.v.z)) := by
  have h0 : 0 ≤ -e.r.z / e.v.z := div_nonneg (by linarith) hv.le
  refine ⟨⟨⟨_, ⟨h0, ?_, ?_⟩, rfl⟩, .inl ⟨rfl, hv.ne'⟩⟩, hv⟩
  · rw [off_r]; simp only [V3.add_z, V3.smul_z]; rw [div_mul_cancel₀ _ hv.ne']; ring
  · intro s' h1 h2
    rw [lt_div_iff₀ hv] at h2
    rw [off_r]; simp only [V3.add_z, V3.smul_z]
    intro h3
    linarith

theorem loop_ends {g : Guide} (hl : 0 < g.l) (hw : 0 < g.w) (hh : 0 < g.h) : ∀ (fuel : Nat) (e : Event ℝ), g.Tube e.r → e.r.z < g.l →
    0 < e.v.z → (g.segment 0).todo e < fuel → ∃ y, g.loop Off fuel e = some y
  | 0, e, hin, hz, hv, hf => by
    exfalso
    have h0 : 0 ≤ (g.segment 0).todo e := by
      unfold McGuide.Guide.todo
      have h1 : 0 ≤ ((g.segment 0).l - e.r.z) / e.v.z := div_nonneg (sub_nonneg.2 hz.le) hv.le
      have b1 := (behind_le (v := e.v.x) hin.1).1
      have b2 := (behind_le (v := e.v.y) hin.2).1
      have w1 : 0 < (g.segment 0).w1 := hw
      have w2 : 0 < (g.segment 0).h1 := hh
      exact add_nonneg (div_nonneg (add_nonneg (mul_nonneg h1 (abs_nonneg _)) b1) w1.le) (div_nonneg (add_nonneg (mul_nonneg h1 (abs_nonneg _)) b2) w2.le)
    simp only [Nat.cast_zero] at hf
    linarith
  | fuel + 1, e, hin, hz, hv, hf => by
    rcases hn : (g.segment 0).next e with _ | ⟨t, w⟩
    · rw [Guide.loop, hn]
      simp only [if_neg hv.ne']
      exact ⟨_, rfl⟩
    · obtain ⟨h0, -, h2, h3, h4⟩ := next_meets hl hin hz hv hn
      rw [loop_some hn h0]
      cases (g.segment (g.coat w)).coat.R (bounce w e.v).1 with
      | none => exact ⟨_, rfl⟩
      | some k =>
        refine loop_ends hl hw hh fuel { flown Off e t with v := (bounce w e.v).2, p := e.p * k } h2 h3 (by simpa only [h4] using hv) ?_
        have := (todo_step (g := g.segment 0) hl hw hh rfl rfl hv hn k).2
        rw [this]
        push_cast at hf
        linarith

theorem loop_mono {g : Guide} : ∀ (fuel : Nat) (e : Event ℝ) (y : Bool × Event ℝ), g.loop Off fuel e = some y → g.loop Off (fuel + 1) e = some y
  | 0, e, y, h => by cases h
  | fuel + 1, e, y, h => by
    rw [Guide.loop] at h ⊢
    rcases hn : (g.segment 0).next e with _ | ⟨t, w⟩
    · rw [hn] at h; exact h
    · rw [hn] at h
      simp only at h ⊢
      rcases hw : (g.segment (g.coat w)).coat.weight (bounce w (propDt Off t e).v).1 with _ | k
      · rw [hw] at h; exact h
      · rw [hw] at h; exact loop_mono fuel _ y h

theorem pass_mono {g : Guide} {e : Event ℝ} {y : Bool × Event ℝ} {fuel fuel' : Nat} (hf : fuel ≤ fuel') (h : g.pass Off fuel e = some y) :
    g.pass Off fuel' e = some y := by
  induction hf with
  | refl => exact h
  | step _ ih =>
    unfold Guide.pass at ih ⊢
    simp only at ih ⊢
    split
    · next hc => rw [if_pos hc] at ih; exact ih
    · next hc => rw [if_neg hc] at ih; exact loop_mono _ _ _ ih

theorem pass_ends {g : Guide} (hl : 0 < g.l) (hw : 0 < g.w) (hh : 0 < g.h) {e a : Event ℝ} (hf : Forward e a) : ∃ fuel y, g.pass Off fuel e = some y := by
  obtain ⟨hc, hv⟩ := hf
  have haz : a.r.z = 0 ∧ a.v = e.v := by
    obtain ⟨⟨s, hs, rfl⟩, -⟩ := hc
    exact ⟨hs.2.1, off_v _ _⟩
  unfold Guide.pass
  rw [comes_prop hc]
  simp only
  split
  · exact ⟨0, _, rfl⟩
  · next hn =>
    push Not at hn
    obtain ⟨n1, n2, n3, n4⟩ := hn
    obtain ⟨fuel, hfu⟩ := exists_nat_gt ((g.segment 0).todo a)
    exact ⟨fuel, loop_ends hl hw hh fuel a ⟨abs_le.2 ⟨by linarith, by linarith⟩, abs_le.2 ⟨by linarith, by linarith⟩⟩ (by rw [haz.1]; exact hl)
      (by rw [haz.2]; exact hv) hfu⟩

theorem segments_ends {g : Guide} (hl : 0 < g.l) (hw : 0 < g.w) (hh : 0 < g.h) (hR : g.R ≠ 0) : ∀ (n : ℕ) (k : ℝ) (e : Event ℝ),
    ¬ g.Astray n e → ∃ fuel0, ∀ fuel, fuel0 ≤ fuel → ∃ y, g.segments Off fuel n k e = some y
  | 0, k, e, _ => ⟨0, fun _ _ => ⟨_, rfl⟩⟩
  | n + 1, k, e, hA => by
    by_cases hf : ∃ a, Forward e a
    swap
    · exact absurd (.here hf) hA
    obtain ⟨a, hf⟩ := hf
    obtain ⟨f1, ⟨x, b⟩, hy⟩ := pass_ends hl hw hh hf
    rcases pass_sound hl hf hy with ⟨rfl, hb⟩ | ⟨rfl, hb⟩
    · refine ⟨f1, fun fuel hfu => ⟨(true, b), ?_⟩⟩
      rw [Guide.segments, pass_mono hfu hy]
    · obtain ⟨f2, h2⟩ := segments_ends hl hw hh hR n (k + 1) (g.turn b) (fun hB => hA (.later hf hb (by
        have := seen_turn hR 0 b
        exact this.symm) hB))
      refine ⟨max f1 f2, fun fuel hfu => ?_⟩
      obtain ⟨y, hy2⟩ := h2 fuel ((le_max_right _ _).trans hfu)
      rw [Guide.segments, pass_mono ((le_max_left _ _).trans hfu) hy]
      simp only
      split
      · exact ⟨_, rfl⟩
      · exact ⟨y, hy2⟩

end Verif.McHyspec
