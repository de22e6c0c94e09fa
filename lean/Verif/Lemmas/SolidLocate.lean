import Verif.Lemmas.Solid
/-!
Helper lemmas: the locator on the primitive solids and on shape trees.
-/

namespace Verif.Solid

theorem Interior.of {S : V3 ℝ → Prop} {p : V3 ℝ} (δ : ℝ) (hδ : 0 < δ)
    (h : ∀ q, Near δ p q → S q) : Interior S p := ⟨δ, hδ, h⟩

theorem abs_le_of_near {a b δ : ℝ} (h : |b - a| < δ) : |b| < |a| + δ ∧ |a| < |b| + δ := by
  have h1 := abs_sub_abs_le_abs_sub b a
  have h2 := abs_sub_abs_le_abs_sub a b
  rw [abs_sub_comm a b] at h2
  constructor <;> linarith

theorem radius_near (x y x' y' : ℝ) :
    √(x' * x' + y' * y') ≤ √(x * x + y * y) + |x' - x| + |y' - y| := by
  have hr := Real.sqrt_nonneg (x * x + y * y)
  have hq : √(x * x + y * y) * √(x * x + y * y) = x * x + y * y :=
    Real.mul_self_sqrt (by nlinarith [mul_self_nonneg x, mul_self_nonneg y])
  have ha := abs_nonneg (x' - x)
  have hb := abs_nonneg (y' - y)
  refine Real.sqrt_le_iff.2 ⟨by linarith, ?_⟩
  generalize hA : |x' - x| = A at *
  generalize hB : |y' - y| = B at *
  generalize √(x * x + y * y) = r at *
  have hx : |x| ≤ r := abs_le_of_sq_le_sq (by nlinarith [mul_self_nonneg y]) hr
  have hy : |y| ≤ r := abs_le_of_sq_le_sq (by nlinarith [mul_self_nonneg x]) hr
  have hA2 : (x' - x) * (x' - x) = A * A := by rw [← hA, abs_mul_abs_self]
  have hB2 : (y' - y) * (y' - y) = B * B := by rw [← hB, abs_mul_abs_self]
  have h1 : x * (x' - x) ≤ r * A := by
    calc x * (x' - x) ≤ |x * (x' - x)| := le_abs_self _
      _ = |x| * A := by rw [abs_mul, hA]
      _ ≤ r * A := mul_le_mul_of_nonneg_right hx ha
  have h2 : y * (y' - y) ≤ r * B := by
    calc y * (y' - y) ≤ |y * (y' - y)| := le_abs_self _
      _ = |y| * B := by rw [abs_mul, hB]
      _ ≤ r * B := mul_le_mul_of_nonneg_right hy hb
  nlinarith [mul_nonneg ha hb]

/-! ### box -/

theorem box_inside {ret X Y Z : ℝ} (h : 0 < ret) {p : V3 ℝ} (hl : locBox ret X Y Z p = .inside) :
    Interior (Mem (.box X Y Z)) p := by
  unfold locBox at hl
  split at hl
  · cases hl
  · rename_i h1
    split at hl
    · cases hl
    · rename_i h2
      simp only [not_or, not_lt] at h1 h2
      have key : ∀ a A : ℝ, |a| ≤ (A + ret) / 2 → ret ≤ |(|a| - A / 2)| → |a| ≤ A / 2 - ret := by
        intro a A h1 h2
        rcases le_abs.1 h2 with h | h <;> linarith
      have hx := key _ _ h1.1 h2.1
      have hy := key _ _ h1.2.1 h2.2.1
      have hz := key _ _ h1.2.2 h2.2.2
      refine Interior.of ret h fun q hq => ?_
      have e1 := (abs_le_of_near hq.1).1
      have e2 := (abs_le_of_near hq.2.1).1
      have e3 := (abs_le_of_near hq.2.2).1
      simp only [Mem]
      exact ⟨by linarith, by linarith, by linarith⟩

theorem box_outside {ret X Y Z : ℝ} (h : 0 < ret) {p : V3 ℝ} (hl : locBox ret X Y Z p = .outside) :
    Exterior (Mem (.box X Y Z)) p := by
  unfold locBox at hl
  split at hl
  · rename_i h1
    refine Interior.of (ret / 2) (by linarith) fun q hq hm => ?_
    simp only [Mem] at hm
    have e1 := (abs_le_of_near hq.1).2
    have e2 := (abs_le_of_near hq.2.1).2
    have e3 := (abs_le_of_near hq.2.2).2
    rcases h1 with h1 | h1 | h1 <;> linarith [hm.1, hm.2.1, hm.2.2]
  · split at hl <;> cases hl

theorem box_border {ret X Y Z : ℝ} (h : 0 < ret) {p : V3 ℝ} (hl : locBox ret X Y Z p = .onborder) :
    NearSurface ret (.box X Y Z) p := by
  unfold locBox at hl
  split at hl
  · cases hl
  · rename_i h1
    split at hl
    · rename_i h2
      simp only [not_or, not_lt] at h1
      refine ⟨by linarith [h1.1], by linarith [h1.2.1], by linarith [h1.2.2], ?_⟩
      exact h2.imp le_of_lt (fun h => h.imp le_of_lt le_of_lt)
    · cases hl

/-! ### cylinder -/

theorem cylinder_inside {ret R h : ℝ} (h0 : 0 < ret) {p : V3 ℝ}
    (hl : locCylinder ret R h p = .inside) : Interior (Mem (.cylinder R h)) p := by
  unfold locCylinder at hl
  split at hl
  · cases hl
  · simp only at hl
    split at hl
    · cases hl
    · split at hl
      · rename_i h1
        refine Interior.of (ret / 2) (by linarith) fun q hq => ?_
        have e3 := (abs_le_of_near hq.2.2).1
        have er := radius_near p.x p.y q.x q.y
        have hr := Real.sqrt_nonneg (q.x * q.x + q.y * q.y)
        have hq2 : √(q.x * q.x + q.y * q.y) * √(q.x * q.x + q.y * q.y) = q.x * q.x + q.y * q.y :=
          Real.mul_self_sqrt (by nlinarith [mul_self_nonneg q.x, mul_self_nonneg q.y])
        have hR : √(q.x * q.x + q.y * q.y) ≤ R := by linarith [h1.2, hq.1, hq.2.1]
        simp only [Mem]
        exact ⟨by rw [← hq2]; exact mul_self_le_mul_self hr hR, by linarith [h1.1]⟩
      · cases hl

theorem cylinder_outside {ret R h : ℝ} (h0 : 0 < ret) (hR : 0 < R) {p : V3 ℝ}
    (hl : locCylinder ret R h p = .outside) : Exterior (Mem (.cylinder R h)) p := by
  unfold locCylinder at hl
  split at hl
  · rename_i h1
    refine Interior.of ret h0 fun q hq hm => ?_
    have e3 := (abs_le_of_near hq.2.2).2
    simp only [Mem] at hm
    linarith [hm.2]
  · simp only at hl
    split at hl
    · rename_i h1
      refine Interior.of (ret / 2) (by linarith) fun q hq hm => ?_
      have er := radius_near q.x q.y p.x p.y
      rw [abs_sub_comm p.x, abs_sub_comm p.y] at er
      simp only [Mem] at hm
      have : √(q.x * q.x + q.y * q.y) ≤ R := Real.sqrt_le_iff.2 ⟨hR.le, by nlinarith [hm.1]⟩
      linarith [hq.1, hq.2.1]
    · split at hl <;> cases hl

theorem cylinder_border {ret R h : ℝ} {p : V3 ℝ}
    (hl : locCylinder ret R h p = .onborder) : NearSurface ret (.cylinder R h) p := by
  unfold locCylinder at hl
  split at hl
  · cases hl
  · rename_i h1
    simp only at hl
    split at hl
    · cases hl
    · rename_i h2
      split at hl
      · cases hl
      · rename_i h3
        simp only [← pow_two] at h2 h3
        refine ⟨by linarith, by linarith, ?_⟩
        by_cases hz : h / 2 - |p.z| > ret
        · right
          have : ¬ R - √(p.x ^ 2 + p.y ^ 2) > ret := fun h' => h3 ⟨hz, h'⟩
          exact abs_le.2 ⟨by linarith, by linarith⟩
        · left
          exact abs_le.2 ⟨by linarith, by linarith⟩

/-! ### sphere -/

private theorem sq_near {a b δ : ℝ} (h1 : δ ≤ 1) (h0 : 0 < δ) (h : |b - a| < δ) :
    |b * b - a * a| ≤ δ * (2 * |a| + 1) := by
  have hb := (abs_le_of_near h).1
  have : b * b - a * a = (b - a) * (b + a) := by ring
  rw [this, abs_mul]
  have h2 : |b + a| ≤ 2 * |a| + 1 := by
    have := abs_add_le b a
    linarith
  have := abs_nonneg a
  exact mul_le_mul h.le h2 (abs_nonneg _) h0.le

theorem r2_near {ret : ℝ} (h0 : 0 < ret) (p : V3 ℝ) : ∃ δ > 0, ∀ q, Near δ p q →
    |(q.x * q.x + q.y * q.y + q.z * q.z) - (p.x * p.x + p.y * p.y + p.z * p.z)| ≤ ret := by
  have hS : 0 < 2 * (|p.x| + |p.y| + |p.z|) + 3 := by positivity
  refine ⟨min 1 (ret / (2 * (|p.x| + |p.y| + |p.z|) + 3)), lt_min one_pos (by positivity), ?_⟩
  intro q hq
  generalize hd : min 1 (ret / (2 * (|p.x| + |p.y| + |p.z|) + 3)) = δ at hq
  have h1 : δ ≤ 1 := hd ▸ min_le_left _ _
  have hp : 0 < δ := hd ▸ lt_min one_pos (by positivity)
  have h2 : δ * (2 * (|p.x| + |p.y| + |p.z|) + 3) ≤ ret := by
    rw [← le_div_iff₀ hS]; exact hd ▸ min_le_right _ _
  have ex := abs_le.1 (sq_near h1 hp hq.1)
  have ey := abs_le.1 (sq_near h1 hp hq.2.1)
  have ez := abs_le.1 (sq_near h1 hp hq.2.2)
  exact abs_le.2 ⟨by linarith [ex.1, ey.1, ez.1], by linarith [ex.2, ey.2, ez.2]⟩

theorem sphere_inside {ret R : ℝ} (h0 : 0 < ret) {p : V3 ℝ}
    (hl : locSphere ret R p = .inside) : Interior (Mem (.sphere R)) p := by
  unfold locSphere at hl
  simp only at hl
  split at hl
  · cases hl
  · split at hl
    · rename_i h1
      obtain ⟨δ, hδ, h⟩ := r2_near h0 p
      refine Interior.of δ hδ fun q hq => ?_
      have := abs_le.1 (h q hq)
      simp only [Mem]
      linarith [this.2]
    · cases hl

theorem sphere_outside {ret R : ℝ} (h0 : 0 < ret) {p : V3 ℝ}
    (hl : locSphere ret R p = .outside) : Exterior (Mem (.sphere R)) p := by
  unfold locSphere at hl
  simp only at hl
  split at hl
  · rename_i h1
    obtain ⟨δ, hδ, h⟩ := r2_near h0 p
    refine Interior.of δ hδ fun q hq hm => ?_
    have := abs_le.1 (h q hq)
    simp only [Mem] at hm
    linarith [this.1]
  · split at hl <;> cases hl

theorem sphere_border {ret R : ℝ} {p : V3 ℝ}
    (hl : locSphere ret R p = .onborder) : NearSurface ret (.sphere R) p := by
  unfold locSphere at hl
  simp only at hl
  split at hl
  · cases hl
  · split at hl
    · cases hl
    · rename_i h1 h2
      simp only [NearSurface]
      exact abs_le.2 ⟨by nlinarith, by nlinarith⟩

/-! ### pyramid -/

private theorem edge_lt {a z h X r : ℝ} (hh : 0 < h) (H : |a| < -z / h * X / 2 - r) :
    2 * h * |a| < -z * X - 2 * h * r := by
  have := mul_lt_mul_of_pos_left H (show (0 : ℝ) < 2 * h by linarith)
  have e : 2 * h * (-z / h * X / 2 - r) = -z * X - 2 * h * r := by field_simp
  linarith

private theorem edge_gt {a z h X r : ℝ} (hh : 0 < h) (H : |a| > -z / h * X / 2 + r) :
    2 * h * |a| > -z * X + 2 * h * r := by
  have := mul_lt_mul_of_pos_left H (show (0 : ℝ) < 2 * h by linarith)
  have e : 2 * h * (-z / h * X / 2 + r) = -z * X + 2 * h * r := by field_simp
  linarith

theorem pyramid_inside {ret X Y h : ℝ} (h0 : 0 < ret) (hX : 0 < X) (hY : 0 < Y) (hh : 0 < h)
    {p : V3 ℝ} (hl : locPyramid ret X Y h p = .inside) : Interior (Mem (.pyramid X Y h)) p := by
  unfold locPyramid at hl
  split at hl
  · cases hl
  · simp only at hl
    split at hl
    · cases hl
    · split at hl
      · rename_i hz
        split at hl
        · rename_i h1
          have h1x := edge_lt hh h1.1
          have h1y := edge_lt hh h1.2
          have hD : 0 < X + Y + 2 * h := by linarith
          have hd : 2 * h * ret / (X + Y + 2 * h) * (X + Y + 2 * h) = 2 * h * ret :=
            div_mul_cancel₀ _ hD.ne'
          have hpos : 0 < 2 * h * ret / (X + Y + 2 * h) := by positivity
          generalize 2 * h * ret / (X + Y + 2 * h) = δ at hd hpos
          refine Interior.of δ hpos fun q hq => ?_
          have e1 := (abs_le_of_near hq.1).1
          have e2 := (abs_le_of_near hq.2.1).1
          have e3 := abs_lt.1 hq.2.2
          have hle : δ ≤ ret := by nlinarith
          simp only [Mem]
          refine ⟨by linarith [e3.1], by linarith [e3.2], ?_, ?_⟩
          · have : 2 * h * |q.x| ≤ 2 * h * (|p.x| + δ) := by nlinarith
            nlinarith [mul_lt_mul_of_pos_right e3.2 hX]
          · have : 2 * h * |q.y| ≤ 2 * h * (|p.y| + δ) := by nlinarith
            nlinarith [mul_lt_mul_of_pos_right e3.2 hY]
        · cases hl
      · cases hl

theorem pyramid_outside {ret X Y h : ℝ} (h0 : 0 < ret) (hX : 0 < X) (hY : 0 < Y) (hh : 0 < h)
    {p : V3 ℝ} (hl : locPyramid ret X Y h p = .outside) : Exterior (Mem (.pyramid X Y h)) p := by
  unfold locPyramid at hl
  split at hl
  · rename_i h1
    refine Interior.of ret h0 fun q hq hm => ?_
    simp only [Mem] at hm
    have e3 := abs_lt.1 hq.2.2
    rcases h1 with h1 | h1
    · linarith [hm.2.1, e3.1]
    · linarith [hm.1, e3.2]
  · simp only at hl
    split at hl
    · rename_i h1
      have hD : 0 < X + Y + 2 * h := by linarith
      have hd : 2 * h * ret / (X + Y + 2 * h) * (X + Y + 2 * h) = 2 * h * ret :=
        div_mul_cancel₀ _ hD.ne'
      have hpos : 0 < 2 * h * ret / (X + Y + 2 * h) := by positivity
      generalize 2 * h * ret / (X + Y + 2 * h) = δ at hd hpos
      refine Interior.of δ hpos fun q hq hm => ?_
      simp only [Mem] at hm
      have e1 := (abs_le_of_near hq.1).2
      have e2 := (abs_le_of_near hq.2.1).2
      have e3 := abs_lt.1 hq.2.2
      rcases h1 with h1 | h1
      · have h1' := edge_gt hh h1
        have : 2 * h * |p.x| ≤ 2 * h * (|q.x| + δ) := by nlinarith
        nlinarith [mul_lt_mul_of_pos_right e3.1 hX, hm.2.2.1]
      · have h1' := edge_gt hh h1
        have : 2 * h * |p.y| ≤ 2 * h * (|q.y| + δ) := by nlinarith
        nlinarith [mul_lt_mul_of_pos_right e3.1 hY, hm.2.2.2]
    · split at hl
      · split at hl <;> cases hl
      · cases hl

theorem pyramid_border {ret X Y h : ℝ} {p : V3 ℝ}
    (hl : locPyramid ret X Y h p = .onborder) : NearSurface ret (.pyramid X Y h) p := by
  unfold locPyramid at hl
  split at hl
  · cases hl
  · rename_i hz
    simp only at hl
    split at hl
    · cases hl
    · rename_i hxy
      simp only [not_or, not_lt] at hz hxy
      refine ⟨hz.2, hz.1, hxy.1, hxy.2, ?_⟩
      split at hl
      · split at hl
        · cases hl
        · rename_i hzz hn
          right; right
          rw [not_and_or, not_lt, not_lt] at hn
          rcases hn with hn | hn
          · left; exact abs_le.2 ⟨by linarith, by linarith [hxy.1]⟩
          · right; exact abs_le.2 ⟨by linarith, by linarith [hxy.2]⟩
      · rename_i hn
        rw [not_and_or, not_lt, not_lt] at hn
        rcases hn with hn | hn
        · left; exact abs_le.2 ⟨hn, hz.1⟩
        · right; left; exact abs_le.2 ⟨by linarith [hz.2], by linarith⟩

/-! ### cone -/

theorem cone_inside {ret R h : ℝ} (h0 : 0 < ret) (hR : 0 < R) (hh : 0 < h)
    {p : V3 ℝ} (hl : locCone ret R h p = .inside) : Interior (Mem (.cone R h)) p := by
  unfold locCone at hl
  split at hl
  · cases hl
  · simp only at hl
    split at hl
    · cases hl
    · split at hl
      · rename_i hz
        split at hl
        · rename_i h1
          have h1' : h * √(p.x * p.x + p.y * p.y) < -p.z * R - h * ret := by
            have := mul_lt_mul_of_pos_left h1 hh
            have e : h * (-p.z / h * R - ret) = -p.z * R - h * ret := by field_simp
            linarith
          have hD : 0 < R + 2 * h := by linarith
          have hd : h * ret / (R + 2 * h) * (R + 2 * h) = h * ret := div_mul_cancel₀ _ hD.ne'
          have hpos : 0 < h * ret / (R + 2 * h) := by positivity
          generalize h * ret / (R + 2 * h) = δ at hd hpos
          refine Interior.of δ hpos fun q hq => ?_
          have er := radius_near p.x p.y q.x q.y
          have hr := Real.sqrt_nonneg (q.x * q.x + q.y * q.y)
          have hq2 : √(q.x * q.x + q.y * q.y) * √(q.x * q.x + q.y * q.y) = q.x * q.x + q.y * q.y :=
            Real.mul_self_sqrt (by nlinarith [mul_self_nonneg q.x, mul_self_nonneg q.y])
          have e3 := abs_lt.1 hq.2.2
          have hle : δ ≤ ret := by nlinarith
          simp only [Mem]
          refine ⟨by linarith [e3.1], by linarith [e3.2], ?_⟩
          have h2 : h * √(q.x * q.x + q.y * q.y) ≤ -q.z * R := by
            have : √(q.x * q.x + q.y * q.y) ≤ √(p.x * p.x + p.y * p.y) + 2 * δ := by
              linarith [hq.1, hq.2.1]
            have := mul_le_mul_of_nonneg_left this hh.le
            nlinarith [mul_lt_mul_of_pos_right e3.2 hR]
          have h3 := mul_self_le_mul_self (by positivity) h2
          calc h * h * (q.x * q.x + q.y * q.y)
              = h * √(q.x * q.x + q.y * q.y) * (h * √(q.x * q.x + q.y * q.y)) := by
                linear_combination -h * h * hq2
            _ ≤ -q.z * R * (-q.z * R) := h3
            _ = q.z * q.z * (R * R) := by ring
        · cases hl
      · cases hl

theorem cone_outside {ret R h : ℝ} (h0 : 0 < ret) (hR : 0 < R) (hh : 0 < h)
    {p : V3 ℝ} (hl : locCone ret R h p = .outside) : Exterior (Mem (.cone R h)) p := by
  unfold locCone at hl
  split at hl
  · rename_i h1
    refine Interior.of ret h0 fun q hq hm => ?_
    simp only [Mem] at hm
    have e3 := abs_lt.1 hq.2.2
    rcases h1 with h1 | h1
    · linarith [hm.2.1, e3.1]
    · linarith [hm.1, e3.2]
  · simp only at hl
    split at hl
    · rename_i h1
      have h1' : h * √(p.x * p.x + p.y * p.y) > -p.z * R + h * ret := by
        have := mul_lt_mul_of_pos_left h1 hh
        have e : h * (-p.z / h * R + ret) = -p.z * R + h * ret := by field_simp
        linarith
      have hD : 0 < R + 2 * h := by linarith
      have hd : h * ret / (R + 2 * h) * (R + 2 * h) = h * ret := div_mul_cancel₀ _ hD.ne'
      have hpos : 0 < h * ret / (R + 2 * h) := by positivity
      generalize h * ret / (R + 2 * h) = δ at hd hpos
      refine Interior.of δ hpos fun q hq hm => ?_
      simp only [Mem] at hm
      have er := radius_near q.x q.y p.x p.y
      rw [abs_sub_comm p.x, abs_sub_comm p.y] at er
      have hr := Real.sqrt_nonneg (q.x * q.x + q.y * q.y)
      have hq2 : √(q.x * q.x + q.y * q.y) * √(q.x * q.x + q.y * q.y) = q.x * q.x + q.y * q.y :=
        Real.mul_self_sqrt (by nlinarith [mul_self_nonneg q.x, mul_self_nonneg q.y])
      have e3 := abs_lt.1 hq.2.2
      have h2 : h * √(q.x * q.x + q.y * q.y) ≤ -q.z * R := by
        refine abs_le_of_sq_le_sq' ?_ (by nlinarith [hm.2.1]) |>.2
        calc (h * √(q.x * q.x + q.y * q.y)) ^ 2
            = h * h * (√(q.x * q.x + q.y * q.y) * √(q.x * q.x + q.y * q.y)) := by ring
          _ = h * h * (q.x * q.x + q.y * q.y) := by rw [hq2]
          _ ≤ q.z * q.z * (R * R) := hm.2.2
          _ = (-q.z * R) ^ 2 := by ring
      have : √(p.x * p.x + p.y * p.y) ≤ √(q.x * q.x + q.y * q.y) + 2 * δ := by
        linarith [hq.1, hq.2.1]
      have := mul_le_mul_of_nonneg_left this hh.le
      nlinarith [mul_lt_mul_of_pos_right e3.1 hR]
    · split at hl
      · split at hl <;> cases hl
      · cases hl

theorem cone_border {ret R h : ℝ} {p : V3 ℝ}
    (hl : locCone ret R h p = .onborder) : NearSurface ret (.cone R h) p := by
  unfold locCone at hl
  split at hl
  · cases hl
  · rename_i hz
    simp only at hl
    split at hl
    · cases hl
    · rename_i hxy
      simp only [not_or, not_lt] at hz hxy
      simp only [← pow_two] at hl hxy
      refine ⟨hz.2, hz.1, hxy, ?_⟩
      split at hl
      · split at hl
        · cases hl
        · rename_i hzz hn
          right; right
          rw [not_lt] at hn
          exact abs_le.2 ⟨by linarith, by linarith⟩
      · rename_i hn
        rw [not_and_or, not_lt, not_lt] at hn
        rcases hn with hn | hn
        · left; exact abs_le.2 ⟨hn, hz.1⟩
        · right; left; exact abs_le.2 ⟨by linarith [hz.2], by linarith⟩

/-! ### trees -/

/-- inside means interior and outside means exterior -/
theorem locate_sound {ret : ℝ} (h0 : 0 < ret) (s : Shape) : WF s → ∀ p,
    (locate ret s p = .ok .inside → Interior (Mem s) p) ∧
    (locate ret s p = .ok .outside → Exterior (Mem s) p) := by
  induction s using Shape.ind with
  | box X Y Z =>
    intro _ p
    simp only [locate, Except.ok.injEq]
    exact ⟨box_inside h0, box_outside h0⟩
  | cyl R h =>
    intro hw p
    simp only [locate, Except.ok.injEq]
    simp only [WF] at hw
    exact ⟨cylinder_inside h0, cylinder_outside h0 hw.1⟩
  | pyr X Y h =>
    intro hw p
    simp only [locate, Except.ok.injEq]
    simp only [WF] at hw
    exact ⟨pyramid_inside h0 hw.1 hw.2.1 hw.2.2, pyramid_outside h0 hw.1 hw.2.1 hw.2.2⟩
  | cone R h =>
    intro hw p
    simp only [locate, Except.ok.injEq]
    simp only [WF] at hw
    exact ⟨cone_inside h0 hw.1 hw.2, cone_outside h0 hw.1 hw.2⟩
  | sph R =>
    intro _ p
    simp only [locate, Except.ok.injEq]
    exact ⟨sphere_inside h0, sphere_outside h0⟩
  | diff a b iha ihb =>
    intro hw p
    simp only [WF] at hw
    constructor
    · intro h
      obtain ⟨la, lb, ha, hb, hd⟩ := locate_difference h
      obtain ⟨rfl, rfl⟩ := locDifference_inside hd
      refine (((iha hw.1 p).1 ha).and ((ihb hw.2 p).2 hb)).mono fun q hq => ?_
      simpa only [Mem] using hq
    · intro h
      obtain ⟨la, lb, ha, hb, hd⟩ := locate_difference h
      rcases locDifference_outside hd with rfl | rfl
      · refine ((iha hw.1 p).2 ha).mono fun q hq => ?_
        simp only [Mem]; exact fun h => hq h.1
      · refine ((ihb hw.2 p).1 hb).mono fun q hq => ?_
        simp only [Mem]; exact fun h => h.2 hq
  | inter l ih =>
    intro hw p
    simp only [WF, wfAll_iff] at hw
    constructor
    · intro h
      rw [locate] at h
      have := ((locIntersection_spec _ _ _ _ _ h).1 rfl).2
      refine (Interior.all l Mem fun s hs => (ih s hs (hw s hs) p).1 (this s hs)).mono ?_
      intro q hq
      simpa only [Mem, memAll_iff] using hq
    · intro h
      rw [locate] at h
      obtain ⟨s, hs, h'⟩ := (locIntersection_spec _ _ _ _ _ h).2.1 rfl
      refine ((ih s hs (hw s hs) p).2 h').mono fun q hq => ?_
      simp only [Mem, memAll_iff]
      exact fun hall => hq (hall s hs)
  | union l ih =>
    intro hw p
    simp only [WF, wfAll_iff] at hw
    constructor
    · intro h
      rw [locate] at h
      obtain ⟨s, hs, h'⟩ := (locUnion_spec _ _ _ _ _ h).2.1 rfl
      refine ((ih s hs (hw s hs) p).1 h').mono fun q hq => ?_
      simp only [Mem, memAny_iff]
      exact ⟨s, hs, hq⟩
    · intro h
      rw [locate] at h
      have := ((locUnion_spec _ _ _ _ _ h).1 rfl).2
      refine (Interior.all l (fun s q => ¬ Mem s q)
        fun s hs => (ih s hs (hw s hs) p).2 (this s hs)).mono ?_
      intro q hq
      simp only [Mem, memAny_iff]
      rintro ⟨s, hs, hm⟩
      exact hq s hs hm
  | dil b k ih =>
    intro hw p
    simp only [WF] at hw
    have hk : (1 / k : ℝ) ≠ 0 := one_div_ne_zero hw.2
    have hf : ∀ δ q, 0 < δ → Near δ p q → Near (|1 / k| * δ) ((1 / k) • p) ((1 / k) • q) :=
      fun δ q _ h => near_smul hk h
    constructor
    · intro h
      rw [locate] at h
      exact (Interior.pullback _ _ (abs_pos.2 hk) hf ((ih hw.1 _).1 h)).mono
        fun q hq => (mem_dilation hw.2 q).2 hq
    · intro h
      rw [locate] at h
      exact (Interior.pullback _ _ (abs_pos.2 hk) hf ((ih hw.1 _).2 h)).mono
        fun q hq hm => hq ((mem_dilation hw.2 q).1 hm)
  | refl b _ => intro hw; simp [WF] at hw
  | trans b v ih =>
    intro hw p
    simp only [WF] at hw
    have hf : ∀ δ q, 0 < δ → Near δ p q → Near (1 * δ) (p - v) (q - v) :=
      fun δ q _ h => by rw [one_mul]; exact near_sub h
    constructor
    · intro h
      rw [locate] at h
      exact (Interior.pullback (· - v) 1 one_pos hf ((ih hw _).1 h)).mono
        fun q hq => (mem_translation q).2 hq
    · intro h
      rw [locate] at h
      exact (Interior.pullback (· - v) 1 one_pos hf ((ih hw _).2 h)).mono
        fun q hq hm => hq ((mem_translation q).1 hm)
  | rot b m ih =>
    intro hw p
    simp only [WF] at hw
    obtain ⟨C, hC, hf⟩ := near_mulVec m.transpose
    constructor
    · intro h
      rw [locate] at h
      exact (Interior.pullback _ C hC (fun δ q hδ hq => hf p q δ hδ hq) ((ih hw.1 _).1 h)).mono
        fun q hq => (mem_rotation hw.2 q).2 hq
    · intro h
      rw [locate] at h
      exact (Interior.pullback _ C hC (fun δ q hδ hq => hf p q δ hδ hq) ((ih hw.1 _).2 h)).mono
        fun q hq hm => hq ((mem_rotation hw.2 q).1 hm)

/-- border means near the surface of one of the primitives -/
theorem locate_border {ret : ℝ} (h0 : 0 < ret) (s : Shape) : WF s → ∀ p,
    locate ret s p = .ok .onborder → ∃ f q, LeafAt s p f q ∧ NearSurface ret f q := by
  induction s using Shape.ind with
  | box X Y Z =>
    intro _ p h
    simp only [locate, Except.ok.injEq] at h
    exact ⟨_, _, .prim trivial, box_border h0 h⟩
  | cyl R h =>
    intro hw p h
    simp only [locate, Except.ok.injEq] at h
    exact ⟨_, _, .prim trivial, cylinder_border h⟩
  | pyr X Y h =>
    intro hw p h
    simp only [locate, Except.ok.injEq] at h
    exact ⟨_, _, .prim trivial, pyramid_border h⟩
  | cone R h =>
    intro hw p h
    simp only [locate, Except.ok.injEq] at h
    exact ⟨_, _, .prim trivial, cone_border h⟩
  | sph R =>
    intro _ p h
    simp only [locate, Except.ok.injEq] at h
    exact ⟨_, _, .prim trivial, sphere_border h⟩
  | diff a b iha ihb =>
    intro hw p h
    simp only [WF] at hw
    obtain ⟨la, lb, ha, hb, hd⟩ := locate_difference h
    rcases locDifference_onborder hd with rfl | rfl
    · obtain ⟨f, q, h1, h2⟩ := iha hw.1 p ha
      exact ⟨f, q, .left h1, h2⟩
    · obtain ⟨f, q, h1, h2⟩ := ihb hw.2 p hb
      exact ⟨f, q, .right h1, h2⟩
  | inter l ih =>
    intro hw p h
    simp only [WF, wfAll_iff] at hw
    rw [locate] at h
    rcases (locIntersection_spec _ _ _ _ _ h).2.2 rfl with h' | ⟨s, hs, h'⟩
    · cases h'
    · obtain ⟨f, q, h1, h2⟩ := ih s hs (hw s hs) p h'
      exact ⟨f, q, .inter hs h1, h2⟩
  | union l ih =>
    intro hw p h
    simp only [WF, wfAll_iff] at hw
    rw [locate] at h
    rcases (locUnion_spec _ _ _ _ _ h).2.2 rfl with h' | ⟨s, hs, h'⟩
    · cases h'
    · obtain ⟨f, q, h1, h2⟩ := ih s hs (hw s hs) p h'
      exact ⟨f, q, .union hs h1, h2⟩
  | dil b k ih =>
    intro hw p h
    simp only [WF] at hw
    rw [locate] at h
    obtain ⟨f, q, h1, h2⟩ := ih hw.1 _ h
    refine ⟨f, q, ?_, h2⟩
    have := LeafAt.dilation (k := k) h1
    rwa [smul_inv_smul' hw.2] at this
  | refl b _ => intro hw; simp [WF] at hw
  | trans b v ih =>
    intro hw p h
    simp only [WF] at hw
    rw [locate] at h
    obtain ⟨f, q, h1, h2⟩ := ih hw _ h
    refine ⟨f, q, ?_, h2⟩
    have := LeafAt.translation (v := v) h1
    rwa [sub_add_self'] at this
  | rot b m ih =>
    intro hw p h
    simp only [WF] at hw
    rw [locate] at h
    obtain ⟨f, q, h1, h2⟩ := ih hw.1 _ h
    refine ⟨f, q, ?_, h2⟩
    have := LeafAt.rotation (m := m) h1
    rwa [mulVec_transpose_mulVec hw.2] at this

theorem locIntersection_total {ret : ℝ} (l : List Shape) (p : V3 ℝ) (b : Bool)
    (h : ∀ s ∈ l, ∃ r, locate ret s p = .ok r) : ∃ r, locIntersection ret l p b = .ok r := by
  induction l generalizing b with
  | nil => exact ⟨_, rfl⟩
  | cons s l ih =>
    obtain ⟨r, hr⟩ := h s (by simp)
    rw [locIntersection, hr]
    simp only [bind, Except.bind]
    split
    · exact ⟨_, rfl⟩
    · exact ih _ fun s hs => h s (by simp [hs])

theorem locUnion_total {ret : ℝ} (l : List Shape) (p : V3 ℝ) (b : Bool)
    (h : ∀ s ∈ l, ∃ r, locate ret s p = .ok r) : ∃ r, locUnion ret l p b = .ok r := by
  induction l generalizing b with
  | nil => exact ⟨_, rfl⟩
  | cons s l ih =>
    obtain ⟨r, hr⟩ := h s (by simp)
    rw [locUnion, hr]
    simp only [bind, Except.bind]
    split
    · exact ⟨_, rfl⟩
    · exact ih _ fun s hs => h s (by simp [hs])

/-- the locator answers for every shape that makes sense -/
theorem locate_total (ret : ℝ) (s : Shape) : WF s → ∀ p, ∃ r, locate ret s p = .ok r := by
  induction s using Shape.ind with
  | box X Y Z => intro _ p; exact ⟨_, by rw [locate]⟩
  | cyl R h => intro _ p; exact ⟨_, by rw [locate]⟩
  | pyr X Y h => intro _ p; exact ⟨_, by rw [locate]⟩
  | cone R h => intro _ p; exact ⟨_, by rw [locate]⟩
  | sph R => intro _ p; exact ⟨_, by rw [locate]⟩
  | diff a b iha ihb =>
    intro hw p
    simp only [WF] at hw
    obtain ⟨ra, ha⟩ := iha hw.1 p
    obtain ⟨rb, hb⟩ := ihb hw.2 p
    rw [locate, ha, hb]
    exact ⟨_, rfl⟩
  | inter l ih =>
    intro hw p
    simp only [WF, wfAll_iff] at hw
    rw [locate]
    exact locIntersection_total _ _ _ fun s hs => ih s hs (hw s hs) p
  | union l ih =>
    intro hw p
    simp only [WF, wfAll_iff] at hw
    rw [locate]
    exact locUnion_total _ _ _ fun s hs => ih s hs (hw s hs) p
  | dil b k ih => intro hw p; simp only [WF] at hw; rw [locate]; exact ih hw.1 _
  | refl b _ => intro hw; simp [WF] at hw
  | trans b v ih => intro hw p; simp only [WF] at hw; rw [locate]; exact ih hw _
  | rot b m ih => intro hw p; simp only [WF] at hw; rw [locate]; exact ih hw.1 _

end Verif.Solid
