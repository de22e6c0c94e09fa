import Verif.Spec.McOptics2
import Verif.Lemmas.McGuide
import Verif.Lemmas.McOptics
/-!
Lemmas for the components of `Verif.Model.McOptics2`.
-/

namespace Verif.McOptB
open McStas Kinem Flight Solid McGuide McOpt Homog McMon
open Classical

theorem std_plain {c : Reflec} (h : ¬ (c.W = 0 ∧ c.alpha = 0)) (q : ℝ) :
    stdReflec c q = if (if c.W > 0 then (|q| - c.m * c.Qc) / c.W else 11) > 10 ∨ c.m ≤ 0 ∨ c.Qc ≤ 0 ∨ c.R0 ≤ 0 then 0
      else if |q| ≤ (if c.m < 1 then c.Qc * c.m else c.Qc) then c.R0
      else c.R0 * 0.5 * (1 - Real.tanh (if c.W > 0 then (|q| - c.m * c.Qc) / c.W else 11)) *
        (1 - c.alpha * (|q| - (if c.m < 1 then c.Qc * c.m else c.Qc))) := by
  unfold stdReflec
  simp only [if_neg h, zero_mul, add_zero]

theorem total_eq (c : Reflec) : (if c.m < 1 then c.Qc * c.m else c.Qc) = c.total := by
  unfold Reflec.total
  split
  · next h => rw [min_eq_left h.le]
  · next h => rw [min_eq_right (not_lt.1 h), mul_one]

/-! ### disk chopper -/

theorem new2_ok {c : Disk2Par} {d : Disk2} (h : Disk2.new c = .ok d) (hν : c.nu ≠ 0) :
    ∃ θ, 0 < θ ∧ 0 < c.nslit ∧ 0 < c.radius ∧ c.nslit * θ < 360 ∧ (c.theta_0 ≠ 0 ∨ c.xwidth = 0 → θ = c.theta_0) ∧
      (c.theta_0 = 0 ∧ c.xwidth ≠ 0 → ∃ a, Powder.asinD (c.xwidth / 2 / (c.radius - c.height / 2)) = some a ∧
        c.radius - c.height / 2 ≠ 0 ∧ θ = 2 * (180 / Real.pi) * a) ∧
      d = { theta_0 := θ * (Real.pi / 180), radius := c.radius, nslit := c.nslit, jitter := c.jitter, delay := c.late,
            n_pulse := c.n_pulse, Tg := 2 * Real.pi / |2 * Real.pi * c.nu| / c.nslit, To := θ * (Real.pi / 180) / |2 * Real.pi * c.nu|,
            delta_y := c.radius - c.height / 2, height := c.height, omega := 2 * Real.pi * c.nu, isFirst := c.isFirst,
            absOut := c.absOut } := by
  have hp := Real.pi_pos
  have hω : 2 * Real.pi * c.nu ≠ 0 := by positivity
  unfold Disk2.new at h
  have hh : (if c.yheight = 0 then c.radius else c.yheight) = c.height := rfl
  simp only [hh, if_neg hω] at h
  have hl : (if c.phase ≠ 0 then c.phase * (Real.pi / 180) / |2 * Real.pi * c.nu| else c.delay) = c.late := by
    unfold Disk2Par.late
    congr 1
    rw [abs_mul, abs_of_pos (by positivity : (0:ℝ) < 2 * Real.pi)]
    have : |c.nu| ≠ 0 := abs_ne_zero.2 hν
    field_simp
    ring
  rw [hl] at h
  split at h
  · cases h
  next θ hθ =>
  split at h
  · cases h
  next h1 =>
  split at h
  · cases h
  next h2 =>
  split at h
  · cases h
  split at h
  · cases h
  push Not at h1 h2
  refine ⟨θ, h1.2.1, h1.1, h1.2.2, h2, ?_, ?_, ?_⟩
  · intro hc
    rw [if_neg] at hθ
    · exact (Option.some.inj hθ).symm
    · rintro ⟨a, b, -⟩
      rcases hc with hc | hc
      · exact hc b
      · exact a hc
  · rintro ⟨hc1, hc2⟩
    rw [if_pos ⟨hc2, hc1, h1.2.2.ne'⟩] at hθ
    simp only [divD, bind, Option.bind] at hθ
    by_cases hd : c.radius - c.height / 2 = 0
    · simp [hd] at hθ
    · rw [if_neg hd] at hθ
      simp only at hθ
      cases ha : Powder.asinD (c.xwidth / 2 / (c.radius - c.height / 2)) with
      | none => rw [ha] at hθ; cases hθ
      | some a =>
        rw [ha] at hθ
        exact ⟨a, rfl, hd, (Option.some.inj hθ).symm⟩
  · cases h
    rfl

/-! ### filter -/

theorem index_eq {t : McTable.Table} (hr : 2 ≤ t.rows) (hc : 2 ≤ t.columns) {i j : ℕ} (hi : i < t.rows) (hj : j < t.columns) :
    t.index i j = t.data (i * t.columns + j) := by
  have hk : i * t.columns + j < t.rows * t.columns := by
    calc i * t.columns + j < i * t.columns + t.columns := by omega
      _ = (i + 1) * t.columns := by ring
      _ ≤ _ := Nat.mul_le_mul_right _ hi
  have h0 : t.rows * t.columns ≠ 0 := by omega
  unfold McTable.Table.index
  simp only [if_neg h0]
  congr 1
  have a1 : ¬ ((i : ℤ) < 0) := by omega
  have a2 : ¬ ((j : ℤ) < 0) := by omega
  have a3 : ¬ (t.columns = 1 ∨ t.rows = 1) := by omega
  have a4 : ¬ ((i : ℤ) ≥ t.rows) := by omega
  have a5 : ¬ ((j : ℤ) ≥ t.columns) := by omega
  have a6 : ¬ ((i : ℤ) * t.columns + j ≥ t.rows * t.columns) := by
    rw [ge_iff_le, not_le]; exact_mod_cast hk
  have a7 : ¬ ((i : ℤ) * t.columns + j < 0) := by
    rw [not_lt]; positivity
  simp only [if_neg a1, if_neg a2, if_neg a3, if_neg a4, if_neg a5, if_neg a6, if_neg a7]
  norm_cast

theorem factor_line {f : Filter} {t : McTable.Table} (ht : f.table = some t) (he : Even t) {X : ℝ} (hX : Covers t X) :
    ∃ y, OnLine t X y ∧ f.factor X = if f.thickness ≠ 1 then (if f.scaling * y < 0 then none else some ((f.scaling * y) ^ f.thickness))
      else some (f.scaling * y) := by
  obtain ⟨hr, hc, hs, hx⟩ := he
  obtain ⟨h0, h1⟩ := hX
  have hx0 := hx 0 (by omega)
  simp only [Nat.cast_zero, zero_mul, add_zero] at hx0
  rw [hx0] at h0
  rw [hx (t.rows - 1) (by omega), Nat.cast_sub (by omega)] at h1
  have hq0 : 0 ≤ (X - t.minX) / t.stepX := div_nonneg (by linarith) hs.le
  have hq1 : (X - t.minX) / t.stepX < (t.rows : ℝ) - 1 := by
    rw [div_lt_iff₀ hs]; push_cast at h1; linarith
  obtain ⟨i, hi⟩ := Int.eq_ofNat_of_zero_le (Int.floor_nonneg.2 hq0)
  have hfl := Int.floor_le ((X - t.minX) / t.stepX)
  have hfu := Int.lt_floor_add_one ((X - t.minX) / t.stepX)
  rw [hi] at hfl hfu
  simp only [Int.cast_natCast] at hfl hfu
  have hir : i + 1 < t.rows := by
    have : (i : ℝ) + 1 < t.rows := by linarith
    exact_mod_cast this
  have e0 := hx i (by omega)
  have e1 := hx (i + 1) hir
  rw [le_div_iff₀ hs] at hfl
  rw [div_lt_iff₀ hs] at hfu
  set s := (X - t.minX - i * t.stepX) / t.stepX with hsd
  have hsX : X = t.minX + i * t.stepX + s * t.stepX := by rw [hsd]; field_simp; ring
  refine ⟨(1 - s) * t.data (i * t.columns + 1) + s * t.data ((i + 1) * t.columns + 1), ⟨i, s, hir, ?_, ?_, ?_, rfl⟩, ?_⟩
  · exact div_nonneg (by linarith) hs.le
  · rw [hsd, div_le_one hs]; linarith
  · rw [e0, e1]; push_cast; linear_combination hsX
  · unfold Filter.factor
    rw [ht]
    simp only [hi]
    have i0 := index_eq (t := t) (i := i) (j := 0) hr hc (by omega) (by omega)
    have i1 := index_eq (t := t) (i := i) (j := 1) hr hc (by omega) (by omega)
    have i2 := index_eq (t := t) (i := i + 1) (j := 1) hr hc hir (by omega)
    simp only [Nat.cast_zero, Nat.cast_one, Nat.cast_add, add_zero] at i0 i1 i2
    simp only [i0, i1, i2, e0]
    have : (X - (t.minX + i * t.stepX)) * (t.data ((i + 1) * t.columns + 1) - t.data (i * t.columns + 1)) / t.stepX =
        s * (t.data ((i + 1) * t.columns + 1) - t.data (i * t.columns + 1)) := by
      rw [hsd]; field_simp; ring
    rw [this]
    have : t.data (i * t.columns + 1) + s * (t.data ((i + 1) * t.columns + 1) - t.data (i * t.columns + 1)) =
      (1 - s) * t.data (i * t.columns + 1) + s * t.data ((i + 1) * t.columns + 1) := by ring
    rw [this]

theorem quantity_eq (f : Filter) (v : V3 ℝ) : f.X v = quantity f.kind v := by
  have h : v.x * v.x + v.y * v.y + v.z * v.z = length v ^ 2 := by
    unfold length V3.length2
    rw [Real.sq_sqrt (by nlinarith [mul_self_nonneg v.x, mul_self_nonneg v.y, mul_self_nonneg v.z])]
  have h' : 0 ≤ length v := Real.sqrt_nonneg _
  unfold Filter.X quantity
  simp only [h, Real.sqrt_sq h']
  cases f.kind <;> rfl

/-! ### radial collimator -/

theorem axis_speed {e : Event ℝ} (h : FromAxis e) : 0 < length e.v ∧ length e.v ^ 2 = e.v.x * e.v.x + e.v.z * e.v.z := by
  obtain ⟨-, -, hy, hv⟩ := h
  have h1 : e.v.dot e.v = e.v.x * e.v.x + e.v.z * e.v.z := by simp only [V3.dot, hy]; ring
  have h0 : 0 < e.v.dot e.v := by
    rcases lt_or_eq_of_le (show 0 ≤ e.v.dot e.v by rw [h1]; nlinarith [mul_self_nonneg e.v.x, mul_self_nonneg e.v.z]) with h | h
    · exact h
    · exfalso
      rw [h1] at h
      apply hv
      have hx : e.v.x = 0 := by nlinarith [mul_self_nonneg e.v.x, mul_self_nonneg e.v.z]
      have hz : e.v.z = 0 := by nlinarith [mul_self_nonneg e.v.x, mul_self_nonneg e.v.z]
      ext
      · exact hx
      · exact hy
      · exact hz
  have h2 : length e.v = √(e.v.dot e.v) := rfl
  rw [h2]
  exact ⟨Real.sqrt_pos.2 h0, by rw [Real.sq_sqrt h0.le, h1]⟩

theorem later_axis {e : Event ℝ} (h : FromAxis e) {r hh : ℝ} (hr : 0 < r) :
    later e r hh = if |e.r.y| ≤ hh / 2 then some (some (r / length e.v)) else some none := by
  obtain ⟨hs, hs2⟩ := axis_speed h
  obtain ⟨hx, hz, hy, -⟩ := h
  have hD : (2 * e.v.x * e.r.x + 2 * e.v.z * e.r.z) * (2 * e.v.x * e.r.x + 2 * e.v.z * e.r.z) -
      4 * (e.v.x * e.v.x + e.v.z * e.v.z) * (e.r.x * e.r.x + e.r.z * e.r.z - r * r) = (2 * length e.v * r) ^ 2 := by
    rw [hx, hz, ← hs2]; ring
  have hn : 2 * (e.v.z * e.v.z + e.v.x * e.v.x) = 2 * length e.v ^ 2 := by rw [hs2]; ring
  have hn0 : 2 * length e.v ^ 2 ≠ 0 := by positivity
  have ht1 : (-(2 * e.v.z * e.r.z + 2 * e.v.x * e.r.x) - 2 * length e.v * r) / (2 * length e.v ^ 2) = -(r / length e.v) := by
    rw [hx, hz]; field_simp; ring
  have ht2 : (-(2 * e.v.z * e.r.z + 2 * e.v.x * e.r.x) + 2 * length e.v * r) / (2 * length e.v ^ 2) = r / length e.v := by
    rw [hx, hz]; field_simp; ring
  have hpos : 0 < r / length e.v := by positivity
  unfold later cylinderIntersect
  simp only [hD, hn, if_pos (show (2 * length e.v * r) ^ 2 ≥ 0 by positivity), Real.sqrt_sq (show 0 ≤ 2 * length e.v * r by positivity), divD,
    if_neg hn0, bind, Option.bind, ht1, ht2]
  unfold cylinderEnds
  simp only [hy, zero_mul, zero_add]
  by_cases hin : |e.r.y| ≤ hh / 2
  · obtain ⟨h1, h2⟩ := abs_le.1 hin
    have n1 : ¬ (e.r.y > hh / 2) := not_lt.2 h2
    have n2 : ¬ (e.r.y < -hh / 2) := not_lt.2 (by linarith)
    rw [if_pos hin, if_neg (by rintro (⟨h, -⟩ | ⟨h, -⟩); exacts [n1 h, n2 h])]
    simp only [capTime, if_neg n1, if_neg n2]
    rw [if_pos (by linarith)]
  · rw [if_neg hin, if_pos]
    rw [abs_le, not_and_or, not_le, not_le] at hin
    rcases hin with h | h
    · right; constructor <;> linarith
    · left; exact ⟨h, h⟩

theorem direction_far {e : Event ℝ} (h : FromAxis e) {s : ℝ} (hs : 0 < s) :
    Frames.arctan2 (flownFar e s).r.x (flownFar e s).r.z = direction e := by
  obtain ⟨hl, -⟩ := axis_speed h
  obtain ⟨hx, hz, -, -⟩ := h
  unfold Frames.arctan2 direction flownFar
  rw [off_r]
  simp only [V3.add_x, V3.add_z, V3.smul_x, V3.smul_z, hx, hz, zero_add]
  have : (⟨s / length e.v * e.v.z, s / length e.v * e.v.x⟩ : ℂ) = ((s / length e.v : ℝ) : ℂ) * ⟨e.v.z, e.v.x⟩ := by
    apply Complex.ext <;> simp
  rw [this, Complex.arg_real_mul _ (by positivity)]

theorem far_v (e : Event ℝ) (s : ℝ) : (flownFar e s).v = e.v := off_v _ _

theorem far_y {e : Event ℝ} (h : FromAxis e) (s : ℝ) : (flownFar e s).r.y = e.r.y := by
  unfold flownFar
  rw [off_r]
  simp [h.2.2.1]

theorem far_first {G : Gravity} (hG : G.on = false) {e : Event ℝ} (h : FromAxis e) {s : ℝ} (hs : 0 < s) :
    propDt G (s / length e.v) e = flownFar e s := by
  rw [fly (div_nonneg hs.le (axis_speed h).1.le), flown_off hG]; rfl

theorem far_next {G : Gravity} (hG : G.on = false) {e : Event ℝ} (h : FromAxis e) {s s' : ℝ} (hs : s < s') :
    propDt G (s' / length e.v - s / length e.v) (flownFar e s) = flownFar e s' := by
  have hl := (axis_speed h).1
  have : s / length e.v < s' / length e.v := (div_lt_div_iff_of_pos_right hl).2 hs
  rw [fly (by linarith), flown_off hG]
  have a : (flownFar e s).v = e.v := far_v e s
  have hr : (flown Off (flownFar e s) (s' / length e.v - s / length e.v)).r = (flownFar e s').r := by
    rw [off_r, a]
    unfold flownFar
    rw [off_r, off_r]
    ext <;> simp <;> ring
  have hv : (flown Off (flownFar e s) (s' / length e.v - s / length e.v)).v = (flownFar e s').v := by
    rw [off_v, a, far_v]
  have ht : (flown Off (flownFar e s) (s' / length e.v - s / length e.v)).t = (flownFar e s').t := by
    simp [flown, flownFar]
  exact Event.ext hr hv rfl rfl ht rfl

theorem middle_eq (d : Radial) (k : ℤ) : d.centre k = d.middle k := by
  unfold Radial.centre Radial.middle; ring

/-! ### guide with channels -/

theorem next_hit_on {g : Guide} (hl : 0 < g.l) {e : Event ℝ} (hin : g.Inside e.r) (hz : e.r.z < g.l) {t : ℝ} {w : Wall}
    (h : g.next e = some (t, w)) :
    0 ≤ t ∧ HitOn g ((1 / g.l) • w.n) e { flown Off e t with v := (bounce w e.v).2 } (bounce w e.v).1 ∧ g.Inside (flown Off e t).r ∧
      (flown Off e t).r.z < g.l ∧ w ∈ g.walls := by
  obtain ⟨h0, -, -, h2, h3⟩ := next_hit hl hin hz h
  obtain ⟨hw, hv, ht, hx, hmin⟩ := next_some h
  have hin' := (inside_iff hl _).1 hin
  have hz0 : 0 ≤ e.v.z := (next_hit hl hin hz h).2.1
  have hzt : ∀ τ, 0 ≤ τ → τ ≤ t → (flown Off e τ).r.z < g.l := by
    intro τ g0 g1
    rw [off_r] at h3 ⊢
    simp only [V3.add_z, V3.smul_z] at h3 ⊢
    have := mul_le_mul_of_nonneg_right g1 hz0
    linarith
  have hins : ∀ τ, 0 ≤ τ → τ ≤ t → g.Inside (flown Off e τ).r := by
    intro τ g0 g1
    exact (inside_iff hl _).2 fun w' hw' => before_wall (hin' w' hw') g0 fun hv' => g1.trans (hmin w' hw' hv')
  refine ⟨h0, ⟨t, h0, ?_, ?_, fun τ g0 g1 => ⟨hins τ g0 g1, hzt τ g0 g1⟩, ?_, rfl, ?_⟩, h2, h3, hw⟩
  · exact face_of hl hw (by rw [ht]; exact on_wall hv)
  · have : ((1 / g.l) • w.n).dot e.v = 1 / g.l * w.n.dot e.v := by
      simp only [V3.dot, V3.smul_x, V3.smul_y, V3.smul_z]; ring
    rw [this]
    exact mul_neg_of_pos_of_neg (by positivity) hv
  · exact bounce_mirrored (wall_pos hl hw) (by positivity) _
  · exact bounce_q (wall_pos hl hw) hv

theorem coat_eq {c : Chan} (hl : 0 < c.l) {w : Wall} (hw : w ∈ c.inner.walls) : c.coat w = c.coating ((1 / c.inner.l) • w.n) := by
  have hl' : 1 / c.l ≠ 0 := by positivity
  unfold Chan.coat Chan.coating
  simp only [Guide.walls, Chan.inner, List.mem_cons, List.not_mem_nil, or_false] at hw
  rcases hw with rfl | rfl | rfl | rfl
  · rw [if_pos hl.ne', if_pos (by simp)]; rfl
  · rw [if_pos (by simpa using hl.ne'), if_pos (by simp)]; rfl
  · rw [if_neg (by simp), if_neg (by simpa [Chan.inner] using hl.ne')]; rfl
  · rw [if_neg (by simp), if_neg (by simpa [Chan.inner] using hl.ne')]; rfl

theorem tube_same (c : Chan) : (∀ r, c.tube.Inside r ↔ c.inner.Inside r) ∧ (∀ n r, c.tube.Face n r ↔ c.inner.Face n r) ∧
    (∀ e, c.tube.Leaves e ↔ c.inner.Leaves e) ∧ ∀ n e e' q, HitOn c.tube n e e' q ↔ HitOn c.inner n e e' q :=
  ⟨fun _ => Iff.rfl, fun _ _ => Iff.rfl, fun _ => Iff.rfl, fun _ _ _ _ => Iff.rfl⟩

theorem chan_sound {c : Chan} {G : Gravity} (hG : G.on = false) (hl : 0 < c.l) : ∀ (fuel : Nat) (e r : Event ℝ), c.tube.Inside e.r →
    e.r.z < c.l → chanLoop c G fuel e = some r → ∃ b, Relation.ReflTransGen c.Step0 e b ∧ c.Ends0 b r
  | 0, e, r, _, _, h => by cases h
  | fuel + 1, e, r, hin, hz, h => by
    rw [chanLoop] at h
    cases hn : c.inner.next e with
    | none =>
      rw [hn] at h
      cases h
      exact ⟨_, .refl, .inl ⟨next_leaves (g := c.inner) hl hin hz hn, rfl⟩⟩
    | some tw =>
      obtain ⟨t, w⟩ := tw
      obtain ⟨h0, h1, h2, h3, hw⟩ := next_hit_on (g := c.inner) hl hin hz hn
      rw [hn] at h
      simp only [fly h0, flown_off hG, off_v, weight_eq, coat_eq hl hw] at h
      cases hR : (c.coating ((1 / c.inner.l) • w.n)).R (bounce w e.v).1 with
      | none =>
        rw [hR] at h
        cases h
        exact ⟨e, .refl, .inr ⟨_, _, _, h1, hR, rfl⟩⟩
      | some k =>
        rw [hR] at h
        obtain ⟨b, hb, hr⟩ := chan_sound hG hl fuel { flown Off e t with v := (bounce w e.v).2, p := e.p * k } r h2 h3 h
        exact ⟨b, .head ⟨_, _, _, k, h1, hR, rfl⟩ hb, hr⟩

theorem shift_seen (c : Chan) (n : ℤ) (e : Event ℝ) : shift (-c.mid n) e = c.seen n e := by
  unfold shift Chan.seen
  rw [sub_eq_add_neg]

theorem seen_shift (c : Chan) (n : ℤ) (e : Event ℝ) : c.seen n (shift (c.mid n) e) = e := by
  unfold shift Chan.seen
  simp

theorem shift_back (c : Chan) (n : ℤ) (e : Event ℝ) : shift (c.mid n) (c.seen n e) = e := by
  unfold shift Chan.seen
  simp

end Verif.McOptB
