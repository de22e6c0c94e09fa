import Verif.Lemmas.McGuide
/-!
Property theorems: guides and mirrors of McStas.
-/

namespace Verif.McGuide
open McStas Kinem Flight Solid Homog McMon McOpt

/-- C180: a neutron that comes to the entrance of a guide (without gravity) is stopped if it is not in the opening; otherwise it flies
straight between the walls from reflection to reflection, each of which mirrors its velocity and multiplies its weight by the
reflectivity for the momentum transfer; after the last one it does not meet a wall before the exit or flies back, or it is stopped because
the coating does not reflect.  Missing: that the trace ends (only for straight guides, `C180_ends`). -/
theorem C180_partial (g : Guide) (hl : 0 < g.l) (G : Gravity) (hG : G.on = false) (e a : Event ℝ) (h : Comes G e a) (fuel : Nat)
    (r : Event ℝ) (hr : guide g G fuel e = some r) :
    (¬ (|a.r.x| < g.w1 / 2 ∧ |a.r.y| < g.h1 / 2) → r = stopped a) ∧
    (|a.r.x| < g.w1 / 2 ∧ |a.r.y| < g.h1 / 2 → ∃ b, Relation.ReflTransGen g.Step a b ∧ g.Ends b r) := by
  have haz : a.r.z = 0 := by
    obtain ⟨⟨s, hs, rfl⟩, -⟩ := h
    exact hs.2.1
  unfold guide at hr
  rw [comes_prop h] at hr
  simp only at hr
  have hiff : (a.r.x ≤ -(0.5 * g.w1) ∨ a.r.x ≥ 0.5 * g.w1 ∨ a.r.y ≤ -(0.5 * g.h1) ∨ a.r.y ≥ 0.5 * g.h1) ↔
      ¬ (|a.r.x| < g.w1 / 2 ∧ |a.r.y| < g.h1 / 2) := by
    rw [abs_lt, abs_lt]
    constructor
    · rintro (h | h | h | h) ⟨⟨_, _⟩, _, _⟩ <;> linarith
    · intro h
      by_contra hn
      push Not at hn
      exact h ⟨⟨by linarith [hn.1], by linarith [hn.2.1]⟩, by linarith [hn.2.2.1], by linarith [hn.2.2.2]⟩
  constructor
  · intro h1
    rw [if_pos (hiff.2 h1)] at hr
    exact (Option.some.inj hr).symm
  · intro h1
    rw [if_neg fun h2 => hiff.1 h2 h1] at hr
    refine loop_sound hG hl fuel a r ?_ (by rw [haz]; exact hl) hr
    unfold Guide.Inside Guide.halfW Guide.halfH
    rw [haz]
    simp only [zero_div, mul_zero, add_zero]
    exact ⟨h1.1.le, h1.2.le⟩

/-- C180: the speed of the neutrons does not change in a guide -/
theorem C180_speed (g : Guide) (a b : Event ℝ) (h : Relation.ReflTransGen g.Step a b) : b.v.dot b.v = a.v.dot a.v := by
  induction h with
  | refl => rfl
  | @tail b' c _ hs ih =>
    rw [← ih]
    obtain ⟨e1, q, w, ⟨s, n, -, -, -, -, ⟨⟨k, hk⟩, hm⟩, -, -⟩, -, rfl⟩ := hs
    have hx := congrArg V3.x hk
    have hy := congrArg V3.y hk
    have hz := congrArg V3.z hk
    simp only [V3.sub_x, V3.sub_y, V3.sub_z, V3.smul_x, V3.smul_y, V3.smul_z] at hx hy hz
    simp only [V3.dot] at hm ⊢
    have hx : e1.v.x = b'.v.x + k * n.x := by linarith
    have hy : e1.v.y = b'.v.y + k * n.y := by linarith
    have hz : e1.v.z = b'.v.z + k * n.z := by linarith
    rw [hx, hy, hz] at hm ⊢
    linear_combination k * hm

/-- C180: in a straight guide the trace of a neutron that moves towards the exit ends; the number of reflections is limited by the width
and height it would cross -/
theorem C180_ends (g : Guide) (hl : 0 < g.l) (hw : 0 < g.w1) (hh : 0 < g.h1) (h2 : g.w2 = g.w1) (h3 : g.h2 = g.h1) (G : Gravity)
    (hG : G.on = false) (e a : Event ℝ) (h : Comes G e a) (hv : 0 < e.v.z) (fuel : Nat)
    (hf : g.l / e.v.z * (|e.v.x| / g.w1 + |e.v.y| / g.h1) + 2 < fuel) : ∃ r, guide g G fuel e = some r := by
  have haz : a.r.z = 0 ∧ a.v = e.v := by
    obtain ⟨⟨s, hs, rfl⟩, -⟩ := h
    exact ⟨hs.2.1, by rw [flown_off hG, off_v]⟩
  unfold guide
  rw [comes_prop h]
  simp only
  split
  · exact ⟨_, rfl⟩
  · next hn =>
    push Not at hn
    obtain ⟨n1, n2, n3, n4⟩ := hn
    have hx : |a.r.x| ≤ g.w1 / 2 := abs_le.2 ⟨by linarith, by linarith⟩
    have hy : |a.r.y| ≤ g.h1 / 2 := abs_le.2 ⟨by linarith, by linarith⟩
    refine loop_ends hG hl hw hh h2 h3 fuel a ((straight_inside h2 h3 _).2 ⟨hx, hy⟩) (by rw [haz.1]; exact hl) (by rw [haz.2]; exact hv) ?_
    refine lt_of_le_of_lt (todo_le hw hh hx hy) ?_
    rw [haz.1, haz.2, sub_zero]
    exact hf

/-- a neutron that comes along the guide at an angle -/
noncomputable def slanted : Event ℝ := ⟨⟨0, 0, -1⟩, ⟨1, 0, 1⟩, 0, 0, 0, 1⟩

example : Comes Off slanted (flown Off slanted 1) := by
  refine ⟨⟨1, ⟨by norm_num, ?_, ?_⟩, rfl⟩, .inl ⟨rfl, by norm_num [slanted]⟩⟩
  · rw [off_r]; norm_num [slanted]
  · intro s' _ h
    rw [off_r]
    simp only [slanted, V3.add_z, V3.smul_z]
    intro h2; linarith

example : (1 : ℝ) / 1 * (|1| / 4 + |0| / 4) + 2 < (3 : ℕ) := by norm_num

/-- C180 is false: a neutron that moves across a guide (for which the propagation to the entrance only sets the weight) never leaves the
loop -/
theorem C180_ends_false : ¬ ∀ (g : Guide) (G : Gravity) (e : Event ℝ), g.check = .ok () → 0 < g.l → 0 < g.w1 → 0 < g.h1 →
    G.on = false → ∃ fuel r, guide g G fuel e = some r := by
  intro h
  obtain ⟨fuel, r, hr⟩ := h unitGuide Off ⟨⟨0, 0, -1⟩, ⟨1, 0, 0⟩, 0, 0, 0, 1⟩ (by simp [Guide.check, unitGuide]; norm_num)
    (by norm_num [unitGuide]) (by norm_num [unitGuide]) (by norm_num [unitGuide]) rfl
  unfold guide at hr
  have : propZ0 Off ⟨⟨0, 0, -1⟩, ⟨1, 0, 0⟩, 0, 0, 0, 1⟩ = ⟨⟨0, 0, -1⟩, ⟨1, 0, 0⟩, 0, 0, 0, -1⟩ := by
    simp [propZ0, Off, propZ0Free, absorb]
  rw [this] at hr
  simp only at hr
  rw [if_neg (by norm_num [unitGuide]), forever rfl fuel _ (by norm_num) rfl (by norm_num) (.inl rfl)] at hr
  cases hr

/-- C181: the weight of a neutron in a guide does not become negative and does not grow, if the linear decrease of the reflectivity does
not reach 0 before the cut-off -/
theorem C181_partial (g : Guide) (ht : g.coat.table = none) (h0 : 0 ≤ g.coat.R0) (h1 : g.coat.R0 ≤ 1) (ha : 0 ≤ g.coat.alpha)
    (hW : 0 < g.coat.W) (h : g.coat.alpha * ((g.coat.m - 1) * g.coat.Qc + 10 * g.coat.W) ≤ 1) (a b : Event ℝ)
    (hs : Relation.ReflTransGen g.Step a b) (hp : 0 ≤ a.p) : 0 ≤ b.p ∧ b.p ≤ a.p := by
  induction hs with
  | refl => exact ⟨hp, le_rfl⟩
  | @tail b' c _ hs ih =>
    obtain ⟨e1, q, w, ⟨s, n, -, -, -, -, -, he, -⟩, hR, rfl⟩ := hs
    have hp1 : e1.p = b'.p := by rw [he]; rfl
    obtain ⟨w0, w1⟩ := R_mem ht h0 ha hW h hR
    simp only [hp1]
    exact ⟨mul_nonneg ih.1 w0, (mul_le_of_le_one_right ih.1 (w1.trans h1)).trans ih.2⟩

/-- the defaults -/
example : (6.07 : ℝ) * ((2 - 1) * 0.0219 + 10 * 0.003) ≤ 1 := by norm_num

/-- a guide with `m` = 8 and the other parameters of the coating at the defaults -/
noncomputable def guide8 : Guide := ⟨1, 1, 1, 1, 1, ⟨0.99, 0.0219, 6.07, 8, 0.003, none⟩⟩

/-- a neutron that hits a wall of this guide once, with the momentum transfer 0.19 -/
noncomputable def steep : Event ℝ := ⟨⟨-0.49, 0, 0⟩, ⟨-(0.19 / (2 * V2K)), 0, 1000⟩, 0, 0, 0, 1⟩

/-- C181 is false: with a supermirror of `m` = 8 a neutron leaves the guide with a negative weight and is not marked as absorbed -/
theorem C181_false : ∃ r, guide8.check = .ok () ∧ Comes Off steep steep ∧ guide guide8 Off 2 steep = some r ∧ r.p < 0 ∧ r.p ≠ -1 := by
  have hc : Comes Off steep steep := by
    refine ⟨⟨0, ⟨le_rfl, ?_, ?_⟩, ?_⟩, .inl ⟨rfl, by norm_num [steep]⟩⟩
    · rw [off_r]; norm_num [steep]
    · intro s' h1 h2; linarith
    · have h1 : (flown Off steep 0).r = steep.r := by rw [off_r]; ext <;> simp
      have h2 := off_v steep 0
      have h3 : (flown Off steep 0).t = steep.t := by simp [flown]
      calc steep = { flown Off steep 0 with r := steep.r, v := steep.v, t := steep.t } := rfl
        _ = _ := by rw [← h1, ← h2, ← h3]
  have hcheck : guide8.check = .ok () := by simp [Guide.check, guide8]; norm_num
  have hl : 0 < guide8.l := by norm_num [guide8]
  have hin : guide8.Inside steep.r := (straight_inside rfl rfl _).2 ⟨by norm_num [guide8, steep, abs_le], by norm_num [guide8, steep]⟩
  have hz : steep.r.z < guide8.l := by norm_num [guide8, steep]
  have hvx : steep.v.x = -(0.19 / (2 * V2K)) := rfl
  have hneg : steep.v.x < 0 := by rw [hvx]; norm_num [V2K]
  have hT : guide8.toExit steep = ((0.001 : ℝ) : EReal) := by
    unfold Guide.toExit
    rw [if_neg (by norm_num [steep])]
    congr 1; norm_num [guide8, steep]
  have hwalls : ∀ w ∈ guide8.walls, w = ⟨⟨1, 0, 0⟩, 0.5⟩ ∨ w = ⟨⟨-1, 0, 0⟩, 0.5⟩ ∨ w = ⟨⟨0, 1, 0⟩, 0.5⟩ ∨ w = ⟨⟨0, -1, 0⟩, 0.5⟩ := by
    intro w hw
    simpa [Guide.walls, guide8] using hw
  cases hn : guide8.next steep with
  | none =>
    exfalso
    have := next_none hn (w := ⟨⟨1, 0, 0⟩, 0.5⟩) (by simp [Guide.walls, guide8]) (by simpa [V3.dot, steep] using hneg)
    rw [hT, EReal.coe_le_coe_iff] at this
    unfold Wall.time Wall.at at this
    norm_num [V3.dot, steep, V2K] at this
  | some tw =>
    obtain ⟨t, w⟩ := tw
    obtain ⟨hw, hv, ht, -, -⟩ := next_some hn
    obtain ⟨t0, -, -, h5, h6⟩ := next_hit hl hin hz hn
    have hw1 : w = ⟨⟨1, 0, 0⟩, 0.5⟩ := by
      rcases hwalls w hw with h | h | h | h
      · exact h
      all_goals
        exfalso
        rw [h] at hv
        norm_num [V3.dot, steep, V2K] at hv
    have hb1 : (bounce w steep.v).1 = 0.19 := by
      rw [hw1]; norm_num [bounce, V3.dot, steep, V2K]
    have hb2 : (bounce w steep.v).2 = ⟨0.19 / (2 * V2K), 0, 1000⟩ := by
      rw [hw1]; ext <;> norm_num [bounce, V3.dot, steep, V2K]
    have hR : guide8.coat.R 0.19 = some (0.99 * (1 - 6.07 * (0.19 - 0.0219)) / (1 + Real.exp (2 * ((0.19 - 8 * 0.0219) / 0.003)))) := by
      unfold Coating.R guide8
      rw [if_neg (by norm_num)]
      simp only
      rw [if_neg (by norm_num), if_neg (by norm_num)]
    have hneg' : guide8.next { flown Off steep t with v := (bounce w steep.v).2, p := steep.p * (0.99 * (1 - 6.07 * (0.19 - 0.0219)) / (1 + Real.exp (2 * ((0.19 - 8 * 0.0219) / 0.003)))) } = none := by
      by_contra hne
      obtain ⟨⟨t', w'⟩, hn'⟩ := Option.ne_none_iff_exists'.1 hne
      obtain ⟨hw', hv', ht', hx', -⟩ := next_some hn'
      have hw2 : w' = ⟨⟨-1, 0, 0⟩, 0.5⟩ := by
        rcases hwalls w' hw' with h | h | h | h
        rotate_left
        · exact h
        all_goals
          exfalso
          rw [h, hb2] at hv'
          norm_num [V3.dot, V2K] at hv'
      have ht1 : t = 0.02 * V2K / 0.19 := by
        rw [ht, hw1]; unfold Wall.time Wall.at; norm_num [V3.dot, steep, V2K]
      rw [ht', hw2] at hx'
      unfold Guide.toExit Wall.time Wall.at at hx'
      rw [if_neg (by rw [hb2]; norm_num), EReal.coe_lt_coe_iff, hb2, off_r, ht1] at hx'
      norm_num [V3.dot, steep, V2K, guide8] at hx'
    refine ⟨{ flown Off steep t with v := (bounce w steep.v).2, p := steep.p * (0.99 * (1 - 6.07 * (0.19 - 0.0219)) /
      (1 + Real.exp (2 * ((0.19 - 8 * 0.0219) / 0.003)))) }, hcheck, hc, ?_, ?_, ?_⟩
    · unfold guide
      rw [comes_prop hc]
      simp only
      rw [if_neg (by norm_num [steep, guide8]), guideLoop_some rfl hn t0, hb1, hR]
      exact guideLoop_none hneg' 0
    · have := Real.exp_pos (2 * ((0.19 - 8 * 0.0219) / 0.003))
      simp only [steep, one_mul]
      apply div_neg_of_neg_of_pos <;> [norm_num; linarith]
    · have := Real.exp_pos (2 * ((0.19 - 8 * 0.0219) / 0.003))
      simp only [steep, one_mul]
      intro h
      rw [div_eq_iff (by linarith)] at h
      norm_num at h
      norm_num at this
      linarith

/-- C182: a neutron that does not move towards a mirror or passes outside of it is not changed -/
theorem C182_misses (c : Mirror) (u : ℝ) (e : Event ℝ)
    (h : ∀ s, 0 ≤ s → (flown Off e s).r.z = 0 → e.v.z ≠ 0 → ¬ c.Area (flown Off e s).r.x (flown Off e s).r.y) : mirror c u e = e := by
  unfold mirror
  split
  · next h1 =>
    have hz : (flown Off e (-e.r.z / e.v.z)).r.z = 0 := by
      rw [off_r]; simp only [V3.add_z, V3.smul_z]; rw [div_mul_cancel₀ _ h1.1]; ring
    have h2 := h _ h1.2 hz h1.1
    simp only
    rw [if_neg]
    intro h3
    apply h2
    rw [off_r]
    simp only [V3.add_x, V3.smul_x, V3.add_y, V3.smul_y, Mirror.Area]
    cases hc : c.center
    · rw [hc] at h3
      simp only [if_true] at h3
      obtain ⟨a1, a2, a3, a4⟩ := h3
      simp only [Bool.false_eq_true, if_false]
      exact ⟨⟨by linarith, by linarith⟩, by linarith, by linarith⟩
    · rw [hc] at h3
      simp only [Bool.true_eq_false, if_false] at h3
      obtain ⟨a1, a2, a3, a4⟩ := h3
      simp only [if_true, abs_le]
      exact ⟨⟨by linarith, by linarith⟩, by linarith, by linarith⟩
  · rfl

/-- C182: a neutron that meets a mirror is there at the right time.  It is absorbed by a mirror with `m` = 0.  Otherwise, with the
reflectivity `B` limited to [0, 1], it is mirrored with the weight `B` or absorbed if that is 0, or, with `transmit`, it is mirrored for
the part `B` of the random numbers and transmitted for the others. -/
theorem C182_meets (c : Mirror) (u : ℝ) (hu0 : 0 ≤ u) (e : Event ℝ) (s : ℝ) (hs : 0 ≤ s) (hz : (flown Off e s).r.z = 0) (hv : e.v.z ≠ 0)
    (ha : c.Area (flown Off e s).r.x (flown Off e s).r.y) :
    ∃ a B, a = { flown Off e s with v := a.v } ∧ Mirrored ⟨0, 0, 1⟩ e.v a.v ∧ 0 ≤ B ∧ B ≤ 1 ∧
      (c.coat.m ≠ 0 → B = c.coat.unit (V2K * length (a.v - e.v))) ∧
      mirror c u e = if c.coat.m = 0 then stopped a else
        if c.transmit then (if u < B then a else flown Off e s)
        else (if B = 0 then stopped a else { a with p := e.p * B }) := by
  have hs' : s = -e.r.z / e.v.z := by
    rw [off_r] at hz; simp only [V3.add_z, V3.smul_z] at hz
    rw [eq_div_iff hv]; linarith
  have hr : (flown Off e s).r = ⟨e.r.x + e.v.x * s, e.r.y + e.v.y * s, 0⟩ := by
    rw [off_r] at hz ⊢
    ext
    · simp only [V3.add_x, V3.smul_x]; ring
    · simp only [V3.add_y, V3.smul_y]; ring
    · exact hz
  have hf : flown Off e s = ⟨⟨e.r.x + e.v.x * s, e.r.y + e.v.y * s, 0⟩, e.v, e.s1, e.s2, e.t + s, e.p⟩ := by
    calc flown Off e s = { flown Off e s with r := (flown Off e s).r, v := (flown Off e s).v } := rfl
      _ = _ := by rw [hr, off_v]; rfl
  have hlen : V2K * length ((⟨e.v.x, e.v.y, -e.v.z⟩ : V3 ℝ) - e.v) = |2 * e.v.z * V2K| := by
    rw [length_eq]
    have : ((⟨e.v.x, e.v.y, -e.v.z⟩ : V3 ℝ) - e.v).dot ((⟨e.v.x, e.v.y, -e.v.z⟩ : V3 ℝ) - e.v) = (2 * e.v.z) ^ 2 := by
      simp only [V3.dot, V3.sub_x, V3.sub_y, V3.sub_z]; ring
    rw [this, Real.sqrt_sq_eq_abs, abs_mul (2 * e.v.z), abs_of_pos (by norm_num [V2K] : (0:ℝ) < V2K), mul_comm]
  refine ⟨⟨⟨e.r.x + e.v.x * s, e.r.y + e.v.y * s, 0⟩, ⟨e.v.x, e.v.y, -e.v.z⟩, e.s1, e.s2, e.t + s, e.p⟩, c.coat.unit |2 * e.v.z * V2K|,
    by rw [hf], ⟨⟨-2 * e.v.z, ?_⟩, by simp [V3.dot]⟩, (unit_mem _ _).1, (unit_mem _ _).2, fun _ => by rw [hlen], ?_⟩
  · ext
    · simp
    · simp
    · simp; ring
  · rw [hr] at ha
    unfold mirror
    rw [if_pos ⟨hv, hs' ▸ hs⟩]
    simp only
    rw [← hs', if_pos]
    · split
      · rfl
      · next hm =>
        rw [clipped_eq hm, hf]
        cases c.transmit
        · simp only [if_true, Bool.false_eq_true, if_false]; rfl
        · simp only [Bool.true_eq_false, if_false, if_true, neg_neg]
          by_cases hu : u < c.coat.unit |2 * e.v.z * V2K|
          · by_cases hB : c.coat.unit |2 * e.v.z * V2K| = 0
            · linarith
            · rw [if_neg (by rintro (h | h) <;> [exact hB h; linarith]), if_pos hu]
          · rw [if_pos (.inr (not_lt.1 hu)), if_neg hu]
    · unfold Mirror.Area at ha
      cases hc : c.center
      · rw [hc] at ha
        simp only [Bool.false_eq_true, if_false] at ha
        simp only [if_true]
        exact ⟨ha.1.1, ha.1.2, ha.2.1, ha.2.2⟩
      · rw [hc] at ha
        simp only [if_true, abs_le] at ha
        simp only [Bool.true_eq_false, if_false]
        exact ⟨by linarith [ha.1.1], by linarith [ha.1.2], by linarith [ha.2.1], by linarith [ha.2.2]⟩

/-- C182: with `transmit` the part of the random numbers for which a neutron is mirrored is the reflectivity -/
theorem C182_transmit (c : Mirror) (hc : c.transmit = true) (hm : c.coat.m ≠ 0) (e : Event ℝ) (s : ℝ) (hs : 0 ≤ s)
    (hz : (flown Off e s).r.z = 0) (hv : e.v.z ≠ 0) (ha : c.Area (flown Off e s).r.x (flown Off e s).r.y) :
    mean (fun u => if (mirror c u e).v.z = -e.v.z then 1 else 0) = c.coat.unit (V2K * (2 * |e.v.z|)) := by
  have hne : e.v.z ≠ -e.v.z := fun h => hv (by linarith)
  have key : ∀ u, 0 < u → u < 1 → (mirror c u e).v.z = if u < c.coat.unit (V2K * (2 * |e.v.z|)) then -e.v.z else e.v.z := by
    intro u h0 _
    obtain ⟨a, B, -, ⟨⟨k, hk⟩, hd⟩, -, -, hB, h⟩ := C182_meets c u h0.le e s hs hz hv ha
    have h3 : a.v.z = -e.v.z := by simpa [V3.dot] using hd
    have h4 : a.v - e.v = ⟨0, 0, -2 * e.v.z⟩ := by
      have hx := congrArg V3.x hk
      have hy := congrArg V3.y hk
      ext
      · rw [hx]; simp
      · rw [hy]; simp
      · simp only [V3.sub_z, h3]; ring
    have h5 : length (a.v - e.v) = 2 * |e.v.z| := by
      rw [h4, length_eq]
      have : (⟨0, 0, -2 * e.v.z⟩ : V3 ℝ).dot ⟨0, 0, -2 * e.v.z⟩ = (2 * e.v.z) ^ 2 := by simp only [V3.dot]; ring
      rw [this, Real.sqrt_sq_eq_abs, abs_mul]; norm_num
    rw [h, if_neg hm, if_pos hc, hB hm, h5]
    split
    · exact h3
    · rw [off_v]
  have hu := unit_mem c.coat (V2K * (2 * |e.v.z|))
  rw [mean_step (a := 0) (b := c.coat.unit (V2K * (2 * |e.v.z|))) (A := 1) le_rfl hu.1 hu.2]
  · ring
  · intro u h1 h2; linarith
  · intro u h1 h2
    rw [key u h1 (by linarith), if_pos h2, if_pos rfl]
  · intro u h1 h2
    rw [key u (by linarith [hu.1]) h2, if_neg h1.not_gt, if_neg hne]

example : (⟨2, 2, ⟨0.99, 0.021, 6.07, 2, 0.003, none⟩, true, true⟩ : Mirror).Area
    (flown Off slanted 1).r.x (flown Off slanted 1).r.y ∧ (flown Off slanted 1).r.z = 0 := by
  rw [off_r]
  norm_num [slanted, Mirror.Area]

end Verif.McGuide
