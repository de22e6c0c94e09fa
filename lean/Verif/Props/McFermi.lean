import Verif.Lemmas.McFermi
/-!
Theorems about the choppers with turning slots (C202...).
-/

namespace Verif.McFermi
open McStas Kinem Sampling

/-- C202: the circle goes through the three places of the neutron in the turning frame, at the entrance, at the exit and half way
between in time -/
theorem C202_circle {rad omega tc dt2 : ℝ} {e : Event ℝ} {o : Circle} {p1 p2 : ℝ × ℝ}
    (hz : e.r.z ≤ 0) (hc : e.r.x ^ 2 + e.r.z ^ 2 = rad ^ 2) (h : path rad omega tc dt2 e = some (o, p1, p2)) :
    0 < o.nrad ∧ p1 = inFrame omega tc e.t e.r ∧ p2 = inFrame omega tc (e.t + dt2) (e.r + dt2 • e.v) ∧
    OnCircle o p1 ∧ OnCircle o p2 ∧ OnCircle o (inFrame omega tc (e.t + dt2 / 2) (e.r + (dt2 / 2) • e.v)) := by
  have hz1 : sqrtD (rad * rad - e.r.x * e.r.x) = some (-e.r.z) := by
    rw [show rad * rad - e.r.x * e.r.x = (-e.r.z) ^ 2 by linear_combination -hc, sqrtD_ok (sq_nonneg _),
      Real.sqrt_sq (by linarith)]
  unfold path at h
  rw [hz1] at h
  simp only [Option.bind_eq_bind, Option.bind_some, Option.bind_eq_some_iff, Prod.exists, turned_eq, neg_neg] at h
  obtain ⟨c0, c1, hcc, h⟩ := h
  rw [Option.some.injEq, Prod.mk.injEq, Prod.mk.injEq] at h
  obtain ⟨ho, hp1, hp2⟩ := h
  obtain ⟨e1, e2⟩ := calcCenter_some hcc
  have hmid : (⟨e.r.x + e.v.x * (dt2 / 2), e.r.y + e.v.y * (dt2 / 2), e.r.z + e.v.z * (dt2 / 2)⟩ : V3 ℝ) = e.r + (dt2 / 2) • e.v := by
    ext <;> simp <;> ring
  have hend : (⟨e.r.x + e.v.x * dt2, e.r.y + e.v.y * dt2, e.r.z + e.v.z * dt2⟩ : V3 ℝ) = e.r + dt2 • e.v := by
    ext <;> simp <;> ring
  rw [hmid] at hcc e1 ho
  rw [hend] at hcc e2 hp2
  have hbeg : (⟨e.r.x, e.r.y, e.r.z⟩ : V3 ℝ) = e.r := rfl
  rw [hbeg] at hcc e1 e2 hp1
  rw [hp1] at hcc e1 e2
  rw [hp2] at hcc e2
  generalize inFrame omega tc (e.t + dt2 / 2) (e.r + (dt2 / 2) • e.v) = p0 at *
  have hn : o.nrad ^ 2 = (p0.1 - c0) ^ 2 + (p0.2 - c1) ^ 2 := by
    rw [← ho]
    simp only
    rw [Real.sq_sqrt (by nlinarith [sq_nonneg (p0.1 - c0), sq_nonneg (p0.2 - c1)])]
    ring
  have hc0 : o.c0 = c0 := by rw [← ho]
  have hc1 : o.c1 = c1 := by rw [← ho]
  refine ⟨?_, hp1.symm, hp2.symm, ?_, ?_, ?_⟩
  · have h0 : 0 ≤ o.nrad := by rw [← ho]; exact Real.sqrt_nonneg _
    refine lt_of_le_of_ne h0 (fun heq => ?_)
    rw [← heq] at hn
    have hl : OnLine p0 p1 p2 := onLine_of_same (c0 := c0) (c1 := c1) (by linarith) (by linarith)
    rw [calcCenter_none.2 hl] at hcc
    simp at hcc
  · unfold OnCircle; rw [hc0, hc1, hn, e1]
  · unfold OnCircle; rw [hc0, hc1, hn, e1, e2]
  · unfold OnCircle; rw [hc0, hc1, hn]

/-- C202: there is no circle only if the three places are on a line -/
theorem C202_line {rad omega tc dt2 : ℝ} {e : Event ℝ} (hz : e.r.z ≤ 0) (hc : e.r.x ^ 2 + e.r.z ^ 2 = rad ^ 2) :
    path rad omega tc dt2 e = none ↔ OnLine (inFrame omega tc (e.t + dt2 / 2) (e.r + (dt2 / 2) • e.v)) (inFrame omega tc e.t e.r)
      (inFrame omega tc (e.t + dt2) (e.r + dt2 • e.v)) := by
  have hz1 : sqrtD (rad * rad - e.r.x * e.r.x) = some (-e.r.z) := by
    rw [show rad * rad - e.r.x * e.r.x = (-e.r.z) ^ 2 by linear_combination -hc, sqrtD_ok (sq_nonneg _),
      Real.sqrt_sq (by linarith)]
  have hmid : (⟨e.r.x + e.v.x * (dt2 / 2), e.r.y + e.v.y * (dt2 / 2), e.r.z + e.v.z * (dt2 / 2)⟩ : V3 ℝ) = e.r + (dt2 / 2) • e.v := by
    ext <;> simp <;> ring
  have hend : (⟨e.r.x + e.v.x * dt2, e.r.y + e.v.y * dt2, e.r.z + e.v.z * dt2⟩ : V3 ℝ) = e.r + dt2 • e.v := by
    ext <;> simp <;> ring
  have hbeg : (⟨e.r.x, e.r.y, e.r.z⟩ : V3 ℝ) = e.r := rfl
  rw [← calcCenter_none]
  unfold path
  rw [hz1]
  simp only [Option.bind_eq_bind, Option.bind_some, turned_eq, neg_neg, hmid, hend, hbeg]
  cases calcCenter (inFrame omega tc (e.t + dt2 / 2) (e.r + (dt2 / 2) • e.v)) (inFrame omega tc e.t e.r)
      (inFrame omega tc (e.t + dt2) (e.r + dt2 • e.v)) with
  | none => simp
  | some c => simp

/-- a chopper that turns by a quarter while the neutron crosses it -/
example : ¬ OnLine (inFrame (Real.pi / 4) 0 0 (⟨0, 0, -1⟩ + (2 / 2 : ℝ) • ⟨0, 0, 1⟩)) (inFrame (Real.pi / 4) 0 (-1) ⟨0, 0, -1⟩)
    (inFrame (Real.pi / 4) 0 1 (⟨0, 0, -1⟩ + (2 : ℝ) • ⟨0, 0, 1⟩)) := by
  unfold OnLine inFrame
  simp only [V3.add_x, V3.add_z, V3.smul_x, V3.smul_z]
  have h1 : ((-1 : ℝ) - 0) * (Real.pi / 4) = -(Real.pi / 4) := by ring
  have h2 : ((1 : ℝ) - 0) * (Real.pi / 4) = Real.pi / 4 := by ring
  have h3 : ((0 : ℝ) - 0) * (Real.pi / 4) = 0 := by ring
  rw [h1, h2, h3, Real.cos_neg, Real.sin_neg, Real.cos_pi_div_four, Real.sin_pi_div_four, Real.cos_zero, Real.sin_zero]
  have : √2 * √2 = 2 := Real.mul_self_sqrt (by norm_num)
  intro h
  nlinarith

/-- C203: the angle of a point of the path is the angle of this point on the circle -/
theorem C203_angle {c : Circle} (hr : 0 < c.nrad) {p : ℝ × ℝ} (hp : OnCircle c p) :
    ∃ f, c.angle p = some f ∧ 0 ≤ f ∧ f ≤ 2 * Real.pi ∧ c.c0 + c.nrad * Real.cos f = p.1 ∧ c.c1 + c.nrad * Real.sin f = p.2 := by
  obtain ⟨f, h1, h2, h3, h4⟩ := angle_ok hr hp
  exact ⟨f, h1, h2, h3, congrArg Prod.fst h4, congrArg Prod.snd h4⟩

example : OnCircle ⟨1, 2, 5⟩ (4, -2) ∧ (0 : ℝ) < (⟨1, 2, 5⟩ : Circle).nrad := by
  constructor
  · unfold OnCircle; norm_num
  · norm_num

/-- C203 (the range of the angles is from 0 to 2π): a path across the angle 0 is not the arc between its angles -/
theorem C203_wrap_false : ∃ (c : Circle) (p1 p2 q : ℝ × ℝ) (f1 f2 : ℝ), 0 < c.nrad ∧ OnCircle c p1 ∧ OnCircle c p2 ∧
    c.angle p1 = some f1 ∧ c.angle p2 = some f2 ∧ p1.1 = p2.1 ∧ c.c0 < p1.1 ∧ q = c.pos (part f1 f2 (1 / 2)) ∧ q.1 < c.c0 := by
  have h1 : OnCircle ⟨0, 0, 5⟩ (4, 3) := by unfold OnCircle; norm_num
  have h2 : OnCircle ⟨0, 0, 5⟩ (4, -3) := by unfold OnCircle; norm_num
  have d : divD (4 - 0) 5 = some (4 / 5 : ℝ) := by rw [divD_ok (by norm_num)]; norm_num
  have a : acosD (4 / 5 : ℝ) = some (Real.arccos (4 / 5)) := acosD_ok ⟨by norm_num, by norm_num⟩
  refine ⟨⟨0, 0, 5⟩, (4, 3), (4, -3), _, Real.arccos (4 / 5), 2 * Real.pi - Real.arccos (4 / 5), by norm_num, h1, h2, ?_, ?_, rfl,
    by norm_num, rfl, ?_⟩
  · unfold Circle.angle acos02pi
    simp only [d, Option.bind_eq_bind, Option.bind_some, a]
    norm_num
  · unfold Circle.angle acos02pi
    simp only [d, Option.bind_eq_bind, Option.bind_some, a]
    norm_num
  · unfold Circle.pos part
    rw [show Real.arccos (4 / 5) + 1 / 2 * (2 * Real.pi - Real.arccos (4 / 5) - Real.arccos (4 / 5)) = Real.pi by ring, Real.cos_pi]
    norm_num

/-- C204, partial: the tests start at the entrance plane of the slot, or at the entrance of the cylinder if this is behind the plane;
they end at the exit of the cylinder if this is before the exit plane.  Missing: the exit plane, see `C204_exit_false`. -/
theorem C204_ends_partial {c : Circle} (hr : 0 < c.nrad) {splen : ℝ} {p : ℝ × ℝ} (hp : OnCircle c p) :
    (p.1 < -splen → |splen + c.c0| ≤ c.nrad → ∃ f, c.first splen p = some f ∧ OnCircle c (c.pos f) ∧ (c.pos f).1 = -splen) ∧
    (-splen ≤ p.1 → ∃ f, c.first splen p = some f ∧ c.pos f = p) ∧
    (p.1 ≤ splen → ∃ f, c.last splen p = some f ∧ c.pos f = p) := by
  obtain ⟨f, h1, -, -, h4⟩ := angle_ok hr hp
  refine ⟨fun h h' => ?_, fun h => ⟨f, ?_, h4⟩, fun h => ⟨f, ?_, h4⟩⟩
  · rw [abs_le] at h'
    obtain ⟨g, g1, -, -, g4, -⟩ := acos02pi_ok (x := (-c.c0 - splen) / c.nrad) (y := -c.c1)
      ⟨by rw [le_div_iff₀ hr]; linarith, by rw [div_le_one hr]; linarith⟩
    refine ⟨g, ?_, onCircle_pos c g, ?_⟩
    · unfold Circle.first
      rw [h1]
      simp only [Option.bind_eq_bind, Option.bind_some]
      rw [h4, if_pos h, divD_ok hr.ne', g1]
    · unfold Circle.pos
      rw [g4]
      simp only
      field_simp
      ring
  · unfold Circle.first
    rw [h1]
    simp only [Option.bind_eq_bind, Option.bind_some]
    rw [h4, if_neg (not_lt.2 h)]
  · unfold Circle.last
    rw [h1]
    simp only [Option.bind_eq_bind, Option.bind_some]
    rw [h4, if_neg (not_lt.2 h)]

example : OnCircle ⟨0, -5, 5⟩ (-4, -2) ∧ ((-4, -2) : ℝ × ℝ).1 < -3 ∧ |(3 : ℝ) + 0| ≤ 5 := by
  refine ⟨by unfold OnCircle; norm_num, by norm_num, by norm_num [abs_le]⟩

/-- C204 is false: for a neutron that leaves behind the exit plane the tests end half way between the centre and the exit plane -/
theorem C204_exit_false {c : Circle} (hr : 0 < c.nrad) {splen : ℝ} {p : ℝ × ℝ} (hp : OnCircle c p) (h : splen < p.1)
    (h' : |splen / 2 - c.c0| ≤ c.nrad) : ∃ f, c.last splen p = some f ∧ (c.pos f).1 = splen / 2 := by
  obtain ⟨f, h1, -, -, h4⟩ := angle_ok hr hp
  rw [abs_le] at h'
  obtain ⟨g, g1, -, -, g4, -⟩ := acos02pi_ok (x := (-c.c0 + splen / 2) / c.nrad) (y := -c.c1)
    ⟨by rw [le_div_iff₀ hr]; linarith, by rw [div_le_one hr]; linarith⟩
  refine ⟨g, ?_, ?_⟩
  · unfold Circle.last
    rw [h1]
    simp only [Option.bind_eq_bind, Option.bind_some]
    rw [h4, if_pos h, divD_ok hr.ne', g1]
  · unfold Circle.pos
    rw [g4]
    simp only
    field_simp
    ring

example : OnCircle ⟨0, -5, 5⟩ (4, -2) ∧ (3 : ℝ) < ((4, -2) : ℝ × ℝ).1 ∧ |(3 / 2 : ℝ) - 0| ≤ 5 ∧ (3 / 2 : ℝ) ≠ 3 := by
  refine ⟨by unfold OnCircle; norm_num, by norm_num, by norm_num [abs_le], by norm_num⟩

/-- C205, partial: the neutron passes if and only if the test succeeds at the 127 points that divide the path between the two angles
into 128 equal parts, and at 6 points beyond the end of the path.  Missing: the path between the points, and the points beyond the
end do not belong to the path, see `C205_beyond_false`. -/
theorem C205_points_partial (ok : Option ℝ → Prop) {a b : ℝ} (hab : a ≠ b) {n : ℕ} (hn : 6 ≤ n) :
    (sweep ok n (some a) (some b) = .through ∨ sweep ok n (some a) (some b) = .gone) ∧
    (sweep ok n (some a) (some b) = .through ↔
      (∀ k : ℕ, 1 ≤ k → k ≤ 127 → ok (some (a + k / 128 * (b - a)))) ∧
      (∀ m : ℕ, 2 ≤ m → m ≤ 7 → ok (some (a + (1 + 1 / 2 ^ m) * (b - a))))) := by
  have h := sweep_spec (ok := ok) hab hn
  change _ ∧ (_ ↔ Tested ok a b)
  by_cases ht : Tested ok a b
  · rw [h.1 ht]
    exact ⟨.inl rfl, fun _ => ht, fun _ => rfl⟩
  · rw [h.2 ht]
    exact ⟨.inr rfl, fun h => by simp at h, fun h => absurd h ht⟩

/-- C205 is false: a neutron that is in a straight slot on the whole path, and is absorbed because of a point behind the end -/
theorem C205_beyond_false : ∃ (c : Circle) (w a b : ℝ), 0 < c.nrad ∧ a ≠ b ∧ (∀ s, 0 ≤ s → s ≤ 1 → |(c.pos (part a b s)).2| ≤ w / 2) ∧
    ∀ n, 6 ≤ n → sweep (t0ok c w w) n (some a) (some b) = .gone := by
  have hpi := Real.pi_pos
  refine ⟨⟨0, -1, 1⟩, 0.4, 2 * Real.pi / 3, Real.pi / 3, by norm_num, by intro h; linarith, fun s h0 h1 => ?_, fun n hn => ?_⟩
  · unfold Circle.pos part
    simp only
    have e : Real.sin (2 * Real.pi / 3 + s * (Real.pi / 3 - 2 * Real.pi / 3)) = Real.cos (|Real.pi / 6 - s * (Real.pi / 3)|) := by
      rw [Real.cos_abs, ← Real.cos_pi_div_two_sub, ← Real.cos_neg]
      congr 1
      ring
    have h2 : |Real.pi / 6 - s * (Real.pi / 3)| ≤ Real.pi / 6 := by
      rw [abs_le]; constructor <;> nlinarith
    have h3 : Real.cos (Real.pi / 6) ≤ Real.cos (|Real.pi / 6 - s * (Real.pi / 3)|) :=
      Real.cos_le_cos_of_nonneg_of_le_pi (abs_nonneg _) (by linarith) h2
    have h4 := Real.cos_le_one (|Real.pi / 6 - s * (Real.pi / 3)|)
    rw [Real.cos_pi_div_six] at h3
    have h5 : (1.6 : ℝ) ≤ √3 := Real.le_sqrt_of_sq_le (by norm_num)
    rw [e, abs_le]
    constructor <;> linarith
  · have h := (C205_points_partial (t0ok ⟨0, -1, 1⟩ 0.4 0.4) (a := 2 * Real.pi / 3) (b := Real.pi / 3) (by intro h; linarith) hn)
    rcases h.1 with h1 | h1
    swap
    · exact h1
    exfalso
    have := (h.2.1 h1).2 2 le_rfl (by norm_num)
    rw [show 2 * Real.pi / 3 + (1 + 1 / 2 ^ 2) * (Real.pi / 3 - 2 * Real.pi / 3) = Real.pi / 4 by ring] at this
    unfold t0ok Circle.pos at this
    simp only [Real.sin_pi_div_four] at this
    apply this
    have h5 : √2 ≤ 1.5 := by
      rw [Real.sqrt_le_left (by norm_num)]; norm_num
    norm_num
    rw [lt_abs]
    right
    linarith

/-- C206, partial: a neutron whose path has two different angles leaves the chopper, or is absorbed, after 6 turns of the loop.
Missing: a path with no circle, see `C206_parked_false`. -/
theorem C206_ends_partial {c : T0} {G : Gravity} {e : Event ℝ} {k : ℕ} {t0 t1 : ℝ}
    (hi : cylinderIntersect e.r e.v c.rad (c.ymax - c.ymin) = some (some (k, t0, t1))) (h0 : 0 ≤ t0) {o : Circle} {p1 p2 : ℝ × ℝ}
    (hp : path c.rad c.omega c.tc (t1 - t0) (propDt G t0 e) = some (o, p1, p2)) {f0 f1 : ℝ} (hf0 : o.first c.splen p1 = some f0)
    (hf1 : o.last c.splen p2 = some f1) (hf : f0 ≠ f1) {n : ℕ} (hn : 6 ≤ n) :
    c.trace G n e = .ok (some { propDt G t0 e with p := -1 }) ∨ c.trace G n e = .ok (some (propDt G t0 e)) := by
  unfold T0.trace
  simp only [hi, if_neg (not_lt.2 h0), hp, hf0, hf1]
  rcases (C205_points_partial (t0ok o c.w1 c.w2) hf hn).1 with h | h
  · right; rw [h]
  · left; rw [h]; rfl

/-- C206 is false: if the chopper stands still, no neutron that comes to it ever gets out of the loop -/
theorem C206_parked_false {c : T0} (hnu : c.nu = 0) {e : Event ℝ} {k : ℕ} {t0 t1 : ℝ}
    (hi : cylinderIntersect e.r e.v c.rad (c.ymax - c.ymin) = some (some (k, t0, t1))) (h0 : 0 ≤ t0) (G : Gravity) (n : ℕ) :
    c.trace G n e = .ok none := by
  have hp : path c.rad c.omega c.tc (t1 - t0) (propDt G t0 e) = none := by
    generalize propDt G t0 e = e'
    unfold path
    cases sqrtD (c.rad * c.rad - e'.r.x * e'.r.x) with
    | none => rfl
    | some z =>
      simp only [Option.bind_eq_bind, Option.bind_some, turned_eq]
      rw [calcCenter_none.2]
      · rfl
      · have : c.omega = 0 := by unfold T0.omega; rw [hnu, mul_zero]
        unfold OnLine inFrame
        simp only [this, mul_zero, Real.cos_zero, Real.sin_zero]
        ring
  unfold T0.trace
  simp only [hi, if_neg (not_lt.2 h0), hp, sweep_nan (ok := fun _ => True) trivial n]

/-- an open slot in the beam, a neutron along the middle: the chopper does not turn and the simulation does not end -/
example : ∃ k t0 t1, cylinderIntersect (⟨0, 0, -2⟩ : V3 ℝ) ⟨0, 0, 1⟩ (⟨2, 1, 1, 0, 0, 0, -1 / 2, 1 / 2⟩ : T0).rad (1 / 2 - (-1 / 2)) =
    some (some (k, t0, t1)) ∧ 0 ≤ t0 := by
  have hr : (⟨2, 1, 1, 0, 0, 0, -1 / 2, 1 / 2⟩ : T0).rad ^ 2 = 5 / 4 := by
    unfold T0.rad T0.splen
    rw [Real.sq_sqrt (by norm_num)]; norm_num
  generalize (⟨2, 1, 1, 0, 0, 0, -1 / 2, 1 / 2⟩ : T0).rad = r at *
  rcases C165_cylinder_partial (p := ⟨0, 0, -2⟩) (v := ⟨0, 0, 1⟩) (.inr (by norm_num)) r (h := 1 / 2 - (-1 / 2)) (by norm_num) with
    ⟨-, h⟩ | ⟨k1, k2, t0, t1, h, -, -, h2, h3⟩
  · exfalso
    refine h 2 ?_
    unfold InCylinder
    simp only [hr]
    norm_num
  · refine ⟨_, t0, t1, h, ?_⟩
    have := (h3 t0).2 ⟨le_rfl, h2⟩
    unfold InCylinder at this
    simp only [hr] at this
    by_contra hc
    nlinarith [this.1]

/-- C207, partial: the walls of a slot of constant width are where they should be.  Missing: a slot that is wider at its ends. -/
theorem C207_straight_partial (c : Circle) (w splen f : ℝ) : t0ok c w w (some f) ↔ InSlot w w splen (c.pos f) := by
  unfold t0ok InSlot
  simp

example : InSlot 1 1 2 ((⟨0, 0, 1 / 4⟩ : Circle).pos 0) ∧ ¬ InSlot 1 1 2 ((⟨0, 1, 1 / 4⟩ : Circle).pos 0) := by
  unfold InSlot Circle.pos
  norm_num

/-- C207 is false: the width at a place depends on the radius of the path.  Two neutrons at the same place inside of the slot, one
passes and the other is absorbed. -/
theorem C207_taper_false : ∃ (c c' : Circle) (f f' w1 w2 splen : ℝ), 0 < c.nrad ∧ 0 < c'.nrad ∧ 0 < w1 ∧ w1 < w2 ∧ 0 < splen ∧
    c.pos f = c'.pos f' ∧ |(c.pos f).1| ≤ splen ∧ InSlot w1 w2 splen (c.pos f) ∧ t0ok c w1 w2 (some f) ∧ ¬ t0ok c' w1 w2 (some f') := by
  refine ⟨⟨1, 0, 1⟩, ⟨1, -15, 16⟩, Real.pi / 2, Real.pi / 2, 1, 3, 1, by norm_num, by norm_num, by norm_num, by norm_num, by norm_num,
    ?_, ?_, ?_, ?_, ?_⟩
  · unfold Circle.pos; simp only [Real.cos_pi_div_two, Real.sin_pi_div_two]; norm_num
  · unfold Circle.pos; simp only [Real.cos_pi_div_two, Real.sin_pi_div_two]; norm_num
  · unfold InSlot Circle.pos; simp only [Real.cos_pi_div_two, Real.sin_pi_div_two]; norm_num
  · unfold t0ok Circle.pos; simp only [Real.cos_pi_div_two, Real.sin_pi_div_two]; norm_num
  · unfold t0ok Circle.pos; simp only [Real.cos_pi_div_two, Real.sin_pi_div_two]; norm_num

/-- C208, partial: the channel counts the distance between the blades, and a neutron outside of the package is stopped.  Missing: the
blades, see `C208_blade_false`. -/
theorem C208_channel_partial (c : Circle) {w sw bw blader off phi b : ℝ} (hp : 0 < bw + sw)
    (hb : blades (c.pos phi).1 blader off = some b) :
    (|(c.pos phi).2| ≤ w / 2 → ∃ k : ℤ, checkAbsorb c w sw bw blader off phi = .ok (some k) ∧
      (k - 1) * (bw + sw) < (c.pos phi).2 + w / 2 - b ∧ (c.pos phi).2 + w / 2 - b ≤ k * (bw + sw)) ∧
    (w / 2 < |(c.pos phi).2| → checkAbsorb c w sw bw blader off phi = .ok none) := by
  constructor
  · intro h
    rw [check_eq c hp hb h]
    refine ⟨_, rfl, ?_, ?_⟩
    · have := Int.ceil_lt_add_one (((c.pos phi).2 + w / 2 - b) / (bw + sw))
      rw [← lt_div_iff₀ hp]
      linarith
    · have := Int.le_ceil (((c.pos phi).2 + w / 2 - b) / (bw + sw))
      rwa [div_le_iff₀ hp] at this
  · intro h
    unfold checkAbsorb
    simp only
    rw [if_pos h]

/-- C208 is false: a neutron inside of a blade passes the test -/
theorem C208_blade_false (c : Circle) {w sw bw blader off phi b : ℝ} (hsw : 0 ≤ sw) (hbw : 0 < bw)
    (hb : blades (c.pos phi).1 blader off = some b) (h : |(c.pos phi).2| ≤ w / 2) {k : ℤ}
    (hk : InBlade b (bw + sw) bw ((c.pos phi).2 + w / 2) k) : checkAbsorb c w sw bw blader off phi = .ok (some (k + 1)) := by
  have hp : 0 < bw + sw := by linarith
  rw [check_eq c hp hb h]
  obtain ⟨h1, h2⟩ := hk
  congr 2
  rw [Int.ceil_eq_iff]
  push_cast
  rw [lt_div_iff₀ hp, div_le_iff₀ hp]
  constructor <;> nlinarith

/-- a straight blade of 0.2 in a channel of 1, the neutron in the middle of the blade -/
example : blades ((⟨0, 0, 1⟩ : Circle).pos 0).1 0 0 = some 0 ∧ |((⟨0, 0, 1⟩ : Circle).pos 0).2| ≤ (2.2 : ℝ) / 2 ∧
    InBlade 0 (0.2 + 0.8) 0.2 (((⟨0, 0, 1⟩ : Circle).pos 0).2 + 2.2 / 2) 1 := by
  refine ⟨?_, ?_, ?_⟩
  · unfold blades; simp
  · unfold Circle.pos; norm_num
  · unfold InBlade Circle.pos; norm_num

/-- C209, partial: a neutron that passes is in the same channel at all 127 points of the path, and its number is not greater than the
number of channels.  Missing: the number of the channel may be 0 or negative, see `C209_outside_false`. -/
theorem C209_channel_partial {c : Fermi} (hit : 5 ≤ c.iters) {o : Circle} {tw off f0 f1 : ℝ} (hf : f0 ≠ f1)
    (h : c.test o tw off f0 f1 = .ok .through) :
    ∃ k : ℤ, (k : ℝ) ≤ c.nchan ∧ ∀ i : ℕ, 1 ≤ i → i ≤ 127 →
      checkAbsorb o tw c.sw c.bw c.blader off (f0 + i / 128 * (f1 - f0)) = .ok (some k) := by
  have hmid : part f0 f1 (1 / 2) = f0 + (f1 - f0) / 2 := by unfold part; ring
  unfold Fermi.test at h
  simp only at h
  split at h
  · simp at h
  · simp at h
  · next k hk =>
    set ok : Option ℝ → Prop := fun f => ∃ x, f = some x ∧ checkAbsorb o tw c.sw c.bw c.blader off x = .ok (some k) ∧
      ¬ (k : ℝ) > c.nchan with hok
    by_cases hc : (k : ℝ) > c.nchan
    · exfalso
      have hno : ∀ f, ¬ ok f := fun f ⟨x, _, _, h⟩ => h hc
      have hl : loop ok (c.iters + 1) (begin0 (some f0) (some f1)) = .gone := by
        refine (loop_spec (ok := ok) (sub_ne_zero.2 hf.symm) 5 1 (c.iters + 1) _ le_rfl (by norm_num) (by omega) (begin0_inv f0 f1)).2
          ⟨1, le_rfl, by norm_num, fun hl => hno _ (hl 0 (by norm_num))⟩
      rw [hl] at h
      simp at h
    · have h0 : ok (some (part f0 f1 (1 / 2))) := ⟨_, rfl, by rw [hmid]; exact hk, hc⟩
      have hl := loop_begin (ok := ok) (sub_ne_zero.2 hf.symm) (m := c.iters + 1) (by omega) h0
      by_cases ht : Tested ok f0 f1
      · refine ⟨k, not_lt.1 hc, fun i h1 h2 => ?_⟩
        obtain ⟨x, hx, hx', -⟩ := ht.1 i h1 h2
        rw [Option.some.injEq] at hx
        rw [← hx] at hx'
        exact hx'
      · rw [hl.2 ht] at h
        simp at h

/-- C209 is false: a neutron outside of the slit package, at the side of the first blade, passes -/
theorem C209_outside_false : ∃ (c : Fermi) (o : Circle) (off f0 f1 : ℝ), c.off = some off ∧ 0 < o.nrad ∧ f0 ≠ f1 ∧ 0 < c.bw ∧ 0 < c.sw ∧
    0 < c.nchan ∧ c.test o (c.w + 2 * off) off f0 f1 = .ok .through ∧
    ∀ s b, 0 ≤ s → s ≤ 1 → blades (o.pos (part f0 f1 s)).1 c.blader off = some b →
      (o.pos (part f0 f1 s)).2 + (c.w + 2 * off) / 2 < b := by
  have hoff : (⟨1.2, 2, 0, 0, 0, 0, 0, 1, 0.1, 1, 0⟩ : Fermi).off = some 0.2 := by
    unfold Fermi.off Fermi.splen
    have h1 : divD ((1.2 : ℝ) / 2) (|1|) = some 0.6 := by rw [divD_ok (by norm_num)]; norm_num
    have h2 : Powder.asinD 0.6 = some (Real.arcsin 0.6) := if_neg (by norm_num)
    simp only [h1, Option.bind_eq_bind, Option.bind_some, h2]
    rw [Real.cos_arcsin, show (1 : ℝ) - 0.6 ^ 2 = 0.8 ^ 2 by norm_num, Real.sqrt_sq (by norm_num)]
    norm_num
  have hsw : (⟨1.2, 2, 0, 0, 0, 0, 0, 1, 0.1, 1, 0⟩ : Fermi).sw = 1.8 := by unfold Fermi.sw; norm_num
  have key : ∀ s : ℝ, 0 ≤ s → s ≤ 5 / 4 → checkAbsorb ⟨0, -11.1, 10⟩ (2 + 2 * 0.2) 1.8 0.1 1 0.2
      (part (Real.pi / 2 + 1 / 20) (Real.pi / 2 - 1 / 20) s) = .ok (some 0) ∧
      ∃ b, blades ((⟨0, -11.1, 10⟩ : Circle).pos (part (Real.pi / 2 + 1 / 20) (Real.pi / 2 - 1 / 20) s)).1 1 0.2 = some b ∧
        ((⟨0, -11.1, 10⟩ : Circle).pos (part (Real.pi / 2 + 1 / 20) (Real.pi / 2 - 1 / 20) s)).2 + (2 + 2 * 0.2) / 2 < b := by
    intro s h0 h1
    set f := part (Real.pi / 2 + 1 / 20) (Real.pi / 2 - 1 / 20) s with hf
    have hsin : 0.997 ≤ Real.sin f := by
      have e : Real.sin f = Real.cos (1 / 20 - s / 10) := by
        rw [← Real.cos_pi_div_two_sub, ← Real.cos_neg, hf]
        congr 1
        unfold part
        ring
      have := Real.one_sub_sq_div_two_le_cos (x := 1 / 20 - s / 10)
      rw [e]
      nlinarith
    have hsin1 := Real.sin_le_one f
    have hcos : |10 * Real.cos f| ≤ 1 := by
      rw [← sq_le_one_iff_abs_le_one]
      nlinarith [Real.sin_sq_add_cos_sq f]
    rw [abs_le] at hcos
    have hz : ((⟨0, -11.1, 10⟩ : Circle).pos f).1 = 10 * Real.cos f := by unfold Circle.pos; simp
    have hx : ((⟨0, -11.1, 10⟩ : Circle).pos f).2 = -11.1 + 10 * Real.sin f := rfl
    have hb : blades ((⟨0, -11.1, 10⟩ : Circle).pos f).1 1 0.2 = some (1 * (1 - Real.cos (Real.arcsin (10 * Real.cos f))) + 0.2) := by
      rw [hz]
      unfold blades
      rw [if_pos one_ne_zero, divD_ok (by norm_num), abs_one, div_one]
      simp only [Option.bind_eq_bind, Option.bind_some]
      rw [show Powder.asinD (10 * Real.cos f) = some (Real.arcsin (10 * Real.cos f)) from
        if_neg (by push Not; exact hcos)]
      rfl
    have hc0 := Real.cos_arcsin_nonneg (10 * Real.cos f)
    have hc1 := Real.cos_le_one (Real.arcsin (10 * Real.cos f))
    refine ⟨?_, _, hb, ?_⟩
    · rw [check_eq _ (by norm_num) hb (by rw [hx, abs_le]; constructor <;> linarith)]
      congr 2
      rw [Int.ceil_eq_iff, hx, lt_div_iff₀ (by norm_num), div_le_iff₀ (by norm_num)]
      push_cast
      constructor <;> linarith
    · rw [hx]
      linarith
  have hne : Real.pi / 2 + 1 / 20 ≠ Real.pi / 2 - 1 / 20 := by intro h; linarith
  refine ⟨⟨1.2, 2, 0, 0, 0, 0, 0, 1, 0.1, 1, 0⟩, ⟨0, -11.1, 10⟩, 0.2, Real.pi / 2 + 1 / 20, Real.pi / 2 - 1 / 20, hoff, by norm_num, hne,
    by norm_num, by rw [hsw]; norm_num, by norm_num, ?_, fun s b h0 h1 hb => ?_⟩
  · unfold Fermi.test
    simp only [hsw]
    have hm := (key (1 / 2) (by norm_num) (by norm_num)).1
    rw [show part (Real.pi / 2 + 1 / 20) (Real.pi / 2 - 1 / 20) (1 / 2) =
      Real.pi / 2 + 1 / 20 + (Real.pi / 2 - 1 / 20 - (Real.pi / 2 + 1 / 20)) / 2 by unfold part; ring] at hm
    rw [hm]
    simp only
    rw [(loop_begin (sub_ne_zero.2 hne.symm) (by unfold Fermi.iters; norm_num)
      ⟨_, rfl, (key (1 / 2) (by norm_num) (by norm_num)).1, by norm_num⟩).1]
    refine ⟨fun k h1 h2 => ⟨_, rfl, (key _ (by positivity) ?_).1, by norm_num⟩,
      fun m h1 h2 => ⟨_, rfl, (key _ (by positivity) ?_).1, by norm_num⟩⟩
    · have : (k : ℝ) ≤ 127 := by exact_mod_cast h2
      rw [div_le_iff₀ (by norm_num)]
      linarith
    · have : (2 : ℝ) ^ 2 ≤ 2 ^ m := pow_le_pow_right₀ (by norm_num) h1
      have : (1 : ℝ) / 2 ^ m ≤ 1 / 2 ^ 2 := one_div_le_one_div_of_le (by norm_num) this
      linarith
  · obtain ⟨-, b', hb', hlt⟩ := key s h0 (by linarith)
    rw [hb] at hb'
    rw [Option.some.injEq] at hb'
    rw [hb']
    exact hlt

/-- C210, partial: for a blade with a radius of at least half its length, `off` is how far the blade bends over this length.
Missing: straight blades, see `C210_straight_false`. -/
theorem C210_bend_partial {c : Fermi} (hl : 0 ≤ c.len) (hb : c.blader ≠ 0) (h : c.len / 2 ≤ |c.blader|) :
    ∃ off, c.off = some off ∧ (c.blader - off) ^ 2 + (c.len / 2) ^ 2 = c.blader ^ 2 ∧ 0 ≤ off / c.blader ∧ off / c.blader ≤ 1 := by
  have hb' : 0 < |c.blader| := abs_pos.2 hb
  have hq1 : 0 ≤ c.len / 2 / |c.blader| := by positivity
  have hq2 : c.len / 2 / |c.blader| ≤ 1 := (div_le_one hb').2 h
  have hq : Powder.asinD (c.len / 2 / |c.blader|) = some (Real.arcsin (c.len / 2 / |c.blader|)) :=
    if_neg (by push Not; exact ⟨by linarith, hq2⟩)
  refine ⟨c.blader * (1 - Real.cos (Real.arcsin (c.len / 2 / |c.blader|))), ?_, ?_, ?_⟩
  · unfold Fermi.off Fermi.splen
    simp only [divD_ok hb'.ne', Option.bind_eq_bind, Option.bind_some, hq]
  · have h1 := Real.sin_sq_add_cos_sq (Real.arcsin (c.len / 2 / |c.blader|))
    rw [Real.sin_arcsin (by linarith) hq2, div_pow, sq_abs] at h1
    have h2 : (c.len / 2) ^ 2 = (c.len / 2) ^ 2 / c.blader ^ 2 * c.blader ^ 2 := by field_simp
    rw [h2]
    linear_combination c.blader ^ 2 * h1
  · rw [mul_div_cancel_left₀ _ hb]
    have h1 := Real.cos_arcsin_nonneg (c.len / 2 / |c.blader|)
    have h2 := Real.cos_le_one (Real.arcsin (c.len / 2 / |c.blader|))
    constructor <;> linarith

example : (0.1 : ℝ) / 2 ≤ |0.5801| := by norm_num [abs_of_pos]

/-- C210 is false: with straight blades (radius 0, which `blades` handles), or with a radius of less than half the length, the chopper
does nothing to any neutron -/
theorem C210_straight_false {c : Fermi} (h : c.blader = 0 ∨ (0 < c.len ∧ |c.blader| < c.len / 2)) (G : Gravity) (e : Event ℝ) :
    c.trace G e = .ok e := by
  have : c.off = none := by
    unfold Fermi.off
    rcases h with h | ⟨h1, h2⟩
    · rw [h, abs_zero, show divD c.splen 0 = none from if_pos rfl]; rfl
    · by_cases h0 : c.blader = 0
      · rw [h0, abs_zero, show divD c.splen 0 = none from if_pos rfl]; rfl
      · have hp : 0 < |c.blader| := abs_pos.2 h0
        rw [divD_ok hp.ne']
        simp only [Option.bind_eq_bind, Option.bind_some]
        rw [show Powder.asinD (c.splen / |c.blader|) = none from if_pos (.inr (by
          rw [lt_div_iff₀ hp]; unfold Fermi.splen; linarith))]
        rfl
  unfold Fermi.trace
  rw [this]

example : (⟨0.1, 0.06, 600, 0, 0, -0.03, 0.03, 32, 0.00035, 0, 0⟩ : Fermi).blader = 0 := rfl

/-- C211, partial: without gravity a neutron that passes the T0 chopper with limits `-ymax` and `ymax` is between them when it enters the
cylinder of the chopper.  Missing: limits that are not symmetric, see `C211_limits_false`. -/
theorem C211_limits_partial {c : T0} (hy : c.ymin = -c.ymax) (hy0 : 0 ≤ c.ymax) {G : Gravity} (hG : G.on = false) {e e' : Event ℝ}
    (hv : e.v.x ≠ 0 ∨ e.v.z ≠ 0) {n : ℕ} (h : c.trace G n e = .ok (some e')) (hp : e'.p ≠ -1) :
    ∃ s, 0 ≤ s ∧ e' = flown G e s ∧ c.ymin ≤ e'.r.y ∧ e'.r.y ≤ c.ymax ∧ e'.r.x ^ 2 + e'.r.z ^ 2 ≤ c.w2 ^ 2 / 4 + (c.len / 2) ^ 2 := by
  have hr : c.rad ^ 2 = c.w2 ^ 2 / 4 + (c.len / 2) ^ 2 := by
    unfold T0.rad T0.splen
    rw [Real.sq_sqrt (by nlinarith [sq_nonneg c.w2, sq_nonneg c.len])]; ring
  unfold T0.trace at h
  rcases C165_cylinder_partial hv c.rad (h := c.ymax - c.ymin) (by linarith) (p := e.r) with ⟨h1, -⟩ | ⟨k1, k2, t0, t1, h1, -, -, h2, h3⟩
  · rw [h1] at h
    simp only [Except.ok.injEq, Option.some.injEq] at h
    rw [← h] at hp
    exact absurd rfl hp
  · rw [h1] at h
    simp only at h
    by_cases h0 : t0 < 0
    · rw [if_pos h0] at h
      simp only [Except.ok.injEq, Option.some.injEq] at h
      rw [← h] at hp
      exact absurd rfl hp
    · rw [if_neg h0] at h
      push Not at h0
      have hf : propDt G t0 e = flown G e t0 := (C160_dt G t0 e).1 (by linarith)
      rw [hf] at h
      have hin := (h3 t0).2 ⟨le_rfl, h2⟩
      have hx : (flown G e t0).r = ⟨e.r.x + t0 * e.v.x, e.r.y + t0 * e.v.y, e.r.z + t0 * e.v.z⟩ := by
        ext <;> simp [flown, accel_off hG]
      have he : e' = flown G e t0 := by
        split at h
        · simp only [Except.ok.injEq, Option.some.injEq] at h
          rw [← h] at hp
          exact absurd rfl hp
        · simp only [Except.ok.injEq, Option.some.injEq] at h
          exact h.symm
        · simp at h
      refine ⟨t0, h0, he, ?_⟩
      rw [he, hx]
      obtain ⟨i1, i2⟩ := hin
      rw [abs_le, hy] at i2
      refine ⟨?_, ?_, ?_⟩
      · simp only; rw [hy]; linarith [i2.1]
      · simp only; linarith [i2.2]
      · simp only; rw [← hr]; exact i1

/-- C211 is false: if the limits are 1 and 2, a neutron in the middle between them misses the chopper: the T0 chopper absorbs it, however it is
turned, and the Fermi chopper lets it pass, however it is turned -/
theorem C211_limits_false {c : T0} {d : Fermi} (hc : c.ymin = 1 ∧ c.ymax = 2) (hd : d.ymin = 1 ∧ d.ymax = 2) (G : Gravity) (n : ℕ)
    (x z v p : ℝ) (hv : v ≠ 0) :
    c.trace G n ⟨⟨x, 3 / 2, z⟩, ⟨0, 0, v⟩, 0, 0, 0, p⟩ = .ok (some ⟨⟨x, 3 / 2, z⟩, ⟨0, 0, v⟩, 0, 0, 0, -1⟩) ∧
    d.trace G ⟨⟨x, 3 / 2, z⟩, ⟨0, 0, v⟩, 0, 0, 0, p⟩ = .ok ⟨⟨x, 3 / 2, z⟩, ⟨0, 0, v⟩, 0, 0, 0, p⟩ := by
  have key : ∀ r, cylinderIntersect ⟨x, 3 / 2, z⟩ ⟨0, 0, v⟩ r (2 - 1) = some none := by
    intro r
    rcases C165_cylinder_partial (p := ⟨x, 3 / 2, z⟩) (v := ⟨0, 0, v⟩) (.inr hv) r (h := 2 - 1) (by norm_num) with
      ⟨h, -⟩ | ⟨k1, k2, t0, t1, h, -, -, h2, h3⟩
    · exact h
    · exfalso
      have := ((h3 t0).2 ⟨le_rfl, h2⟩).2
      norm_num [abs_of_pos] at this
  constructor
  · unfold T0.trace
    rw [hc.1, hc.2]
    simp only [key]
    rfl
  · unfold Fermi.trace
    rw [hd.1, hd.2]
    cases d.off with
    | none => rfl
    | some off => simp only [key]

end Verif.McFermi
