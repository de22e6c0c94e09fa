import Verif.Lemmas.McOptics
/-!
Property theorems C174-C177: slits, beam stops, collimators and velocity selectors of McStas.
-/

namespace Verif.McOpt
open McStas Kinem Homog McMon
open Classical

/-! ### slits and beam stops -/

/-- C174, partial: a neutron that comes to the slit is there afterwards, and has its weight if it is in the opening (and the weight is not
below `cut`), else it is absorbed.  Missing: neutrons that do not come to the slit, see `C174_away_false`. -/
theorem C174_partial (s : Slit) {G : Gravity} {e a : Event ℝ} (hc : Comes G e a) :
    slit s G e = if s.Open a.r.x a.r.y ∧ s.cut ≤ a.p then a else stopped a := by
  unfold slit stopped absorb Slit.Open
  simp only [comes_prop hc]
  by_cases hr : s.radius = 0
  · simp only [hr, if_true, true_and, ne_eq, not_true_eq_false, false_and, or_false]
    by_cases ho : a.r.x < s.xmin ∨ a.r.x > s.xmax ∨ a.r.y < s.ymin ∨ a.r.y > s.ymax
    · rw [if_pos ho, if_neg]
      rintro ⟨⟨⟨h1, h2⟩, h3, h4⟩, -⟩
      rcases ho with h | h | h | h <;> linarith
    · rw [if_neg ho]
      push Not at ho
      obtain ⟨h1, h2, h3, h4⟩ := ho
      by_cases hp : a.p < s.cut
      · rw [if_pos hp, if_neg]; rintro ⟨-, h⟩; linarith
      · rw [if_neg hp, if_pos ⟨⟨⟨h1, h2⟩, h3, h4⟩, not_lt.1 hp⟩]
  · simp only [hr, if_false, false_and, ne_eq, not_false_eq_true, true_and, false_or]
    by_cases ho : a.r.x * a.r.x + a.r.y * a.r.y > s.radius * s.radius
    · rw [if_pos ho, if_neg]
      rintro ⟨h, -⟩
      nlinarith
    · rw [if_neg ho]
      push Not at ho
      by_cases hp : a.p < s.cut
      · rw [if_pos hp, if_neg]; rintro ⟨-, h⟩; linarith
      · rw [if_neg hp, if_pos ⟨by nlinarith, not_lt.1 hp⟩]

/-- C174: a slit made from width and height is centred at the axis, one with limits has these limits, and there is none without an
opening. -/
theorem C174_new (xmin xmax ymin ymax radius cut width height : ℝ) :
    (0 < width → 0 < height → Slit.new xmin xmax ymin ymax radius cut width height =
      .ok ⟨-(width / 2), width / 2, -(height / 2), height / 2, radius, cut⟩) ∧
    (xmin < xmax → ymin < ymax → Slit.new xmin xmax ymin ymax radius cut 0 0 = .ok ⟨xmin, xmax, ymin, ymax, radius, cut⟩) ∧
    Slit.new 0 0 0 0 0 cut 0 0 = .error .cppException := by
  refine ⟨fun h1 h2 => ?_, fun h1 h2 => ?_, ?_⟩
  · unfold Slit.new
    simp only [gt_iff_lt, if_pos h1, if_pos h2]
    rw [if_neg]
    rintro ⟨h, -⟩
    linarith
  · unfold Slit.new
    simp only [gt_iff_lt, lt_irrefl, if_false]
    rw [if_neg]
    rintro ⟨h, h', -⟩
    linarith
  · simp [Slit.new]

example : Comes ⟨false, 0⟩ ⟨⟨0, 0, -3⟩, ⟨1, 0, 2⟩, 0, 0, 0, 1⟩ ⟨⟨3 / 2, 0, 0⟩, ⟨1, 0, 2⟩, 0, 0, 3 / 2, 1⟩ ∧
    Slit.Open ⟨-2, 2, -2, 2, 0, 0⟩ (3 / 2) 0 ∧ ¬ Slit.Open ⟨0, 0, 0, 0, 1, 0⟩ (3 / 2) 0 := by
  refine ⟨⟨⟨3 / 2, ⟨by norm_num, ?_, fun s h1 h2 h3 => ?_⟩, ?_⟩, .inl ⟨rfl, by norm_num⟩⟩, ?_, ?_⟩
  · rw [flown_z, accel_off rfl]; norm_num
  · rw [flown_z, accel_off rfl] at h3; norm_num at h3; linarith
  · unfold flown; rw [accel_off rfl]; ext <;> simp
  · unfold Slit.Open; norm_num
  · unfold Slit.Open; norm_num

/-- C174 is false for a neutron that flies away from the slit: it is set back in time and passes the slit. -/
theorem C174_away_false : ∃ (s : Slit) (e : Event ℝ), 0 < e.p ∧ (∀ t, 0 ≤ t → (flown ⟨false, 0⟩ e t).r.z ≠ 0) ∧
    (slit s ⟨false, 0⟩ e).p = e.p ∧ (slit s ⟨false, 0⟩ e).t < e.t := by
  have : slit ⟨-1, 1, -1, 1, 0, 0⟩ ⟨false, 0⟩ ⟨⟨0, 0, 3⟩, ⟨0, 0, 1⟩, 0, 0, 0, 5⟩ = ⟨⟨0, 0, 0⟩, ⟨0, 0, 1⟩, 0, 0, -3, 5⟩ := by
    norm_num [slit, propZ0, propZ0Free, propDtFree]
  refine ⟨⟨-1, 1, -1, 1, 0, 0⟩, ⟨⟨0, 0, 3⟩, ⟨0, 0, 1⟩, 0, 0, 0, 5⟩, by norm_num, fun s hs => ?_, ?_, ?_⟩
  · rw [flown_z, accel_off rfl]; norm_num; linarith
  · rw [this]
  · rw [this]; norm_num

/-- C175, partial: a neutron that comes to the plane of a beam stop is absorbed if it is in the area of the stop, and else not changed
at all.  Missing: neutrons that do not come to the plane, see `C175_parallel_false`. -/
theorem C175_partial (s : Stop) {G : Gravity} {e a : Event ℝ} (hc : Comes G e a) :
    beamstop s G e = if s.Area a.r.x a.r.y then stopped a else e := by
  unfold beamstop stopped absorb Stop.Area
  simp only [comes_prop hc]
  by_cases hr : s.radius = 0
  · simp only [hr, if_true, true_and, ne_eq, not_true_eq_false, false_and, false_or]
    refine if_congr ?_ rfl rfl
    constructor
    · rintro ⟨h1, h2, h3, h4⟩; exact ⟨⟨h1, h2⟩, h3, h4⟩
    · rintro ⟨⟨h1, h2⟩, h3, h4⟩; exact ⟨h1, h2, h3, h4⟩
  · simp only [hr, if_false, false_and, ne_eq, not_false_eq_true, true_and, or_false]
    refine if_congr ?_ rfl rfl
    rw [sq, sq, sq]

example : Comes ⟨false, 0⟩ ⟨⟨0, 0, -3⟩, ⟨1, 0, 2⟩, 0, 0, 0, 1⟩ ⟨⟨3 / 2, 0, 0⟩, ⟨1, 0, 2⟩, 0, 0, 3 / 2, 1⟩ ∧
    Stop.Area ⟨-2, 2, -2, 2, 0⟩ (3 / 2) 0 ∧ ¬ Stop.Area ⟨-1, 1, -1, 1, 0⟩ (3 / 2) 0 := by
  refine ⟨⟨⟨3 / 2, ⟨by norm_num, ?_, fun s h1 h2 h3 => ?_⟩, ?_⟩, .inl ⟨rfl, by norm_num⟩⟩, ?_, ?_⟩
  · rw [flown_z, accel_off rfl]; norm_num
  · rw [flown_z, accel_off rfl] at h3; norm_num at h3; linarith
  · unfold flown; rw [accel_off rfl]; ext <;> simp
  · unfold Stop.Area; norm_num
  · unfold Stop.Area; norm_num

/-- C175 is false for neutrons that never come to the plane of the stop: one that flies parallel to it at a distance and one that has
left it behind are absorbed. -/
theorem C175_parallel_false : ∃ (s : Stop) (e f : Event ℝ), 0 < e.p ∧ 0 < f.p ∧ e.v.z = 0 ∧ 0 < f.v.z ∧
    (∀ t, 0 ≤ t → (flown ⟨false, 0⟩ e t).r.z ≠ 0 ∧ (flown ⟨false, 0⟩ f t).r.z ≠ 0) ∧
    (beamstop s ⟨false, 0⟩ e).p = -1 ∧ (beamstop s ⟨false, 0⟩ f).p = -1 := by
  refine ⟨⟨-1, 1, -1, 1, 0⟩, ⟨⟨0, 0, 3⟩, ⟨1, 0, 0⟩, 0, 0, 0, 5⟩, ⟨⟨0, 0, 3⟩, ⟨0, 0, 1⟩, 0, 0, 0, 5⟩, by norm_num, by norm_num, rfl,
    by norm_num, fun t ht => ⟨?_, ?_⟩, ?_, ?_⟩
  · rw [flown_z, accel_off rfl]; norm_num
  · rw [flown_z, accel_off rfl]; norm_num; linarith
  · norm_num [beamstop, propZ0, propZ0Free, absorb]
  · norm_num [beamstop, propZ0, propZ0Free, propDtFree, absorb]

/-! ### collimator -/

/-- C176, partial: a neutron that comes to a collimator through the entry and leaves through the exit has the weight times the part of
the parallel paths that hit no blade (blades of the length of the collimator at the distance length times tangent of the divergence).  The
others are absorbed.  Missing: with blades in both directions the transmission counts twice, see `C176_twice_false`. -/
theorem C176_partial (c : Coll) {G : Gravity} {e a : Event ℝ} (hc : Comes G e a) (hl : 0 < c.len) (hz : 0 < a.v.z)
    (hz' : (flown G a (c.len / a.v.z)).v.z ≠ 0) (hd : 0 ≤ c.divergence ∧ c.divergence < 5400)
    (hd2 : 0 ≤ c.divergenceV ∧ c.divergenceV < 5400) :
    let b := flown G a (c.len / a.v.z)
    let T := soller c.len c.divergence b.v.x b.v.z * soller c.len c.divergenceV b.v.y b.v.z
    let k := (if 0 < c.divergence then 1 else 0) + (if 0 < c.divergenceV then 1 else 0)
    (¬ Within c.xmin c.xmax c.ymin c.ymax a → collimator c G e = some (stopped a)) ∧
    (Within c.xmin c.xmax c.ymin c.ymax a → ¬ Within c.xmin c.xmax c.ymin c.ymax b → collimator c G e = some (stopped b)) ∧
    (Within c.xmin c.xmax c.ymin c.ymax a → Within c.xmin c.xmax c.ymin c.ymax b →
      (0 < T → collimator c G e = some { b with p := b.p * (c.transmission ^ k * T) }) ∧
      (T = 0 → ∃ q, (q = -1 ∨ q = 0) ∧ collimator c G e = some { b with p := q })) := by
  intro b T k
  have hout : ∀ x : Event ℝ, c.out x ↔ ¬ Within c.xmin c.xmax c.ymin c.ymax x := by
    intro x
    unfold Coll.out Within
    constructor
    · rintro h ⟨⟨h1, h2⟩, h3, h4⟩
      rcases h with h | h | h | h <;> linarith
    · intro h
      by_contra hn
      push Not at hn
      exact h ⟨⟨hn.1, hn.2.1⟩, hn.2.2.1, hn.2.2.2⟩
  have hb : propDt G (c.len / a.v.z) a = b := fly (div_pos hl hz).le a
  unfold collimator
  simp only [comes_prop hc, divD_ok hz.ne', Option.bind_eq_bind, Option.bind_some, hb, hout]
  refine ⟨fun h => by rw [if_pos h]; rfl, fun h1 h2 => by rw [if_neg (not_not.2 h1), if_pos h2]; rfl, fun h1 h2 => ?_⟩
  simp only [if_neg (not_not.2 h1), if_neg (not_not.2 h2)]
  have hbz : b.v.z ≠ 0 := hz'
  obtain ⟨x1, x2, x3, x4⟩ := blades_eq (t := c.transmission) (v := b.v.x) (p := b.p) hl hd.1 hd.2 hbz
  constructor
  · intro hT
    have hx : 0 < soller c.len c.divergence b.v.x b.v.z := lt_of_le_of_ne x3 fun h => by simp only [T, ← h, zero_mul] at hT; exact lt_irrefl _ hT
    rw [x1 hx]
    obtain ⟨y1, y2, y3, y4⟩ := blades_eq (t := c.transmission) (v := b.v.y)
      (p := b.p * (c.transmission ^ (if 0 < c.divergence then 1 else 0) * soller c.len c.divergence b.v.x b.v.z)) hl hd2.1 hd2.2 hbz
    have hy : 0 < soller c.len c.divergenceV b.v.y b.v.z := lt_of_le_of_ne y3 fun h => by simp only [T, ← h, mul_zero] at hT; exact lt_irrefl _ hT
    simp only [Option.bind_some, y1 hy]
    congr 2
    simp only [T, k, pow_add]
    ring
  · intro hT
    have hcase : soller c.len c.divergence b.v.x b.v.z = 0 ∨ (0 < soller c.len c.divergence b.v.x b.v.z ∧ soller c.len c.divergenceV b.v.y b.v.z = 0) := by
      rcases mul_eq_zero.1 hT with h | h
      · exact .inl h
      · rcases x3.lt_or_eq with h' | h'
        · exact .inr ⟨h', h⟩
        · exact .inl h'.symm
    rcases hcase with h | ⟨h, h'⟩
    · rcases x2 h with h | h
      · exact ⟨-1, .inl rfl, by rw [h]; rfl⟩
      · simp only [h, Option.bind_some]
        obtain ⟨y1, y2, y3, y4⟩ := blades_eq (t := c.transmission) (v := b.v.y) (p := 0) hl hd2.1 hd2.2 hbz
        rcases y3.lt_or_eq with hy | hy
        · rw [y1 hy]
          exact ⟨0, .inr rfl, by simp⟩
        · rcases y2 hy.symm with hy | hy
          · exact ⟨-1, .inl rfl, by rw [hy]; rfl⟩
          · exact ⟨0, .inr rfl, by rw [hy]; rfl⟩
    · rw [x1 h]
      obtain ⟨y1, y2, y3, y4⟩ := blades_eq (t := c.transmission) (v := b.v.y)
        (p := b.p * (c.transmission ^ (if 0 < c.divergence then 1 else 0) * soller c.len c.divergence b.v.x b.v.z)) hl hd2.1 hd2.2 hbz
      simp only [Option.bind_some]
      rcases y2 h' with hy | hy
      · exact ⟨-1, .inl rfl, by rw [hy]; rfl⟩
      · exact ⟨0, .inr rfl, by rw [hy]; rfl⟩

/-- the part for blades: linear in the slope of the path -/
theorem C176_soller {len d v vz : ℝ} (hl : 0 < len) (hd : 0 < d) (hd' : d < 5400) :
    soller len d v vz = max 0 (1 - |v / vz| / Real.tan (Real.pi / 10800 * d)) := by
  have hp := Real.pi_pos
  have ht : 0 < Real.tan (Real.pi / 10800 * d) := Real.tan_pos_of_pos_of_lt_pi_div_two (by positivity) (by
    calc Real.pi / 10800 * d < Real.pi / 10800 * 5400 := by gcongr
      _ = Real.pi / 2 := by ring)
  unfold soller
  rw [if_pos hd, passing_eq, mul_div_mul_left _ _ hl.ne', abs_div, abs_of_pos ht]

example : Comes ⟨false, 0⟩ ⟨⟨0, 0, -1⟩, ⟨0, 0, 1⟩, 0, 0, 0, 1⟩ ⟨⟨0, 0, 0⟩, ⟨0, 0, 1⟩, 0, 0, 1, 1⟩ ∧
    Within (-1) 1 (-1) 1 ⟨⟨0, 0, 0⟩, ⟨0, 0, 1⟩, 0, 0, 1, 1⟩ ∧ soller 2 2700 (1 / 2) 1 = 1 / 2 := by
  refine ⟨⟨⟨1, ⟨by norm_num, ?_, fun s h1 h2 h3 => ?_⟩, ?_⟩, .inl ⟨rfl, by norm_num⟩⟩, ?_, ?_⟩
  · rw [flown_z, accel_off rfl]; norm_num
  · rw [flown_z, accel_off rfl] at h3; norm_num at h3; linarith
  · unfold flown; rw [accel_off rfl]; ext <;> simp
  · unfold Within; norm_num
  · rw [C176_soller (by norm_num) (by norm_num) (by norm_num), show Real.pi / 10800 * 2700 = Real.pi / 4 by ring, Real.tan_pi_div_four,
      abs_of_nonneg (by norm_num)]
    norm_num

/-- C176 is false for a collimator with blades in both directions: a neutron along the axis, which hits no blade, has its weight times
the square of the transmission. -/
theorem C176_twice_false : ∃ (c : Coll) (e e' : Event ℝ), c.transmission = 1 / 2 ∧ e.v.x = 0 ∧ e.v.y = 0 ∧ e.p = 1 ∧
    soller c.len c.divergence e.v.x e.v.z = 1 ∧ soller c.len c.divergenceV e.v.y e.v.z = 1 ∧
    collimator c ⟨false, 0⟩ e = some e' ∧ e'.p = 1 / 4 := by
  have hc : Comes ⟨false, 0⟩ ⟨⟨0, 0, -1⟩, ⟨0, 0, 1⟩, 0, 0, 0, 1⟩ ⟨⟨0, 0, 0⟩, ⟨0, 0, 1⟩, 0, 0, 1, 1⟩ := by
    refine ⟨⟨1, ⟨by norm_num, ?_, fun s h1 h2 h3 => ?_⟩, ?_⟩, .inl ⟨rfl, by norm_num⟩⟩
    · rw [flown_z, accel_off rfl]; norm_num
    · rw [flown_z, accel_off rfl] at h3; norm_num at h3; linarith
    · unfold flown; rw [accel_off rfl]; ext <;> simp
  have hs : soller 1 40 0 1 = 1 := by
    rw [C176_soller (by norm_num) (by norm_num) (by norm_num)]; simp
  have hb : flown ⟨false, 0⟩ ⟨⟨0, 0, 0⟩, ⟨0, 0, 1⟩, 0, 0, 1, 1⟩ ((1 : ℝ) / 1) = ⟨⟨0, 0, 1⟩, ⟨0, 0, 1⟩, 0, 0, 2, 1⟩ := by
    unfold flown; rw [accel_off rfl]; ext <;> norm_num
  have h := C176_partial ⟨-1, 1, -1, 1, 1, 40, 1 / 2, 40⟩ hc (by norm_num) (by norm_num) (by simp only [hb]; norm_num)
    (by norm_num) (by norm_num)
  simp only [hb, hs] at h
  refine ⟨⟨-1, 1, -1, 1, 1, 40, 1 / 2, 40⟩, ⟨⟨0, 0, -1⟩, ⟨0, 0, 1⟩, 0, 0, 0, 1⟩, _, rfl, rfl, rfl, rfl, hs, hs,
    (h.2.2 (by unfold Within; norm_num) (by unfold Within; norm_num)).1 (by norm_num), ?_⟩
  norm_num

/-! ### velocity selectors -/

/-- C177, the velocity selector with helical lamellae (without gravity): a neutron through both apertures has its weight times the part of
the phases of the rotor for which it hits no lamella (angle between lamellae `2π/nb`, thickness `tb`, twist `phi`, rotation `rot` in 1/min);
the others are absorbed. -/
theorem C177_helical {s : VSel} {e : Event ℝ} (hz : 0 < e.v.z) (h0 : e.r.z ≤ -s.l0 / 2) (hl : 0 ≤ s.l1) (hl' : s.l1 ≤ s.l0) (hn : 0 < s.nb)
    (ht : 0 ≤ s.tb) (hr : 0 < offAxis s.r0 (atZ e (-s.l1 / 2)) + offAxis s.r0 (atZ e (s.l1 / 2))) :
    let δ := s.phi * Real.pi / 180 + (around s.r0 (atZ e (s.l1 / 2)) - around s.r0 (atZ e (-s.l1 / 2))) - 2 * Real.pi * (s.rot / 60) * (s.l1 / e.v.z)
    let T := passRotor (2 * Real.pi / s.nb) (s.tb / ((offAxis s.r0 (atZ e (-s.l1 / 2)) + offAxis s.r0 (atZ e (s.l1 / 2))) / 2)) δ
    (¬ Within (-s.width / 2) (s.width / 2) (-s.height / 2) (s.height / 2) (atZ e (-s.l0 / 2)) →
      vSelector s ⟨false, 0⟩ e = some (stopped (atZ e (-s.l0 / 2)))) ∧
    (Within (-s.width / 2) (s.width / 2) (-s.height / 2) (s.height / 2) (atZ e (-s.l0 / 2)) →
      ¬ Within (-s.width / 2) (s.width / 2) (-s.height / 2) (s.height / 2) (atZ e (s.l0 / 2)) →
      vSelector s ⟨false, 0⟩ e = some (stopped (atZ e (s.l0 / 2)))) ∧
    (Within (-s.width / 2) (s.width / 2) (-s.height / 2) (s.height / 2) (atZ e (-s.l0 / 2)) →
      Within (-s.width / 2) (s.width / 2) (-s.height / 2) (s.height / 2) (atZ e (s.l0 / 2)) →
      vSelector s ⟨false, 0⟩ e = some (if T = 0 then stopped (atZ e (s.l0 / 2)) else { atZ e (s.l0 / 2) with p := e.p * T })) := by
  intro δ T
  have hp := Real.pi_pos
  have hout : ∀ x : Event ℝ, s.out x ↔ ¬ Within (-s.width / 2) (s.width / 2) (-s.height / 2) (s.height / 2) x := by
    intro x
    unfold VSel.out Within
    constructor
    · rintro h ⟨⟨h1, h2⟩, h3, h4⟩
      rcases h with h | h | h | h <;> linarith
    · intro h
      by_contra hn
      push Not at hn
      exact h ⟨⟨hn.1, hn.2.1⟩, hn.2.2.1, hn.2.2.2⟩
  have p0 : propDt ⟨false, 0⟩ ((-s.l0 / 2 - e.r.z) / e.v.z) e = atZ e (-s.l0 / 2) := fly (div_nonneg (by linarith) hz.le) e
  have p1 : propDt ⟨false, 0⟩ ((s.l0 - s.l1) / (2 * e.v.z)) (atZ e (-s.l0 / 2)) = atZ e (-s.l1 / 2) := by
    rw [show (s.l0 - s.l1) / (2 * e.v.z) = (-s.l1 / 2 - -s.l0 / 2) / e.v.z by field_simp; ring]
    exact atZ_fly hz (by linarith)
  have p2 : propDt ⟨false, 0⟩ (s.l1 / e.v.z) (atZ e (-s.l1 / 2)) = atZ e (s.l1 / 2) := by
    rw [show s.l1 / e.v.z = (s.l1 / 2 - -s.l1 / 2) / e.v.z by field_simp; ring]
    exact atZ_fly hz (by linarith)
  have p3 : propDt ⟨false, 0⟩ ((s.l0 - s.l1) / (2 * e.v.z)) (atZ e (s.l1 / 2)) = atZ e (s.l0 / 2) := by
    rw [show (s.l0 - s.l1) / (2 * e.v.z) = (s.l0 / 2 - s.l1 / 2) / e.v.z by field_simp]
    exact atZ_fly hz (by linarith)
  unfold vSelector
  have hz2 : 2 * e.v.z ≠ 0 := by positivity
  simp only [if_neg hz.ne', p0, hout, atZ_v, divD_ok hz2, divD_ok hz.ne', Option.bind_eq_bind, Option.bind_some, p1, p2, p3, polarAt_eq]
  refine ⟨fun h => by rw [if_pos h]; rfl, fun h1 h2 => by rw [if_neg (not_not.2 h1), if_pos h2]; rfl, fun h1 h2 => ?_⟩
  rw [if_neg (not_not.2 h1), if_neg (not_not.2 h2)]
  unfold VSel.closed
  have hr2 : (offAxis s.r0 (atZ e (-s.l1 / 2)) + offAxis s.r0 (atZ e (s.l1 / 2))) / 2 ≠ 0 := by positivity
  simp only [divD_ok hr2, Option.bind_eq_bind, Option.bind_some]
  have hδ : s.phi * (Real.pi / 180) + (around s.r0 (atZ e (s.l1 / 2)) - around s.r0 (atZ e (-s.l1 / 2))) - s.rot * (2 * Real.pi / 60) * (s.l1 / e.v.z) = δ := by
    simp only [δ]; ring
  rw [hδ]
  set c := s.tb / ((offAxis s.r0 (atZ e (-s.l1 / 2)) + offAxis s.r0 (atZ e (s.l1 / 2))) / 2)
  have hT : T = max 0 ((2 * Real.pi / s.nb - c - |δ|) / (2 * Real.pi / s.nb)) := passRotor_eq (by positivity) (by positivity) δ
  have hA : (2 * Real.pi / s.nb - c - |δ|) / (2 * Real.pi / s.nb) = 1 - s.nb / (2 * Real.pi) * (c + |δ|) := by field_simp; ring
  rw [hA] at hT
  by_cases h : s.nb / (2 * Real.pi) * (c + |δ|) ≥ 1
  · rw [if_pos h, if_pos (by rw [hT, max_eq_left (by linarith)])]
    rfl
  · push Not at h
    rw [if_neg (by linarith), if_neg (by rw [hT, max_eq_right (by linarith)]; linarith), hT, max_eq_right (by linarith)]
    rfl

example : (0 : ℝ) < 1000 ∧ (-1 : ℝ) ≤ -(1 / 5) / 2 ∧ passRotor (2 * Real.pi / 4) 0 (Real.pi / 4) = 1 / 2 := by
  refine ⟨by norm_num, by norm_num, ?_⟩
  have := Real.pi_pos
  rw [passRotor_eq (by positivity) le_rfl, abs_of_pos (by positivity), max_eq_right]
  · field_simp; ring
  · apply div_nonneg <;> linarith

/-- C177, the velocity selector with straight blades: averaged over the phase the neutrons that come through both frames keep the part of
their weight that belongs to the phases for which they hit no blade (angles in degrees: `360/num` between blades, thickness `width` at the
distance from the axis where the neutron enters, twist `alfa`, `feq` rotations per second). -/
theorem C177_blades {s : Sel} {G : Gravity} {e a : Event ℝ} (hc : Comes G e a) (hz : 0 < a.v.z) (hl : 0 ≤ s.len) (hn : 0 < s.num)
    (hw : 0 ≤ s.width) (hr : 0 < offAxis s.radius a) (ho : s.width / offAxis s.radius a * (180 / Real.pi) < 360 / s.num) (hp0 : 0 ≤ e.p)
    (hin : Within s.xmin s.xmax s.ymin s.ymax a) :
    let b := flown G a (s.len / a.v.z)
    let δ := s.feq * (s.len / a.v.z) * 360 - s.alfa + (around s.radius b - around s.radius a) * (180 / Real.pi)
    (¬ Within s.xmin s.xmax s.ymin s.ymax b → ∀ u, ∃ p, selector s G u e = some (stopped { b with p := p })) ∧
    (Within s.xmin s.xmax s.ymin s.ymax b →
      (∀ u, ∃ p, selector s G u e = some { b with p := p }) ∧
      mean (fun u => kept (selector s G u e)) = e.p * passRotor (360 / s.num) (s.width / offAxis s.radius a * (180 / Real.pi)) δ) := by
  intro b δ
  have hout : ∀ x : Event ℝ, s.out x ↔ ¬ Within s.xmin s.xmax s.ymin s.ymax x := by
    intro x
    unfold Sel.out Within
    constructor
    · rintro h ⟨⟨h1, h2⟩, h3, h4⟩
      rcases h with h | h | h | h <;> linarith
    · intro h
      by_contra hn
      push Not at hn
      exact h ⟨⟨hn.1, hn.2.1⟩, hn.2.2.1, hn.2.2.2⟩
  have hap : a.p = e.p := by obtain ⟨⟨t, -, rfl⟩, -⟩ := hc; rfl
  set P := 360 / s.num with hP
  set c := s.width / offAxis s.radius a * (180 / Real.pi) with hcdef
  have hP0 : 0 < P := by positivity
  have hc0 : 0 ≤ c := by have := Real.pi_pos; positivity
  have hsel : ∀ u, selector s G u e = if ¬ Within s.xmin s.xmax s.ymin s.ymax b then some (absorb { b with p := a.p * ((P - c) / P) }) else
      if around s.radius b * (180 / Real.pi) < around s.radius a * (180 / Real.pi) - ((P - c) * u + s.feq * (s.len / a.v.z) * 360 - s.alfa) ∨
        around s.radius b * (180 / Real.pi) > around s.radius a * (180 / Real.pi) - ((P - c) * u + s.feq * (s.len / a.v.z) * 360 - s.alfa) + (P - c)
      then some (absorb { b with p := a.p * ((P - c) / P) }) else some { b with p := a.p * ((P - c) / P) } := by
    intro u
    unfold selector
    simp only [comes_prop hc, hout, if_neg (not_not.2 hin), divD_ok hz.ne', divD_ok hr.ne', divD_ok hn.ne', polarAt_eq, Option.bind_eq_bind,
      Option.bind_some, ← hP, ← hcdef, divD_ok hP0.ne', add_sub_cancel, fly (div_nonneg hl hz.le)]
    rfl
  constructor
  · intro h u
    rw [hsel, if_pos h]
    exact ⟨0, rfl⟩
  · intro h
    constructor
    · intro u
      rw [hsel, if_neg (not_not.2 h)]
      split
      · exact ⟨-1, rfl⟩
      · exact ⟨_, rfl⟩
    · have hk : (fun u => kept (selector s G u e)) = fun u => e.p * ((P - c) / P) * if -δ / (P - c) ≤ u ∧ u ≤ (P - c - δ) / (P - c) then 1 else 0 := by
        ext u
        rw [hsel, if_neg (not_not.2 h), hap]
        have hPc : 0 < P - c := by linarith
        have hq : 0 ≤ e.p * ((P - c) / P) := by positivity
        by_cases hh : -δ / (P - c) ≤ u ∧ u ≤ (P - c - δ) / (P - c)
        · rw [if_pos hh, if_neg, kept, if_neg (by simpa using hq), mul_one]
          rw [div_le_iff₀ hPc, le_div_iff₀ hPc] at hh
          simp only [δ] at hh
          rintro (h1 | h1) <;> nlinarith
        · rw [if_neg hh, if_pos, kept, if_pos (by simp [absorb]), mul_zero]
          by_contra hn
          push Not at hn
          apply hh
          rw [div_le_iff₀ hPc, le_div_iff₀ hPc]
          simp only [δ]
          constructor <;> nlinarith [hn.1, hn.2]
      have hPc : 0 < P - c := by linarith
      have hm : ∀ (k : ℝ) (f : ℝ → ℝ), mean (fun u => k * f u) = k * mean f := by
        intro k f; unfold mean; exact intervalIntegral.integral_const_mul _ _
      rw [hk, hm, mean_interval, passRotor_eq hP0 hc0, mul_assoc]
      congr 1
      rcases le_total 0 δ with hd | hd
      · rw [abs_of_nonneg hd, max_eq_right (by rw [neg_div]; have := div_nonneg hd hPc.le; linarith : -δ / (P - c) ≤ 0),
          min_eq_left (by rw [div_le_one hPc]; linarith : (P - c - δ) / (P - c) ≤ 1), sub_zero, mul_max_of_nonneg _ _ (by positivity), mul_zero]
        congr 1
        field_simp
      · rw [abs_of_nonpos hd, max_eq_left (div_nonneg (by linarith) hPc.le : 0 ≤ -δ / (P - c)),
          min_eq_right (by rw [one_le_div hPc]; linarith : 1 ≤ (P - c - δ) / (P - c)), mul_max_of_nonneg _ _ (by positivity), mul_zero]
        congr 1
        field_simp

example : offAxis 0 ⟨⟨3, 4, 0⟩, ⟨0, 0, 1⟩, 0, 0, 0, 1⟩ = 5 ∧ (0 : ℝ) / 5 * (180 / Real.pi) < 360 / 8 := by
  constructor
  · unfold offAxis
    rw [show ((3 : ℝ) ^ 2 + (4 + 0) ^ 2) = 5 ^ 2 by norm_num, Real.sqrt_sq (by norm_num)]
  · norm_num

end Verif.McOpt
