import Verif.Lemmas.McBender
/-!
Properties of the curved guide of `Verif.Model.McBender`.
-/

namespace Verif.McBend
open McStas Kinem McGuide McOpt McMon Detector
open Classical

/-- C262: a neutron in a channel of a curved guide leaves it as if all reflections were followed one by one: there is a path of straight
flights and reflections between the circles of the channel from the entrance to the angle of the bend, and one between floor and ceiling for
the same time; the neutron at the exit is at their end, with the weight multiplied by the reflectivity of each reflection, unless one of
them is dark: then it is stopped. -/
theorem C262_trace (c : Bender) (hw : 0 < c.w) (hh : 0 < c.h) (hk : 0 < c.k) (hd : 0 ≤ c.d) (hr : c.w < c.r) (hθ : 0 ≤ c.angle)
    {G : Gravity} {e a : Event ℝ} (hc : Comes G e a) (hvz : 0 < a.v.z) (hx : |a.r.x| < c.w / 2) (hy : |a.r.y| < c.h / 2)
    (n : ℤ) (hn : c.In n a.r.x) (hg : (c.enters a).ρ < (c.ring n).outer ∨ a.v.x ≠ 0) :
    ∃ (L : List (Side × ℝ)) (b : Ray) (m : ℕ) (y vy : ℝ),
      (c.ring n).Path (c.enters a) L b ∧ b.θ = c.angle ∧ Bounces c.h a.r.y a.v.y (b.t - a.t) m y vy ∧
      ((∃ z ∈ L, (c.wall z.1).Dark z.2) ∨ (0 < m ∧ c.s.Dark |a.v.y|) → ∃ e', bender c G e = some (stopped e')) ∧
      (¬ ((∃ z ∈ L, (c.wall z.1).Dark z.2) ∨ (0 < m ∧ c.s.Dark |a.v.y|)) →
        bender c G e = some (c.leaves b y vy (a.p * (L.map fun z => (c.wall z.1).R z.2).prod * c.s.R |a.v.y| ^ m) a)) := by
  have hbk : c.bk = c.width + c.d := by unfold Bender.bk Bender.width; field_simp; ring
  have hbk0 : 0 < c.bk := by unfold Bender.bk; positivity
  have hm : c.mWin = c.angle := by
    unfold Bender.mWin Bender.angle
    by_cases h : c.l = 0
    · rw [if_neg (by simp [h]), if_pos h]
    · rw [if_pos ⟨h, by linarith⟩, if_neg h]
  have hx' := abs_lt.1 hx
  obtain ⟨hn1, hn2⟩ := hn
  have ho : (c.ring n).outer = c.r - n * c.bk := by rw [hbk]; rfl
  have hi : (c.ring n).inner = c.r - n * c.bk - (c.bk - c.d) := by rw [hbk]; unfold Bender.ring; ring
  have hwd : c.bk - c.d = c.width := by rw [hbk]; ring
  rw [ho] at hn2
  rw [hi] at hn1
  have hfl : ⌊(c.w / 2 - a.r.x) / c.bk⌋ = n := by
    rw [Int.floor_eq_iff, le_div_iff₀ hbk0, div_lt_iff₀ hbk0]
    constructor <;> linarith
  have hgr : 0 < c.w / 2 - a.r.x - n * c.bk ∨ a.v.x ≠ 0 := by
    refine hg.imp_left fun h => ?_
    rw [ho] at h
    have : a.r.x + (c.r - c.w / 2) < c.r - n * c.bk := h
    linarith
  obtain ⟨q, L, hq, hp, hdark, hprod⟩ := plane_path c (g := c.ring n) (R := c.r - n * c.bk) (ab := c.w / 2 - a.r.x - n * c.bk)
    (ww := c.bk - c.d) (vx := a.v.x) (vz := a.v.z) ho hi (by linarith) (by linarith) (by linarith) hvz rfl hgr (by rw [hm]; exact hθ) a.t
  have hen : c.enters a = ⟨c.r - n * c.bk - (c.w / 2 - a.r.x - n * c.bk), 0, a.v.x, a.v.z, a.t⟩ := by
    unfold Bender.enters
    rw [Ray.mk.injEq]
    exact ⟨by ring, rfl, rfl, rfl, rfl⟩
  have hT : 0 ≤ q.Ta := by
    have := path_time hp
    simp only at this
    linarith
  have hb : ∃ m y vy, Bounces c.h a.r.y a.v.y q.Ta m y vy ∧
      ∀ e' : Event ℝ, e'.r.y = a.r.y → e'.v.y = a.v.y →
        ((0 < m ∧ c.s.Dark |a.v.y|) → c.vertical q.Ta e' = stopped e') ∧
        (¬ (0 < m ∧ c.s.Dark |a.v.y|) → c.vertical q.Ta e' =
          { e' with r := ⟨e'.r.x, y, e'.r.z⟩, v := ⟨e'.v.x, vy, e'.v.z⟩, p := e'.p * c.s.R |a.v.y| ^ m }) := by
    by_cases hv : a.v.y = 0
    · refine ⟨0, a.r.y, a.v.y, ?_, fun e' h1 h2 => ⟨fun h => absurd h.1 (lt_irrefl _), fun _ => ?_⟩⟩
      · have := Bounces.flies (h := c.h) (y := a.r.y) (v := a.v.y) hT (by rw [hv, mul_zero, add_zero]; exact hy.le)
        rw [hv, mul_zero, add_zero] at this
        rw [hv]
        exact this
      · unfold Bender.vertical
        rw [if_neg (by rw [h2, hv]; simp), ← h1, ← h2]
        simp
    · have hv' := abs_pos.2 hv
      have hz : 0 < c.h / |a.v.y| := by positivity
      have hS : 0 ≤ (q.Ta + (c.h / 2 / |a.v.y| + a.r.y / a.v.y)) / (c.h / |a.v.y|) := by
        apply div_nonneg _ hz.le
        have : -(c.h / 2 / |a.v.y|) ≤ a.r.y / a.v.y := by
          have : |a.r.y / a.v.y| ≤ c.h / 2 / |a.v.y| := by
            rw [abs_div]
            exact (div_le_div_iff_of_pos_right hv').2 hy.le
          exact (abs_le.1 this).1
        linarith
      obtain ⟨m, hm1, hm2, hm3⟩ := trunc_floor hS
      rw [le_div_iff₀ hz] at hm2
      rw [div_lt_iff₀ hz] at hm3
      refine ⟨m, _, _, bounces hh m _ _ _ hv hy.le hT hm2 hm3, fun e' h1 h2 => ?_⟩
      unfold Bender.vertical
      have la := look_eq c.s |a.v.y|
      have hpow : |a.v.y * (-1) ^ m| = |a.v.y| := by rw [abs_mul, abs_pow]; simp
      rw [h1, h2, if_pos hv]
      simp only
      rw [show 2 * V2K * |a.v.y| = 2 * (V2K * |a.v.y|) by ring, la.1, hm1, Int.toNat_natCast, hpow]
      have e1 : fmodC (q.Ta + (c.h / 2 / |a.v.y| + a.r.y / a.v.y)) (c.h / |a.v.y|) =
          q.Ta + (c.h / 2 / |a.v.y| + a.r.y / a.v.y) - m * (c.h / |a.v.y|) := by
        unfold fmodC
        rw [hm1]
        push_cast
        rfl
      rw [e1]
      have e2 : ((m : ℤ) > 0) ↔ 0 < m := by simp
      constructor
      · intro h
        rw [if_pos ⟨e2.2 h.1, la.2.2 h.2⟩]
        rfl
      · intro h
        rw [if_neg fun h' => h ⟨e2.1 h'.1, la.2.1 h'.2⟩]
  obtain ⟨m, y, vy, hB, hV⟩ := hb
  refine ⟨L, _, m, y, vy, by rw [hen]; exact hp, hm, ?_, ?_, ?_⟩
  · simpa using hB
  · intro h
    unfold bender
    simp only [comes_prop hc, hfl]
    rw [if_pos ⟨hx, hy⟩, if_pos (by linarith)]
    simp only [hq]
    by_cases hdk : ∃ z ∈ L, (c.wall z.1).Dark z.2
    · rw [if_pos (hdark.1 hdk)]
      exact ⟨_, rfl⟩
    · rw [if_neg fun h => hdk (hdark.2 h)]
      rw [(hV _ (by rfl) (by rfl)).1 (h.resolve_left hdk)]
      exact ⟨_, rfl⟩
  · intro h
    push Not at h
    unfold bender
    simp only [comes_prop hc, hfl]
    rw [if_pos ⟨hx, hy⟩, if_pos (by linarith)]
    simp only [hq]
    rw [if_neg fun h' => by obtain ⟨z, hz, hd⟩ := hdark.2 h'; exact h.1 z hz hd]
    rw [(hV _ (by rfl) (by rfl)).2 fun h' => h.2 h'.1 h'.2]
    refine congrArg some ?_
    unfold Bender.leaves
    refine Event.ext ?_ rfl rfl rfl rfl ?_
    · simp only
      rw [V3.mk.injEq]
      exact ⟨by ring, rfl, rfl⟩
    · simp only
      rw [hprod]
      ring

/-- C262: the two parts of the velocity keep their sizes -/
theorem C262_speed (c : Bender) {n : ℤ} {L : List (Side × ℝ)} {a b : Ray} (h : (c.ring n).Path a L b) :
    b.u ^ 2 + b.w ^ 2 = a.u ^ 2 + a.w ^ 2 := by
  have hv : ∀ a : Ray, ‖a.velocity‖ ^ 2 = a.u ^ 2 + a.w ^ 2 := fun a => by
    unfold Ray.velocity
    rw [norm_mul, Complex.norm_exp_ofReal_mul_I, mul_one, Complex.norm_add_mul_I, Real.sq_sqrt (by positivity)]
  induction h with
  | flies h => rw [← hv, ← hv, h.2.2.1]
  | reflects h _ _ ih =>
    rw [ih, ← hv _, ← hv, ← h.2.2.1, hv, hv]
    ring

/-- C262: neutrons that are not in the opening, or at the front of a wall between channels, are stopped -/
theorem C262_stopped (c : Bender) (hw : 0 < c.w) (hk : 0 < c.k) (hd : 0 ≤ c.d) {G : Gravity} {e a : Event ℝ} (hc : Comes G e a)
    (h : ¬ (|a.r.x| < c.w / 2 ∧ |a.r.y| < c.h / 2 ∧ ∃ n : ℤ, c.In n a.r.x)) : bender c G e = some (stopped a) := by
  have hbk : c.bk = c.width + c.d := by unfold Bender.bk Bender.width; field_simp; ring
  have hbk0 : 0 < c.bk := by unfold Bender.bk; positivity
  unfold bender
  simp only [comes_prop hc]
  by_cases q : |a.r.x| < c.w / 2 ∧ |a.r.y| < c.h / 2
  · rw [if_pos q, if_neg]
    · rfl
    · intro hlt
      have hf := Int.floor_le ((c.w / 2 - a.r.x) / c.bk)
      rw [le_div_iff₀ hbk0] at hf
      refine h ⟨q.1, q.2, ⌊(c.w / 2 - a.r.x) / c.bk⌋, ?_, ?_⟩
      · unfold Bender.ring
        rw [hbk] at hlt ⊢
        simp only
        linarith
      · unfold Bender.ring
        simp only
        rw [← hbk]
        linarith
  · rw [if_neg q]
    rfl

/-- a mirror that reflects everything -/
def perfect : Coat := ⟨1, 10, 0, 1, 1⟩

/-- a bender with two channels of the width 1 and a wall of 1/2 between them -/
def twoChannels : Bender := ⟨2.5, 1, 100, 0.1, 2, 0.5, perfect, perfect, perfect, 0⟩

example : twoChannels.check = .ok () := by
  unfold Bender.check twoChannels
  norm_num

theorem twoChannels_width : twoChannels.width = 1 := by norm_num [Bender.width, twoChannels]

theorem twoChannels_In : twoChannels.In 1 (-1) := by
  unfold Bender.In Bender.ring
  rw [twoChannels_width]
  norm_num [twoChannels]

/-- the hypotheses are met by a neutron in the inner channel -/
example : twoChannels.In 1 (-1) ∧ |(-1 : ℝ)| < twoChannels.w / 2 ∧ twoChannels.w < twoChannels.r ∧ 0 ≤ twoChannels.angle ∧
    (twoChannels.enters ⟨⟨-1, 0, 0⟩, ⟨0, 1, 1000⟩, 0, 0, 0, 1⟩).ρ < (twoChannels.ring 1).outer := by
  refine ⟨twoChannels_In, by norm_num [twoChannels], by norm_num [twoChannels], by norm_num [Bender.angle, twoChannels], ?_⟩
  unfold Bender.ring
  rw [twoChannels_width]
  norm_num [Bender.enters, twoChannels]

/-- a neutron in the front of the wall -/
example : ¬ ∃ n : ℤ, twoChannels.In n 0 := by
  rintro ⟨n, h1, h2⟩
  unfold Bender.ring at h1 h2
  rw [twoChannels_width] at h1 h2
  norm_num [twoChannels] at h1 h2
  have a1 : (n : ℝ) < 1 := by linarith
  have a2 : (0 : ℝ) < n := by linarith
  have a1 : n < 1 := by exact_mod_cast a1
  have a2 : 0 < n := by exact_mod_cast a2
  omega

theorem perfect_R {u : ℝ} (h : u < 3000) : perfect.R u = 1 ∧ ¬ perfect.Dark u := by
  have : 2 * (V2K * u) ≤ 10 := by unfold V2K; linarith
  constructor
  · unfold Coat.R perfect
    simp only
    rw [if_pos this]
  · rintro ⟨h, -⟩
    exact absurd h (not_lt.2 this)

theorem path_bound {c : Bender} {n : ℤ} {L : List (Side × ℝ)} {a b : Ray} (h : (c.ring n).Path a L b) :
    ∀ z ∈ L, z.2 ^ 2 ≤ a.u ^ 2 + a.w ^ 2 := by
  induction h with
  | flies h => simp
  | @reflects a b d s L h hh hp ih =>
    have e : b.u ^ 2 + b.w ^ 2 = a.u ^ 2 + a.w ^ 2 := C262_speed c (.flies h)
    intro z hz
    rcases List.mem_cons.1 hz with rfl | hz
    · simp only [sq_abs]
      nlinarith [sq_nonneg b.w]
    · have := ih z hz
      simp only at this
      nlinarith

/-- C263 is false: a neutron that flies backwards out of the entrance is not stopped: it is at the exit, with its weight -/
theorem C263_false : ∃ (e r : Event ℝ), e.r = ⟨-1, 0, 1⟩ ∧ e.v = ⟨0, 0, -1⟩ ∧ e.p = 1 ∧ bender twoChannels Off e = some r ∧ r.p = 1 ∧ r.r.z = 10 := by
  have hz : propZ0 Off (⟨⟨-1, 0, 1⟩, ⟨0, 0, -1⟩, 0, 0, 0, 1⟩ : Event ℝ) = ⟨⟨-1, 0, 0⟩, ⟨0, 0, -1⟩, 0, 0, 1, 1⟩ := by
    unfold propZ0 propZ0Free propDtFree
    simp [Off]
  have hbk : twoChannels.bk = 1.5 := by norm_num [Bender.bk, twoChannels]
  have hm : twoChannels.mWin = 0.1 := by norm_num [Bender.mWin, twoChannels]
  have hr : twoChannels.r = 100 := rfl
  have hww : twoChannels.w = 2.5 := rfl
  have hhh : twoChannels.h = 1 := rfl
  have hdd : twoChannels.d = 0.5 := rfl
  obtain ⟨q, L, hq, hp, hdark, hprod⟩ := plane_path twoChannels (g := twoChannels.ring 1) (R := 98.5) (ab := 0.75) (ww := 1) (vx := 0) (vz := 1)
    (vpl := 1)
    (by unfold Bender.ring; rw [twoChannels_width]; norm_num [twoChannels]) (by unfold Bender.ring; rw [twoChannels_width]; norm_num [twoChannels])
    (by norm_num) (by norm_num) (by norm_num) one_pos (by norm_num) (.inl (by norm_num)) (by rw [hm]; norm_num) 0
  have hb := path_bound hp
  have hL : ∀ z ∈ L, z.2 < 3000 := fun z hz => by
    have := hb z hz
    simp only at this
    nlinarith
  have hwall : ∀ s, twoChannels.wall s = perfect := fun s => by cases s <;> rfl
  have hpr : (L.map fun z => (twoChannels.wall z.1).R z.2).prod = 1 := by
    apply List.prod_eq_one
    intro x hx
    obtain ⟨z, hz, rfl⟩ := List.mem_map.1 hx
    rw [hwall]
    exact (perfect_R (hL z hz)).1
  have hnd : ¬ ((q.numa > 0 ∧ q.arga > 10) ∨ (q.numi > 0 ∧ q.argi > 10)) := fun h => by
    obtain ⟨z, hz, hd⟩ := hdark.2 h
    rw [hwall] at hd
    exact (perfect_R (hL z hz)).2 hd
  have hq' : twoChannels.plane 98.5 0.75 1 0 (-1) 1 = some q := by
    rw [← hq]
    unfold Bender.plane
    rw [if_neg (by norm_num), if_neg (by norm_num)]
    norm_num
  refine ⟨⟨⟨-1, 0, 1⟩, ⟨0, 0, -1⟩, 0, 0, 0, 1⟩, ?_⟩
  unfold bender
  rw [hz]
  simp only
  rw [hbk, hww, hhh, hdd, hr, hm]
  have hfl : ⌊((2.5 : ℝ) / 2 - -1) / 1.5⌋ = 1 := by rw [Int.floor_eq_iff]; norm_num
  rw [hfl, if_pos (by norm_num), if_pos (by norm_num)]
  have e1 : √((0 : ℝ) * 0 + -1 * -1) = 1 := by norm_num
  have e2 : (100 : ℝ) - (1 : ℤ) * 1.5 = 98.5 := by norm_num
  have e3 : (2.5 : ℝ) / 2 - -1 - (1 : ℤ) * 1.5 = 0.75 := by norm_num
  have e4 : (1.5 : ℝ) - 0.5 = 1 := by norm_num
  rw [e1, e2, e3, e4, hq']
  simp only
  rw [if_neg hnd]
  refine ⟨_, trivial, trivial, trivial, rfl, ?_, ?_⟩
  · unfold Bender.vertical
    simp only [ne_eq, not_true_eq_false, if_false]
    rw [mul_assoc, ← hprod, hpr, one_mul]
  · unfold Bender.vertical
    simp only [ne_eq, not_true_eq_false, if_false]
    norm_num

/-- C263, partial: a neutron that flies along the guide at the entrance goes forward all the way: so it does at the exit.  Missing: neutrons
that come from the other side (`C263_false`). -/
theorem C263_partial (c : Bender) {n : ℤ} {L : List (Side × ℝ)} {a b : Ray} (h : (c.ring n).Path a L b) (hρ : 0 < a.ρ) (hw : 0 < a.w) : 0 < b.w := by
  have hm : ∀ a : Ray, (starRingEnd ℂ a.place * a.velocity).im = a.ρ * a.w := fun a => by
    unfold Ray.place Ray.velocity
    have : starRingEnd ℂ (a.ρ * Complex.exp (a.θ * Complex.I)) * ((a.u + a.w * Complex.I) * Complex.exp (a.θ * Complex.I)) =
        a.ρ * (a.u + a.w * Complex.I) * (starRingEnd ℂ (Complex.exp (a.θ * Complex.I)) * Complex.exp (a.θ * Complex.I)) := by
      rw [map_mul, Complex.conj_ofReal]; ring
    rw [this, ← Complex.normSq_eq_conj_mul_self, Complex.normSq_eq_norm_sq, Complex.norm_exp_ofReal_mul_I]
    simp
  have hf : ∀ {a b : Ray}, (c.ring n).Flies a b → b.ρ * b.w = a.ρ * a.w := fun {a b} h => by
    rw [← hm, ← hm, h.2.2.1, h.2.1]
    have : starRingEnd ℂ (a.place + (b.t - a.t) * a.velocity) * a.velocity =
        starRingEnd ℂ a.place * a.velocity + ((b.t - a.t) * Complex.normSq a.velocity : ℝ) := by
      push_cast
      rw [Complex.normSq_eq_conj_mul_self, map_add, map_mul, map_sub, Complex.conj_ofReal, Complex.conj_ofReal]
      ring
    rw [this, Complex.add_im, Complex.ofReal_im, add_zero]
  have key : ∀ {a b : Ray}, (c.ring n).Flies a b → 0 < a.ρ → 0 < a.w → 0 < b.w := fun {a b} h hρ hw => by
    have h1 := hf h
    have h2 := h.2.2.2.2.2.1
    by_contra hn
    nlinarith [mul_pos hρ hw, not_lt.1 hn]
  induction h with
  | flies h => exact key h hρ hw
  | reflects h _ _ ih =>
    have := key h hρ hw
    exact ih h.2.2.2.2.2.1 this

/-- a path from the entrance to the exit -/
example : ∃ L b, (twoChannels.ring 1).Path ⟨97.75, 0, 0, 1, 0⟩ L b ∧ b.θ = 0.1 := by
  have hm : twoChannels.mWin = 0.1 := by norm_num [Bender.mWin, twoChannels]
  obtain ⟨q, L, -, hp, -⟩ := plane_path twoChannels (g := twoChannels.ring 1) (R := 98.5) (ab := 0.75) (ww := 1) (vx := 0) (vz := 1)
    (vpl := 1)
    (by unfold Bender.ring; rw [twoChannels_width]; norm_num [twoChannels]) (by unfold Bender.ring; rw [twoChannels_width]; norm_num [twoChannels])
    (by norm_num) (by norm_num) (by norm_num) one_pos (by norm_num) (.inl (by norm_num)) (by rw [hm]; norm_num) 0
  rw [show (98.5 : ℝ) - 0.75 = 97.75 by norm_num] at hp
  exact ⟨L, _, hp, hm⟩

end Verif.McBend
