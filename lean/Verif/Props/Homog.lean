import Verif.Lemmas.Homog
import Verif.Props.Flight
/-!
Property theorems about the homogeneous scatterer: C34, C79, C80.
-/

namespace Verif.Homog
open Solid Flight

variable {K : Type}

/-! ### C34 the choice of an interaction is unbiased -/

/-- **C34** What `enter` finds: the neutron flew forward along its line (not at all if it was
inside), and flying on for the distance `d` is going to the next exiting surface. -/
theorem C34_entry (tol par : ℝ) (h : Scat K) (ev ev1 : Ev) (d : ℝ)
    (he : enter tol par h ev = .ok (ev1, d)) :
    (∃ τ, 0 ≤ τ ∧ FliesFor ev ev1 τ) ∧ (locate tol h.shape ev.r = .ok .inside → ev1 = ev) ∧
    ∃ τ, 0 ≤ τ ∧ d = τ * √(ev1.v.dot ev1.v) ∧
      ∃ ev2, toExit tol par h.shape ev1 = .ok ev2 ∧ FliesFor ev1 ev2 τ := by
  obtain ⟨h1, h2, τ, h3, h4⟩ := enter_cases he
  obtain ⟨h5, h6⟩ := tofBeforeExit_toExit h3
  exact ⟨h1, h2, τ, h5, h4, _, h6, propagate_flies _ _⟩

/-- **C34** Exactly one channel is chosen for every random number, the channel of transmission,
absorption and scattering with the probabilities proportional to the weights. -/
theorem C34_channels (h : Scat K) (hT : 0 ≤ h.wT) (hA : 0 ≤ h.wA) (hS : 0 ≤ h.wS)
    (hsum : 0 < h.wT + h.wA + h.wS) :
    (∀ c, mean (fun u => if h.channel (random u 0 h.sum) = c then 1 else 0) =
      (match c with | .none => h.wT | .absorption => h.wA | .scattering => h.wS) /
        (h.wT + h.wA + h.wS)) := by
  intro c
  cases c with
  | none => exact (mean_none hT hA hS hsum _ 1 (fun u hu => if_pos hu)
      (fun u hu => if_neg hu)).trans (mul_one _)
  | absorption => exact (mean_absorption hT hA hS hsum _ 1 (fun u hu => if_pos hu)
      (fun u hu => if_neg hu)).trans (mul_one _)
  | scattering => exact (mean_scattering hT hA hS hsum _ 1 (fun u hu => if_pos hu)
      (fun u hu => if_neg hu)).trans (mul_one _)

/-- **C34** Absorption: the expected tally of any observable over the neutrons handed to the
absorption of the kernel is the physical one, whatever the weights. -/
theorem C34_absorption (tol par : ℝ) (h : Scat K) (hT : 0 ≤ h.wT) (hA : 0 < h.wA) (hS : 0 ≤ h.wS)
    (ev ev1 : Ev) (d : ℝ) (he : enter tol par h ev = .ok (ev1, d)) (G : Obs) :
    mean2 (fun u1 u2 => score (interactPath1 tol par (probe h) u1 u2 ([], []) ev)
        fun o => tally G o.1.1) =
      ∫ x in (0 : ℝ)..d, ev1.p * h.mu ev1 * Real.exp (-(h.mu ev1 + h.sigma ev1) * x) * along G ev1 x := by
  have hsum : 0 < h.sum := by unfold Scat.sum; linarith
  rw [mean2, mean_absorption hT hA.le hS hsum _ (h.sum / h.wA * ∫ x in (0 : ℝ)..d,
    ev1.p * h.mu ev1 * Real.exp (-(h.mu ev1 + h.sigma ev1) * x) * along G ev1 x)]
  · field_simp
  · intro u1 hu1
    simp only [interactPath1_probe_absorption he, if_pos hu1]
    rw [← mean_distance, mean, mean, ← intervalIntegral.integral_const_mul]
    congr 1
    funext u
    simp only [Scat.pick, propagate, random, along, length_eq, at', sub_zero, add_zero]
    ring
  · intro u1 hu1
    simp only [interactPath1_probe_absorption he, if_neg hu1]
    simp [mean]

/-- **C34** Scattering: the expected tally of any observable over the neutrons handed to the
scattering of the kernel (which itself multiplies the probability by the scattering coefficient)
is the physical one, whatever the weights. -/
theorem C34_scattering (tol par : ℝ) (h : Scat K) (hT : 0 ≤ h.wT) (hA : 0 ≤ h.wA) (hS : 0 < h.wS)
    (ev ev1 : Ev) (d : ℝ) (he : enter tol par h ev = .ok (ev1, d)) (G : Obs) :
    mean2 (fun u1 u2 => score (interactPath1 tol par (probe h) u1 u2 ([], []) ev)
        fun o => tally G o.1.2) =
      ∫ x in (0 : ℝ)..d, ev1.p * Real.exp (-(h.mu ev1 + h.sigma ev1) * x) * along G ev1 x := by
  have hsum : 0 < h.sum := by unfold Scat.sum; linarith
  rw [mean2, mean_scattering hT hA hS.le hsum _ (h.sum / h.wS * ∫ x in (0 : ℝ)..d,
    ev1.p * Real.exp (-(h.mu ev1 + h.sigma ev1) * x) * along G ev1 x)]
  · field_simp
  · intro u1 hu1
    simp only [interactPath1_probe_scattering he, if_pos hu1]
    rw [← mean_distance, mean, mean, ← intervalIntegral.integral_const_mul]
    congr 1
    funext u
    simp only [Scat.pick, propagate, random, along, length_eq, at', sub_zero, add_zero]
    ring
  · intro u1 hu1
    simp only [interactPath1_probe_scattering he, if_neg hu1]
    simp [mean]

/-- **C34** Transmission: the expected tally over the neutrons that leave without interaction is
the exponential of the distance, at the exit, whatever the weights and the kernel. -/
theorem C34_transmission (tol par : ℝ) (h : Scat K) (hT : 0 < h.wT) (hA : 0 ≤ h.wA) (hS : 0 ≤ h.wS)
    (k : K) (ev ev1 : Ev) (d : ℝ) (he : enter tol par h ev = .ok (ev1, d)) (hv : ev1.v ≠ 0) (G : Obs) :
    mean2 (fun u1 u2 => score (interactPath1 tol par h u1 u2 k ev)
        fun o => if o.2.2 = .none then tally G [o.2.1] else 0) =
      ev1.p * Real.exp (-(h.mu ev1 + h.sigma ev1) * d) * along G ev1 d := by
  have hsum : 0 < h.sum := by unfold Scat.sum; linarith
  have hin : ∀ u1 u2, score (interactPath1 tol par h u1 u2 k ev)
      (fun o => if o.2.2 = .none then tally G [o.2.1] else 0) =
      if h.channel (random u1 0 h.sum) = .none then
        ev1.p * (Real.exp (-(h.mu ev1 + h.sigma ev1) * d) * (h.sum / h.wT)) * along G ev1 d else 0 :=
    fun u1 u2 => interactPath1_none he hv u1 u2 k G
  simp only [hin]
  rw [mean2, mean_none hT.le hA hS hsum _
    (ev1.p * (Real.exp (-(h.mu ev1 + h.sigma ev1) * d) * (h.sum / h.wT)) * along G ev1 d)]
  · field_simp
  · intro u1 hu1; simp [mean, hu1]
  · intro u1 hu1; simp [mean, hu1]

/-- **C34** With its own kernel, the scatterer does to the neutron noted down by the probe what
the kernel does, then accounts for the packing factor and the attenuation on the way out; an
absorbed neutron is given to the kernel and gets a negative probability. -/
theorem C34_kernel (tol par : ℝ) (h : Scat K) (u1 u2 : ℝ) (k : K) (ev : Ev)
    (rec : (List Ev × List Ev) × Ev × IType)
    (hp : interactPath1 tol par (probe h) u1 u2 ([], []) ev = .ok rec) :
    (∀ e ∈ rec.1.1, interactPath1 tol par h u1 u2 k ev =
      (h.kabsorb k e).map fun k' => (k', { e with p := -1 }, .absorption)) ∧
    (∀ e ∈ rec.1.2, ∀ k' e', h.kscatter k e = .ok (k', e') → 0 < e'.p * h.packing →
      ∀ out, toExit tol par h.shape e' = .ok out →
        ∀ a, attenuation tol par h.shape (h.mu { e' with p := e'.p * h.packing })
          (h.sigma { e' with p := e'.p * h.packing }) e' out.r = .ok a →
        interactPath1 tol par h u1 u2 k ev =
          .ok (k', { out with p := e'.p * h.packing * a }, .scattering)) ∧
    rec.1.1.length + rec.1.2.length ≤ 1 :=
  interactPath1_kernel hp k

/-- **C34** Multiple scattering mode: the transmitted neutron has the physical weight at the exit,
the absorbed one has the physical total weight, and the expected tally over the neutrons
handed to the scattering of the kernel is the physical one. -/
theorem C34_multiple (tol par : ℝ) (h : Scat K) (ev ev1 : Ev) (d : ℝ)
    (he : enter tol par h ev = .ok (ev1, d)) (hv : ev1.v ≠ 0)
    (hms : h.mu ev1 + h.sigma ev1 ≠ 0) (G : Obs) :
    (∀ u, ∃ sc, ∃ a b c : Ev, interactM1 tol par (probe h) u ([], []) ev = .ok (([a], [b]), [c, sc]) ∧
      sc.p = 0 ∧ tally G [c] = ev1.p * Real.exp (-(h.mu ev1 + h.sigma ev1) * d) * along G ev1 d ∧
      a.p = ∫ x in (0 : ℝ)..d, ev1.p * h.mu ev1 * Real.exp (-(h.mu ev1 + h.sigma ev1) * x)) ∧
    mean (fun u => score (interactM1 tol par (probe h) u ([], []) ev) fun o => tally G o.1.2) =
      ∫ x in (0 : ℝ)..d, ev1.p * Real.exp (-(h.mu ev1 + h.sigma ev1) * x) * along G ev1 x := by
  have hrun := fun u => interactM1_probe he hv u
  refine ⟨fun u => ⟨_, _, _, _, hrun u, by simp, ?_, ?_⟩, ?_⟩
  · simp [tally, propagate, along, at', length_eq]
  · have h1 := integral_decay (h.mu ev1 + h.sigma ev1) d
    rw [intervalIntegral.integral_const_mul]
    have h2 : ∫ x in (0 : ℝ)..d, Real.exp (-(h.mu ev1 + h.sigma ev1) * x) =
        (1 - Real.exp (-(h.mu ev1 + h.sigma ev1) * d)) / (h.mu ev1 + h.sigma ev1) := by
      rw [← h1]; field_simp
    rw [h2]
    field_simp
  · simp only [hrun, score]
    rw [← mean_distance, mean, mean]
    congr 1
    funext u
    simp only [tally, propagate, random, along, length_eq, at', sub_zero, add_zero, List.map_cons,
      List.map_nil, List.sum_cons, List.sum_nil]
    ring

/-- **C34** The physical weights of the three channels add up to the weight of the neutron. -/
theorem C34_conservation (p mu sigma d : ℝ) :
    p * Real.exp (-(mu + sigma) * d) + (∫ x in (0 : ℝ)..d, p * mu * Real.exp (-(mu + sigma) * x)) +
      (sigma * ∫ x in (0 : ℝ)..d, p * Real.exp (-(mu + sigma) * x)) = p := by
  have h1 := integral_decay (mu + sigma) d
  rw [intervalIntegral.integral_const_mul, intervalIntegral.integral_const_mul]
  linear_combination p * h1

/-- a ball with coefficients 1 and 1/2, unequal weights and a kernel that turns the neutron back -/
noncomputable def ball : Scat Unit where
  shape := .sphere 1
  wT := 1
  wA := 2
  wS := 5
  packing := 1 / 2
  mu0 := fun _ => 2
  sigma0 := fun _ => 1
  kscatter := fun k e => .ok (k, { e with v := (-1 : ℝ) • e.v })
  kabsorb := fun k _ => .ok k
  maxLoops := 10
  minP := 0

/-- a neutron in the centre of the ball -/
noncomputable def inner : Ev := ⟨⟨0, 0, 0⟩, ⟨0, 0, 2⟩, 0, 0, 0, 1⟩

theorem inner_v : inner.v ≠ 0 := by
  intro h; have := congrArg V3.z h; norm_num [inner] at this

theorem inner_locate : locate (1 / 1000) (.sphere 1) inner.r = .ok .inside := by
  norm_num [locate, locSphere, inner]

theorem inner_tof : tofBeforeExit (1 / 1000) (1 / 1000) (.sphere 1) inner = .ok (1 / 2) := by
  have h4 : √(4 : ℝ) = 2 := by
    rw [show (4 : ℝ) = 2 ^ 2 by norm_num]; exact Real.sqrt_sq (by norm_num)
  have hi : intersect (1 / 1000) (1 / 1000) (.sphere 1) inner.r inner.v = .ok [-(1 / 2), 1 / 2] := by
    rw [intersect, intersectSphere, if_neg (by rw [invalid_iff]; exact inner_v)]
    norm_num [inner, V3.dot, V3.cross, h4]
  have hf : forwardIntersect (1 / 1000) (1 / 1000) (.sphere 1) inner.r inner.v = .ok [1 / 2] := by
    unfold forwardIntersect
    rw [hi]
    norm_num [bind, Except.bind, List.filter]
  unfold tofBeforeExit
  rw [inner_locate, hf]
  simp [bind, Except.bind]

theorem enter_of_inside {K : Type} {tol par : ℝ} {h : Scat K} {ev : Ev} {τ : ℝ}
    (hl : locate tol h.shape ev.r = .ok .inside) (ht : tofBeforeExit tol par h.shape ev = .ok τ) :
    enter tol par h ev = .ok (ev, τ * length ev.v) := by
  unfold enter
  rw [hl]
  simp [bind, Except.bind, ht]

theorem ball_enter : enter (1 / 1000) (1 / 1000) ball inner = .ok (inner, 1) := by
  rw [enter_of_inside inner_locate inner_tof]
  have h4 : √(4 : ℝ) = 2 := by
    rw [show (4 : ℝ) = 2 ^ 2 by norm_num]; exact Real.sqrt_sq (by norm_num)
  norm_num [length, V3.length2, inner, V3.dot, h4]

/-- the hypotheses hold for the neutron in the ball: it flies the distance 1 to the surface,
and each of the three channels is chosen by some random number -/
example : enter (1 / 1000) (1 / 1000) ball inner = .ok (inner, 1) ∧ inner.v ≠ 0 ∧ 0 < ball.wT ∧
    0 < ball.wA ∧ 0 < ball.wS ∧ ball.mu inner + ball.sigma inner = 3 / 2 ∧
    ball.channel (random (1 / 16) 0 ball.sum) = .none ∧
    ball.channel (random (1 / 4) 0 ball.sum) = .absorption ∧
    ball.channel (random (1 / 2) 0 ball.sum) = .scattering := by
  refine ⟨ball_enter, inner_v, ?_⟩
  norm_num [ball, Scat.mu, Scat.sigma, Scat.channel, Scat.sum, random]

/-- and its expected absorbed weight is 2/3 (1 - exp(-3/2)) -/
example : mean2 (fun u1 u2 => score (interactPath1 (1 / 1000) (1 / 1000) (probe ball) u1 u2 ([], []) inner)
    fun o => tally (fun _ _ _ => 1) o.1.1) = 2 / 3 * (1 - Real.exp (-(3 / 2))) := by
  rw [C34_absorption _ _ ball (by norm_num [ball]) (by norm_num [ball]) (by norm_num [ball]) _ _ _
    ball_enter]
  have h := integral_decay (3 / 2) 1
  have e1 : inner.p * ball.mu inner = 1 := by norm_num [inner, ball, Scat.mu]
  have e2 : ball.mu inner + ball.sigma inner = 3 / 2 := by norm_num [inner, ball, Scat.mu, Scat.sigma]
  simp only [e1, e2, along, one_mul, mul_one] at h ⊢
  linarith

/-! ### C79 multiple scattering mode absorbs at the place of the absorption -/

/-- **C79** is false: in the multiple scattering mode the absorbed part is handed to the kernel at
the place and time of entry.  The time at which the neutron in the ball is absorbed is 0 for
certain, whereas the physical mean is positive. -/
theorem C79_place_false : ¬ ∀ (K : Type) (tol par : ℝ) (h : Scat K) (ev ev1 : Ev) (d : ℝ) (G : Obs),
    enter tol par h ev = .ok (ev1, d) → ev1.v ≠ 0 → 0 < h.mu ev1 → 0 ≤ h.sigma ev1 →
    mean (fun u => score (interactM1 tol par (probe h) u ([], []) ev) fun o => tally G o.1.1) =
      ∫ x in (0 : ℝ)..d, ev1.p * h.mu ev1 * Real.exp (-(h.mu ev1 + h.sigma ev1) * x) * along G ev1 x := by
  intro H
  have h1 := H Unit _ _ ball inner inner 1 (fun _ _ t => t) ball_enter inner_v
    (by norm_num [ball, Scat.mu]) (by norm_num [ball, Scat.sigma])
  simp only [interactM1_probe ball_enter inner_v, score] at h1
  have e0 : inner.t = 0 := rfl
  have e1 : inner.p * ball.mu inner = 1 := by norm_num [inner, ball, Scat.mu]
  have e2 : ball.mu inner + ball.sigma inner = 3 / 2 := by norm_num [inner, ball, Scat.mu, Scat.sigma]
  have e3 : √(inner.v.dot inner.v) = 2 := by
    rw [show inner.v.dot inner.v = 2 ^ 2 by norm_num [inner, V3.dot]]
    exact Real.sqrt_sq (by norm_num)
  simp only [e1, e2, e3, along, e0, tally, List.map_cons, List.map_nil, mul_zero, List.sum_cons,
    List.sum_nil, add_zero, one_mul, zero_add] at h1
  have hpos : 0 < ∫ x in (0 : ℝ)..1, Real.exp (-(3 / 2) * x) * (x / 2) := by
    apply intervalIntegral.intervalIntegral_pos_of_pos_on
    · apply Continuous.intervalIntegrable; fun_prop
    · intro x hx
      have := Real.exp_pos (-(3 / 2) * x)
      have := hx.1
      positivity
    · norm_num
  rw [← h1] at hpos
  simp [mean] at hpos

/-- **C79** what remains: everything that depends only on the velocity is right, in particular
the total weight. -/
theorem C79_weight_partial (tol par : ℝ) (h : Scat K) (ev ev1 : Ev) (d : ℝ)
    (he : enter tol par h ev = .ok (ev1, d)) (hv : ev1.v ≠ 0)
    (hms : h.mu ev1 + h.sigma ev1 ≠ 0) (g : V3 ℝ → ℝ) :
    mean (fun u => score (interactM1 tol par (probe h) u ([], []) ev)
        fun o => tally (fun _ v _ => g v) o.1.1) =
      ∫ x in (0 : ℝ)..d, ev1.p * h.mu ev1 * Real.exp (-(h.mu ev1 + h.sigma ev1) * x) * g ev1.v := by
  simp only [interactM1_probe he hv, score]
  rw [intervalIntegral.integral_mul_const, intervalIntegral.integral_const_mul]
  have h1 := integral_decay (h.mu ev1 + h.sigma ev1) d
  have h2 : ∫ x in (0 : ℝ)..d, Real.exp (-(h.mu ev1 + h.sigma ev1) * x) =
      (1 - Real.exp (-(h.mu ev1 + h.sigma ev1) * d)) / (h.mu ev1 + h.sigma ev1) := by
    rw [← h1]; field_simp
  rw [h2]
  simp only [mean, tally, List.map_cons, List.map_nil, List.sum_cons, List.sum_nil, add_zero,
    intervalIntegral.integral_const, sub_zero, one_smul]
  field_simp

/-- the hypotheses hold for the ball -/
example : enter (1 / 1000) (1 / 1000) ball inner = .ok (inner, 1) ∧ inner.v ≠ 0 ∧
    ball.mu inner + ball.sigma inner ≠ 0 :=
  ⟨ball_enter, inner_v, by norm_num [ball, Scat.mu, Scat.sigma]⟩

/-! ### C80 a channel with weight zero is never chosen -/

/-- the weight of a channel -/
def weightOf (h : Scat K) : IType → ℝ
  | .none => h.wT
  | .absorption => h.wA
  | .scattering => h.wS

/-- **C80** is false: the random number may be 1 (`rand()` may return `RAND_MAX`), and then the
last channel is chosen even if its weight is zero; its neutron gets the probability
`(sum of weights) / 0`. -/
theorem C80_zero_weight_false : ¬ ∀ (K : Type) (h : Scat K) (u : ℝ), 0 ≤ h.wT → 0 ≤ h.wA → 0 ≤ h.wS →
    0 < h.sum → 0 ≤ u → u ≤ 1 → 0 < weightOf h (h.channel (random u 0 h.sum)) := by
  intro H
  have := H Unit { ball with wS := 0 } 1 (by norm_num [ball]) (by norm_num [ball]) (by norm_num)
    (by norm_num [ball, Scat.sum]) (by norm_num) le_rfl
  norm_num [ball, Scat.sum, Scat.channel, random, weightOf] at this

/-- **C80** for a random number below 1 the chosen channel has a positive weight. -/
theorem C80_zero_weight_partial (h : Scat K) (u : ℝ) (hA : 0 ≤ h.wA)
    (hsum : 0 < h.sum) (h0 : 0 ≤ u) (h1 : u < 1) :
    0 < weightOf h (h.channel (random u 0 h.sum)) := by
  have e : random u 0 h.sum = u * h.sum := by unfold random; ring
  have h2 : u * h.sum < h.sum := by nlinarith
  have h3 : 0 ≤ u * h.sum := by positivity
  rw [e]
  cases hc : h.channel (u * h.sum) with
  | none => have := channel_none.1 hc; simp only [weightOf]; linarith
  | absorption => have := channel_absorption.1 hc; simp only [weightOf]; linarith
  | scattering =>
    have := (channel_scattering hA).1 hc
    simp only [weightOf]
    unfold Scat.sum at h2 this
    linarith

example : 0 < ball.sum ∧ ball.channel (random (1 / 2) 0 ball.sum) = .scattering := by
  norm_num [ball, Scat.channel, Scat.sum, random]

end Verif.Homog
