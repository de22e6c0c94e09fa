import Verif.Spec.McBender
import Verif.Lemmas.McMonitors
import Verif.Lemmas.McGuide
/-!
Lemmas for `Verif.Props.McBender`.
-/

namespace Verif.McBend
open McStas Kinem McGuide McOpt McMon Detector
open Classical

/-- a ray that passes the centre at the distance `b`, with the angle `φ` from the circle -/
noncomputable def ray (b v θ φ t : ℝ) : Ray := ⟨b / Real.cos φ, θ, v * Real.sin φ, v * Real.cos φ, t⟩

theorem ray_place {b v θ φ t : ℝ} (hφ : Real.cos φ ≠ 0) :
    (ray b v θ φ t).place = b * (1 + Real.tan φ * Complex.I) * Complex.exp ((θ - φ : ℝ) * Complex.I) := by
  have h : Complex.exp ((θ : ℂ) * Complex.I) = Complex.exp (((θ - φ : ℝ) : ℂ) * Complex.I) * (Real.cos φ + Real.sin φ * Complex.I) := by
    rw [Complex.ofReal_cos, Complex.ofReal_sin, ← Complex.exp_mul_I, ← Complex.exp_add]
    congr 1
    push_cast; ring
  have hc : (Real.cos φ : ℂ) ≠ 0 := by exact_mod_cast hφ
  unfold Ray.place ray
  simp only
  rw [h, Real.tan_eq_sin_div_cos]
  push_cast at hc ⊢
  field_simp

theorem ray_velocity (b v θ φ t : ℝ) :
    (ray b v θ φ t).velocity = v * Complex.I * Complex.exp ((θ - φ : ℝ) * Complex.I) := by
  have h : Complex.exp (((θ - φ : ℝ) : ℂ) * Complex.I) = Complex.exp ((θ : ℂ) * Complex.I) * (Real.cos φ - Real.sin φ * Complex.I) := by
    have : (Real.cos φ - Real.sin φ * Complex.I : ℂ) = Complex.exp ((-φ : ℂ) * Complex.I) := by
      rw [Complex.exp_mul_I]; simp [sub_eq_add_neg]
    rw [this, ← Complex.exp_add]
    congr 1
    push_cast; ring
  unfold Ray.velocity ray
  simp only
  rw [h]
  push_cast
  linear_combination (v * Complex.sin φ) * Complex.exp (θ * Complex.I) * Complex.I_sq

/-- the distance from the centre during a flight -/
theorem ray_norm {b v θ φ t s : ℝ} (hb : 0 < b) (hφ : Real.cos φ ≠ 0) :
    ‖(ray b v θ φ t).place + s * (ray b v θ φ t).velocity‖ = b * √(1 + (Real.tan φ + s * v / b) ^ 2) := by
  have hb' : (b : ℂ) ≠ 0 := by exact_mod_cast hb.ne'
  rw [ray_place hφ, ray_velocity]
  have : (b : ℂ) * (1 + Real.tan φ * Complex.I) * Complex.exp ((θ - φ : ℝ) * Complex.I) + s * (v * Complex.I * Complex.exp ((θ - φ : ℝ) * Complex.I)) =
      b * ((1 : ℝ) + (Real.tan φ + s * v / b : ℝ) * Complex.I) * Complex.exp ((θ - φ : ℝ) * Complex.I) := by
    push_cast
    field_simp
    ring
  rw [this, norm_mul, norm_mul, Complex.norm_exp_ofReal_mul_I, mul_one, Complex.norm_add_mul_I, Complex.norm_real, Real.norm_of_nonneg hb.le]
  norm_num

/-- the ring as it is seen by a ray at the distance `b` -/
structure Sees (g : Ring) (b A I : ℝ) : Prop where
  hb : 0 < b
  hI : 0 ≤ I
  hIA : I < A
  hA : A < Real.pi / 2
  out : g.outer = b / Real.cos A
  inn : g.inner ≤ b ∧ I = 0 ∨ g.inner = b / Real.cos I ∧ 0 < I

theorem cos_sqrt {b A : ℝ} (h1 : -(Real.pi / 2) < A) (h2 : A < Real.pi / 2) : b / Real.cos A = b * √(1 + Real.tan A ^ 2) := by
  have hc := Real.cos_pos_of_mem_Ioo ⟨h1, h2⟩
  have : 1 + Real.tan A ^ 2 = (1 / Real.cos A) ^ 2 := by
    rw [Real.tan_eq_sin_div_cos]
    field_simp
    rw [add_comm]; exact Real.sin_sq_add_cos_sq A
  rw [this, Real.sqrt_sq (by positivity)]
  ring

theorem tan_le {x y : ℝ} (h1 : -(Real.pi / 2) < x) (h : x ≤ y) (h2 : y < Real.pi / 2) : Real.tan x ≤ Real.tan y := by
  rcases h.lt_or_eq with h | rfl
  · exact (Real.tan_lt_tan_of_lt_of_lt_pi_div_two h1 h2 h).le
  · exact le_rfl

/-- a flight between two angles that does not pass the inner circle -/
theorem flight {g : Ring} {b A I v θ φ ψ t : ℝ} (hs : Sees g b A I) (hv : 0 < v) (h1 : -A ≤ φ) (h : φ ≤ ψ) (h2 : ψ ≤ A)
    (hi : g.inner ≤ b ∨ I ≤ φ ∨ ψ ≤ -I) :
    g.Flies (ray b v θ φ t) (ray b v (θ + (ψ - φ)) ψ (t + (Real.tan ψ - Real.tan φ) * b / v)) := by
  have hb := hs.hb
  have hA := hs.hA
  have hI := hs.hI
  have hIA := hs.hIA
  have q1 : -(Real.pi / 2) < φ := by linarith
  have q2 : ψ < Real.pi / 2 := by linarith
  have cφ := Real.cos_pos_of_mem_Ioo ⟨q1, h.trans_lt q2⟩
  have cψ := Real.cos_pos_of_mem_Ioo ⟨q1.trans_le h, q2⟩
  have ht := tan_le q1 h q2
  have e0 : θ + (ψ - φ) - ψ = θ - φ := by ring
  have et : t + (Real.tan ψ - Real.tan φ) * b / v - t = (Real.tan ψ - Real.tan φ) * b / v := by ring
  refine ⟨?_, ?_, ?_, ?_, ?_, ?_, ?_⟩
  · show t ≤ t + (Real.tan ψ - Real.tan φ) * b / v
    have : 0 ≤ (Real.tan ψ - Real.tan φ) * b / v := by
      apply div_nonneg (mul_nonneg _ hb.le) hv.le
      linarith
    linarith
  · rw [ray_place cψ.ne', ray_place cφ.ne', ray_velocity, e0]
    have hv' : (v : ℂ) ≠ 0 := by exact_mod_cast hv.ne'
    simp only [ray]
    push_cast
    field_simp
    ring
  · rw [ray_velocity, ray_velocity, e0]
  · show θ ≤ θ + (ψ - φ)
    linarith
  · show θ + (ψ - φ) < θ + Real.pi
    linarith
  · show 0 < b / Real.cos ψ
    positivity
  · intro s hs0 hs1
    rw [ray_norm hb cφ.ne']
    have hs1 : s ≤ (Real.tan ψ - Real.tan φ) * b / v := by
      rw [← et]; exact hs1
    have k1 : 0 ≤ s * v / b := by positivity
    have k2 : s * v / b ≤ Real.tan ψ - Real.tan φ := by
      rw [div_le_iff₀ hb]
      rwa [le_div_iff₀ hv] at hs1
    have tA : Real.tan ψ ≤ Real.tan A := tan_le (q1.trans_le h) h2 hA
    have tA' : -Real.tan A ≤ Real.tan φ := by
      rw [← Real.tan_neg]
      exact tan_le (by linarith) h1 (h.trans_lt q2)
    constructor
    · have hone : b ≤ b * √(1 + (Real.tan φ + s * v / b) ^ 2) := by
        have : 1 ≤ √(1 + (Real.tan φ + s * v / b) ^ 2) := by
          rw [Real.one_le_sqrt]; nlinarith [sq_nonneg (Real.tan φ + s * v / b)]
        nlinarith
      rcases hs.inn with ⟨hin, -⟩ | ⟨hin, hI0⟩
      · exact hin.trans hone
      · rcases hi with hi | hi | hi
        · exact hi.trans hone
        · rw [hin, cos_sqrt (by linarith) (by linarith)]
          apply mul_le_mul_of_nonneg_left _ hb.le
          apply Real.sqrt_le_sqrt
          have := tan_le (by linarith) hi (h.trans_lt q2)
          have := Real.tan_nonneg_of_nonneg_of_le_pi_div_two hI (by linarith)
          nlinarith
        · rw [hin, cos_sqrt (by linarith) (by linarith)]
          apply mul_le_mul_of_nonneg_left _ hb.le
          apply Real.sqrt_le_sqrt
          have h3 := tan_le (q1.trans_le h) hi (by linarith)
          rw [Real.tan_neg] at h3
          have := Real.tan_nonneg_of_nonneg_of_le_pi_div_two hI (by linarith)
          nlinarith
    · rw [hs.out, cos_sqrt (by linarith) hA]
      apply mul_le_mul_of_nonneg_left _ hb.le
      apply Real.sqrt_le_sqrt
      have : |Real.tan φ + s * v / b| ≤ Real.tan A := by
        rw [abs_le]; constructor <;> linarith
      have := sq_le_sq' (by linarith [(abs_le.1 this).1]) (abs_le.1 this).2
      linarith

/-- the reflection of a ray -/
theorem ray_reflected (b v θ φ t : ℝ) : { ray b v θ φ t with u := -(ray b v θ φ t).u } = ray b v θ (-φ) t := by
  unfold ray
  simp

theorem hits_outer {g : Ring} {b A I v θ t : ℝ} (hs : Sees g b A I) (hv : 0 < v) : g.Hits (ray b v θ A t) .outer := by
  refine ⟨hs.out.symm, ?_⟩
  have := Real.sin_pos_of_pos_of_lt_pi (show 0 < A by linarith [hs.hI, hs.hIA]) (by linarith [hs.hA, Real.pi_pos])
  exact mul_pos hv this

theorem hits_inner {g : Ring} {b A I v θ t : ℝ} (hs : Sees g b A I) (hv : 0 < v) (hI : 0 < I) : g.Hits (ray b v θ (-I) t) .inner := by
  have := Real.sin_pos_of_pos_of_lt_pi hI (by linarith [hs.hA, hs.hIA, Real.pi_pos])
  refine ⟨?_, ?_⟩
  · rcases hs.inn with ⟨-, h⟩ | ⟨h, -⟩
    · exact absurd h hI.ne'
    · rw [h]; simp [ray]
  · show v * Real.sin (-I) < 0
    rw [Real.sin_neg]; nlinarith

/-- a reflection at the outer circle in a path -/
theorem path_outer {g : Ring} {b A I v θ φ t : ℝ} (hs : Sees g b A I) (hv : 0 < v) (h1 : -A ≤ φ) (h : φ ≤ A) (hi : g.inner ≤ b ∨ I ≤ φ)
    {L : List (Side × ℝ)} {c : Ray} (hp : g.Path (ray b v (θ + (A - φ)) (-A) (t + (Real.tan A - Real.tan φ) * b / v)) L c) :
    g.Path (ray b v θ φ t) ((.outer, v * Real.sin A) :: L) c := by
  have hf := flight (θ := θ) (t := t) hs hv h1 h le_rfl (hi.imp_right .inl)
  have hh := hits_outer (θ := θ + (A - φ)) (t := t + (Real.tan A - Real.tan φ) * b / v) hs hv
  have e := Ring.Path.reflects hf hh (L := L) (c := c) (by rw [ray_reflected]; exact hp)
  rwa [abs_of_pos hh.2] at e

/-- a reflection at the inner circle in a path -/
theorem path_inner {g : Ring} {b A I v θ φ t : ℝ} (hs : Sees g b A I) (hv : 0 < v) (hI : 0 < I) (h1 : -A ≤ φ) (h : φ ≤ -I)
    {L : List (Side × ℝ)} {c : Ray} (hp : g.Path (ray b v (θ + (-I - φ)) I (t + (Real.tan (-I) - Real.tan φ) * b / v)) L c) :
    g.Path (ray b v θ φ t) ((.inner, v * Real.sin I) :: L) c := by
  have hf := flight (θ := θ) (t := t) hs hv h1 h (by linarith [hs.hIA, hs.hI]) (.inr (.inr le_rfl))
  have hh := hits_inner (θ := θ + (-I - φ)) (t := t + (Real.tan (-I) - Real.tan φ) * b / v) hs hv hI
  have e := Ring.Path.reflects hf hh (L := L) (c := c) (by rw [ray_reflected, neg_neg]; exact hp)
  have hab : |(ray b v (θ + (-I - φ)) (-I) (t + (Real.tan (-I) - Real.tan φ) * b / v)).u| = v * Real.sin I := by
    rw [abs_of_neg hh.2]
    show -(v * Real.sin (-I)) = _
    rw [Real.sin_neg]; ring
  rwa [hab] at e

/-- many reflections, if the ray does not come to the inner circle -/
theorem path_free {g : Ring} {b A v : ℝ} (hs : Sees g b A 0) (hv : 0 < v) (hg : g.inner ≤ b) (n : ℕ) :
    ∀ θ φ t S : ℝ, -A ≤ φ → φ ≤ A → φ + A ≤ S → n * (2 * A) ≤ S → S < (n + 1) * (2 * A) →
      g.Path (ray b v θ φ t) (List.replicate n (.outer, v * Real.sin A))
        (ray b v (θ + (S - (φ + A))) (S - n * (2 * A) - A)
          (t + (2 * n * Real.tan A + Real.tan (S - n * (2 * A) - A) - Real.tan φ) * b / v)) := by
  have hA := hs.hIA
  induction n with
  | zero =>
    intro θ φ t S h1 h2 h3 h4 h5
    simp only [Nat.cast_zero, zero_mul, mul_zero, zero_add, one_mul, sub_zero] at h4 h5 ⊢
    have := flight (θ := θ) (t := t) (φ := φ) (ψ := S - A) hs hv h1 (by linarith) (by linarith) (.inl hg)
    rw [show S - A - φ = S - (φ + A) by ring] at this
    exact .flies this
  | succ n ih =>
    intro θ φ t S h1 h2 h3 h4 h5
    push_cast at h4 h5 ⊢
    have := ih (θ + (A - φ)) (-A) (t + (Real.tan A - Real.tan φ) * b / v) (S - 2 * A) le_rfl (by linarith) (by nlinarith) (by linarith)
      (by linarith)
    rw [List.replicate_succ]
    refine path_outer hs hv h1 h2 (.inl hg) ?_
    rw [show θ + (S - (φ + A)) = θ + (A - φ) + (S - 2 * A - (-A + A)) by ring,
      show S - (n + 1) * (2 * A) - A = S - 2 * A - n * (2 * A) - A by ring]
    convert this using 2
    rw [Real.tan_neg]
    ring

theorem sgn_pos {x : ℝ} (h : 0 ≤ x) : sgn x = 1 := if_pos h
theorem sgn_neg {x : ℝ} (h : x < 0) : sgn x = -1 := if_neg (not_le.2 h)

/-- many reflections at both circles, from the outer one -/
theorem path_both {g : Ring} {b A I v : ℝ} (hs : Sees g b A I) (hv : 0 < v) (hI : 0 < I) (n : ℕ) :
    ∀ θ t S out aus : ℝ, n * (2 * (A - I)) ≤ S → S < (n + 1) * (2 * (A - I)) → out = S - n * (2 * (A - I)) - (A - I) → aus = out + I * sgn out →
      ∃ L : List (Side × ℝ), L.Perm (List.replicate n (.outer, v * Real.sin A) ++
          List.replicate (n + if 0 ≤ out then 1 else 0) (.inner, v * Real.sin I)) ∧
        g.Path (ray b v θ (-A) t) L (ray b v (θ + S) aus
          (t + (2 * n * (Real.tan A - Real.tan I) + Real.tan aus + Real.tan A - Real.tan I * (sgn out + 1)) * b / v)) := by
  have hA := hs.hIA
  induction n with
  | zero =>
    intro θ t S out aus h4 h5 ho ha
    simp only [Nat.cast_zero, zero_mul, zero_add, one_mul, sub_zero] at h4 h5 ho ⊢
    by_cases q : 0 ≤ out
    · rw [sgn_pos q, mul_one] at ha
      refine ⟨_, ?_, path_inner (L := []) hs hv hI le_rfl (by linarith) (.flies ?_)⟩
      · simp [q]
      · have := flight (θ := θ + (-I - -A)) (t := t + (Real.tan (-I) - Real.tan (-A)) * b / v) (φ := I) (ψ := aus) hs hv (by linarith)
          (by linarith) (by linarith) (.inr (.inl le_rfl))
        rw [show θ + S = θ + (-I - -A) + (aus - I) by rw [ha, ho]; ring]
        convert this using 2
        rw [Real.tan_neg, Real.tan_neg, sgn_pos q]
        ring
    · rw [sgn_neg (not_le.1 q)] at ha
      refine ⟨[], by simp [q], .flies ?_⟩
      have := flight (θ := θ) (t := t) (φ := -A) (ψ := aus) hs hv le_rfl (by linarith) (by linarith) (.inr (.inr (by linarith)))
      rw [show θ + S = θ + (aus - -A) by rw [ha, ho]; ring]
      convert this using 2
      rw [Real.tan_neg, sgn_neg (not_le.1 q)]
      ring
  | succ n ih =>
    intro θ t S out aus h4 h5 ho ha
    push_cast at h4 h5 ho ⊢
    obtain ⟨L, hL, hp⟩ := ih (θ + (-I - -A) + (A - I)) (t + (Real.tan (-I) - Real.tan (-A)) * b / v + (Real.tan A - Real.tan I) * b / v)
      (S - 2 * (A - I)) out aus (by linarith) (by linarith) (by rw [ho]; ring) ha
    refine ⟨(.inner, v * Real.sin I) :: (.outer, v * Real.sin A) :: L, ?_,
      path_inner hs hv hI le_rfl (by linarith) (path_outer hs hv (by linarith) hA.le (.inr le_rfl) ?_)⟩
    · rw [show n + 1 + (if 0 ≤ out then 1 else 0) = n + (if 0 ≤ out then 1 else 0) + 1 by ring, List.replicate_succ, List.replicate_succ]
      refine ((hL.cons _).cons _).trans ?_
      refine (List.Perm.swap _ _ _).trans ?_
      exact List.perm_middle.symm.cons _
    · rw [show θ + S = θ + (-I - -A) + (A - I) + (S - 2 * (A - I)) by ring]
      convert hp using 2
      rw [Real.tan_neg, Real.tan_neg]
      ring

/-- the same, from any angle at the entrance; the numbers are those of the code -/
theorem path_enter {g : Ring} {b A I v : ℝ} (hs : Sees g b A I) (hv : 0 < v) (hI : 0 < I) (n : ℕ) (θ φ t Θ S out aus : ℝ)
    (h1 : |φ| ≤ A) (h2 : I ≤ |φ|) (hΘ : 0 ≤ Θ) (hS : S = Θ + φ + A - I * (1 + sgn φ)) (h4 : n * (2 * (A - I)) ≤ S) (h5 : S < (n + 1) * (2 * (A - I)))
    (ho : out = S - n * (2 * (A - I)) - (A - I)) (ha : aus = out + I * sgn out) :
    ∃ (L : List (Side × ℝ)) (m : ℕ), (m : ℤ) = (if aus * φ < 0 then (if aus - φ > 0 then (n : ℤ) + 1 else n - 1) else n) ∧
      L.Perm (List.replicate n (.outer, v * Real.sin A) ++ List.replicate m (.inner, v * Real.sin I)) ∧
      g.Path (ray b v θ φ t) L (ray b v (θ + Θ) aus
          (t + (2 * n * (Real.tan A - Real.tan I) + Real.tan aus - Real.tan φ - Real.tan I * (sgn aus - sgn φ)) * b / v)) := by
  have hA := hs.hIA
  have hsg : sgn aus = sgn out := by
    by_cases q : 0 ≤ out
    · rw [ha, sgn_pos q, sgn_pos (by linarith)]
    · rw [ha, sgn_neg (not_le.1 q), sgn_neg (by linarith [not_le.1 q])]
  rw [hsg]
  have hau : aus < 0 ↔ out < 0 := by
    by_cases q : 0 ≤ out
    · rw [ha, sgn_pos q]; constructor <;> intro <;> linarith
    · have q := not_le.1 q
      rw [ha, sgn_neg q]; constructor <;> intro <;> linarith
  have hau0 : aus ≠ 0 := by
    by_cases q : 0 ≤ out
    · rw [ha, sgn_pos q]; intro; linarith
    · have q := not_le.1 q
      rw [ha, sgn_neg q]; intro; linarith
  rcases lt_or_ge φ 0 with hφ | hφ
  · rw [abs_of_neg hφ] at h1 h2
    rw [sgn_neg hφ] at hS ⊢
    have hm : (if aus * φ < 0 then (if aus - φ > 0 then (n : ℤ) + 1 else n - 1) else n) = ((n + if 0 ≤ out then 1 else 0 : ℕ) : ℤ) := by
      by_cases q : 0 ≤ out
      · have : 0 < aus := lt_of_le_of_ne (not_lt.1 fun h => absurd (hau.1 h) (not_lt.2 q)) hau0.symm
        rw [if_pos (by nlinarith), if_pos (by linarith), if_pos q]; push_cast; ring
      · have := hau.2 (not_le.1 q)
        rw [if_neg (by nlinarith), if_neg q]; simp
    rw [hm]
    suffices h : ∃ L : List (Side × ℝ), L.Perm (List.replicate n (.outer, v * Real.sin A) ++
          List.replicate (n + if 0 ≤ out then 1 else 0) (.inner, v * Real.sin I)) ∧
        g.Path (ray b v θ φ t) L (ray b v (θ + Θ) aus
          (t + (2 * n * (Real.tan A - Real.tan I) + Real.tan aus - Real.tan φ - Real.tan I * (sgn out - -1)) * b / v)) by
      obtain ⟨L, hL⟩ := h
      exact ⟨L, _, rfl, hL⟩
    clear hm
    cases n with
    | zero =>
      simp only [Nat.cast_zero, zero_mul, zero_add, one_mul, sub_zero, mul_zero] at h4 h5 ho ⊢
      by_cases q : 0 ≤ out
      · rw [sgn_pos q, mul_one] at ha
        rw [sgn_pos q]
        refine ⟨[(.inner, v * Real.sin I)], ?_, path_inner hs hv hI (by linarith) (by linarith) (.flies ?_)⟩
        · simp [q]
        · have := flight (θ := θ + (-I - φ)) (t := t + (Real.tan (-I) - Real.tan φ) * b / v) (φ := I) (ψ := aus) hs hv (by linarith)
            (by linarith) (by linarith) (.inr (.inl le_rfl))
          rw [show θ + Θ = θ + (-I - φ) + (aus - I) by rw [ha, ho, hS]; ring]
          convert this using 2
          rw [Real.tan_neg]
          ring
      · rw [sgn_neg (not_le.1 q)] at ha ⊢
        refine ⟨[], ?_, .flies ?_⟩
        · simp [q]
        have := flight (θ := θ) (t := t) (φ := φ) (ψ := aus) hs hv (by linarith) (by linarith) (by linarith) (.inr (.inr (by linarith)))
        rw [show θ + Θ = θ + (aus - φ) by rw [ha, ho, hS]; ring]
        convert this using 2
        ring
    | succ n =>
      push_cast at h4 h5 ho ⊢
      obtain ⟨L, hL, hp⟩ := path_both hs hv hI n (θ + (-I - φ) + (A - I))
        (t + (Real.tan (-I) - Real.tan φ) * b / v + (Real.tan A - Real.tan I) * b / v)
        (S - 2 * (A - I)) out aus (by linarith) (by linarith) (by rw [ho]; ring) ha
      refine ⟨(.inner, v * Real.sin I) :: (.outer, v * Real.sin A) :: L, ?_, path_inner hs hv hI (by linarith) (by linarith)
        (path_outer hs hv (by linarith) hA.le (.inr le_rfl) ?_)⟩
      · rw [show n + 1 + (if 0 ≤ out then 1 else 0) = n + (if 0 ≤ out then 1 else 0) + 1 by ring, List.replicate_succ, List.replicate_succ]
        refine ((hL.cons _).cons _).trans ?_
        refine (List.Perm.swap _ _ _).trans ?_
        exact List.perm_middle.symm.cons _
      · rw [show θ + Θ = θ + (-I - φ) + (A - I) + (S - 2 * (A - I)) by rw [hS]; ring]
        convert hp using 2
        rw [Real.tan_neg]
        ring
  · rw [abs_of_nonneg hφ] at h1 h2
    rw [sgn_pos hφ] at hS ⊢
    cases n with
    | zero =>
      simp only [Nat.cast_zero, zero_mul, zero_add, one_mul, sub_zero, mul_zero] at h4 h5 ho ⊢
      have q : 0 ≤ out := by rw [ho, hS]; linarith
      have : ¬ aus < 0 := fun h => absurd (hau.1 h) (not_lt.2 q)
      rw [sgn_pos q, mul_one] at ha
      rw [sgn_pos q]
      refine ⟨[], 0, ?_, by simp, .flies ?_⟩
      · rw [if_neg (by nlinarith)]; simp
      have := flight (θ := θ) (t := t) (φ := φ) (ψ := aus) hs hv (by linarith) (by linarith) (by linarith) (.inr (.inl (by linarith)))
      rw [show θ + Θ = θ + (aus - φ) by rw [ha, ho, hS]; ring]
      convert this using 2
      ring
    | succ n =>
      push_cast at h4 h5 ho ⊢
      obtain ⟨L, hL, hp⟩ := path_both hs hv hI n (θ + (A - φ)) (t + (Real.tan A - Real.tan φ) * b / v)
        (S - 2 * (A - I)) out aus (by linarith) (by linarith) (by rw [ho]; ring) ha
      refine ⟨(.outer, v * Real.sin A) :: L, n + if 0 ≤ out then 1 else 0, ?_, ?_, path_outer hs hv (by linarith) h1 (.inr h2) ?_⟩
      · by_cases q : 0 ≤ out
        · have : ¬ aus < 0 := fun h => absurd (hau.1 h) (not_lt.2 q)
          rw [if_pos q, if_neg (by nlinarith)]; push_cast; ring
        · have := hau.2 (not_le.1 q)
          rw [if_neg q, if_pos (by nlinarith), if_neg (by linarith)]; push_cast; ring
      · rw [List.replicate_succ]
        exact hL.cons _
      · rw [show θ + Θ = θ + (A - φ) + (S - 2 * (A - I)) by rw [hS]; ring]
        convert hp using 2
        ring

/-- the reflections between floor and ceiling -/
theorem bounces {h : ℝ} (hh : 0 < h) (n : ℕ) : ∀ y v T : ℝ, v ≠ 0 → |y| ≤ h / 2 → 0 ≤ T →
    n * (h / |v|) ≤ T + (h / 2 / |v| + y / v) → T + (h / 2 / |v| + y / v) < (n + 1) * (h / |v|) →
    Bounces h y v T n ((T + (h / 2 / |v| + y / v) - n * (h / |v|)) * (v * (-1) ^ n) - v * (-1) ^ n * h / |v| / 2) (v * (-1) ^ n) := by
  have hab : ∀ v : ℝ, v ≠ 0 → v / |v| = 1 ∧ |v| = v ∨ v / |v| = -1 ∧ |v| = -v := fun v hv => by
    rcases lt_or_gt_of_ne hv with q | q
    · right; rw [abs_of_neg q]; exact ⟨by field_simp, rfl⟩
    · left; rw [abs_of_pos q]; exact ⟨by field_simp, rfl⟩
  induction n with
  | zero =>
    intro y v T hv hy hT h1 h2
    simp only [Nat.cast_zero, zero_mul, zero_add, one_mul, pow_zero, mul_one, sub_zero] at h1 h2 ⊢
    have hv' := abs_pos.2 hv
    have e : (T + (h / 2 / |v| + y / v)) * v - v * h / |v| / 2 = y + T * v := by field_simp; ring
    rw [e]
    refine .flies hT ?_
    have hy' := abs_le.1 hy
    rcases hab v hv with ⟨-, hv1⟩ | ⟨-, hv1⟩ <;> rw [hv1] at h2 hv'
    · have : T * v + h / 2 + y < h := by
        have := mul_lt_mul_of_pos_right h2 hv'
        field_simp at this
        linarith
      rw [abs_le]; constructor <;> nlinarith
    · have : -(T * v) + h / 2 - y < h := by
        have := mul_lt_mul_of_pos_right h2 hv'
        have e1 : (T + (h / 2 / -v + y / v)) * -v = -(T * v) + h / 2 - y := by field_simp; ring
        have e2 : h / -v * -v = h := by field_simp
        rw [e1, e2] at this
        exact this
      rw [abs_le]; constructor <;> nlinarith
  | succ n ih =>
    intro y v T hv hy hT h1 h2
    push_cast at h1 h2 ⊢
    have hv' := abs_pos.2 hv
    have hy' := abs_le.1 hy
    have hs0 : 0 ≤ h / 2 / |v| - y / v := by
      have e1 : h / 2 / |v| - y / v = (h / 2 - y * (v / |v|)) / |v| := by
        rcases hab v hv with ⟨e, e'⟩ | ⟨e, e'⟩ <;> rw [e, e'] <;> field_simp
        ring
      rw [e1]
      apply div_nonneg _ hv'.le
      rcases hab v hv with ⟨e, -⟩ | ⟨e, -⟩ <;> rw [e] <;> linarith
    have hend : y + (h / 2 / |v| - y / v) * v = h / 2 * (v / |v|) := by field_simp; ring
    have hT' : 0 ≤ T - (h / 2 / |v| - y / v) := by
      have : 0 ≤ (n : ℝ) * (h / |v|) := by positivity
      have e : h / |v| = h / 2 / |v| + h / 2 / |v| := by ring
      linarith
    have hdiv : h / 2 * (v / |v|) / v = h / 2 / |v| := by field_simp
    have := ih (h / 2 * (v / |v|)) (-v) (T - (h / 2 / |v| - y / v)) (neg_ne_zero.2 hv)
      (by rcases hab v hv with ⟨e, -⟩ | ⟨e, -⟩ <;> rw [e, abs_le] <;> constructor <;> linarith) hT'
      (by rw [abs_neg, div_neg, hdiv]; linear_combination h1) (by rw [abs_neg, div_neg, hdiv]; linear_combination h2)
    have h3 := Bounces.reflects (y := y) (v := v) (s := h / 2 / |v| - y / v) hs0
      (by rw [hend]; rcases hab v hv with ⟨e, -⟩ | ⟨e, -⟩ <;> rw [e]
          · rw [mul_one, abs_of_pos (by positivity)]
          · rw [mul_neg, mul_one, abs_neg, abs_of_pos (by positivity)])
      (by rw [hend]
          have : h / 2 * (v / |v|) * v = h / 2 * (v * v / |v|) := by ring
          rw [this]
          have := mul_self_pos.2 hv
          positivity) (by rw [hend]; exact this)
    rw [abs_neg, div_neg, hdiv] at h3
    convert h3 using 1
    · ring
    · rw [pow_succ]; ring
    · rw [pow_succ]; ring

theorem trunc_floor {x : ℝ} (h : 0 ≤ x) : ∃ n : ℕ, truncInt x = n ∧ (n : ℝ) ≤ x ∧ x < n + 1 := by
  refine ⟨⌊x⌋.toNat, ?_, ?_, ?_⟩
  · unfold truncInt
    rw [if_pos h, Int.toNat_of_nonneg (Int.floor_nonneg.2 h)]
  · rw [show ((⌊x⌋.toNat : ℕ) : ℝ) = ((⌊x⌋.toNat : ℤ) : ℝ) by norm_cast, Int.toNat_of_nonneg (Int.floor_nonneg.2 h)]
    exact Int.floor_le x
  · rw [show ((⌊x⌋.toNat : ℕ) : ℝ) = ((⌊x⌋.toNat : ℤ) : ℝ) by norm_cast, Int.toNat_of_nonneg (Int.floor_nonneg.2 h)]
    exact Int.lt_floor_add_one x

theorem look_eq (c : Coat) (u : ℝ) : (c.look (2 * (V2K * u))).2 = c.R u ∧ ((c.look (2 * (V2K * u))).1 > 10 ↔ c.Dark u) := by
  unfold Coat.look Coat.R Coat.Dark
  by_cases q : 2 * (V2K * u) ≤ c.Qc
  · simp only [if_pos q]
    refine ⟨trivial, ?_⟩
    constructor
    · intro h; norm_num at h
    · intro h; exact absurd h.1 (not_lt.2 q)
  · simp only [if_neg q]
    refine ⟨?_, fun h => ⟨not_le.1 q, h⟩, fun h => h.2⟩
    have h := tanh_logistic ((2 * (V2K * u) - c.m * c.Qc) / c.W)
    have : 0.5 * c.R0 * (1 - Real.tanh ((2 * (V2K * u) - c.m * c.Qc) / c.W)) * (1 - c.alpha * (2 * (V2K * u) - c.Qc)) =
      c.R0 * (1 - c.alpha * (2 * (V2K * u) - c.Qc)) * (0.5 * (1 - Real.tanh ((2 * (V2K * u) - c.m * c.Qc) / c.W))) := by ring
    rw [this, h]
    ring

theorem path_time {g : Ring} {a b : Ray} {L : List (Side × ℝ)} (h : g.Path a L b) : a.t ≤ b.t := by
  induction h with
  | flies h => exact h.1
  | reflects h _ _ ih => exact h.1.trans ih

/-- the weight of reflections and whether there is a dark one, in any order -/
theorem reflections {c : Bender} {L : List (Side × ℝ)} {n m : ℕ} {u v : ℝ}
    (h : L.Perm (List.replicate n (.outer, u) ++ List.replicate m (.inner, v))) :
    (L.map fun q => (c.wall q.1).R q.2).prod = c.a.R u ^ n * c.i.R v ^ m ∧
    ((∃ q ∈ L, (c.wall q.1).Dark q.2) ↔ (0 < n ∧ c.a.Dark u) ∨ (0 < m ∧ c.i.Dark v)) := by
  constructor
  · rw [(h.map _).prod_eq]
    simp [Bender.wall]
  · have : (∃ q ∈ L, (c.wall q.1).Dark q.2) ↔ ∃ q ∈ (List.replicate n (Side.outer, u) ++ List.replicate m (Side.inner, v)), (c.wall q.1).Dark q.2 := by
      constructor <;> rintro ⟨q, hq, hd⟩
      · exact ⟨q, h.mem_iff.1 hq, hd⟩
      · exact ⟨q, h.mem_iff.2 hq, hd⟩
    rw [this]
    constructor
    · rintro ⟨q, hq, hd⟩
      rcases List.mem_append.1 hq with hq | hq
      · obtain ⟨hn, rfl⟩ := List.mem_replicate.1 hq
        exact .inl ⟨Nat.pos_of_ne_zero hn, hd⟩
      · obtain ⟨hn, rfl⟩ := List.mem_replicate.1 hq
        exact .inr ⟨Nat.pos_of_ne_zero hn, hd⟩
    · rintro (⟨hn, hd⟩ | ⟨hn, hd⟩)
      · exact ⟨_, List.mem_append_left _ (List.mem_replicate.2 ⟨hn.ne', rfl⟩), hd⟩
      · exact ⟨_, List.mem_append_right _ (List.mem_replicate.2 ⟨hn.ne', rfl⟩), hd⟩

theorem acosD_ok {b R : ℝ} (hb : 0 < b) (h : b ≤ R) : acosD (b / R) = some (Real.arccos (b / R)) ∧ b = R * Real.cos (Real.arccos (b / R)) ∧
    Real.arccos (b / R) < Real.pi / 2 ∧ 0 ≤ Real.arccos (b / R) := by
  have hR : 0 < R := by linarith
  have h0 : 0 < b / R := by positivity
  have h1 : b / R ≤ 1 := (div_le_one hR).2 h
  refine ⟨if_neg (by rintro (h | h) <;> linarith), ?_, Real.arccos_lt_pi_div_two.2 h0, Real.arccos_nonneg _⟩
  rw [Real.cos_arccos (by linarith) h1]
  field_simp

theorem arccos_abs {b R ρ φ : ℝ} (hb : 0 < b) (h : b ≤ R) (hφ : |φ| < Real.pi / 2) (hρ : b = ρ * Real.cos φ) :
    (ρ ≤ R → |φ| ≤ Real.arccos (b / R)) ∧ (R ≤ ρ → Real.arccos (b / R) ≤ |φ|) := by
  obtain ⟨-, e, h1, h0⟩ := acosD_ok hb h
  have hR : 0 < R := by linarith
  have hc : 0 < Real.cos φ := Real.cos_pos_of_mem_Ioo ⟨(abs_lt.1 hφ).1, (abs_lt.1 hφ).2⟩
  have hcA : 0 < Real.cos (Real.arccos (b / R)) := Real.cos_pos_of_mem_Ioo ⟨by linarith, h1⟩
  have hp := Real.pi_pos
  constructor <;> intro h2 <;> by_contra hn <;> have hn := not_le.1 hn
  · have := Real.strictAntiOn_cos ⟨h0, by linarith⟩ ⟨abs_nonneg _, by linarith⟩ hn
    rw [Real.cos_abs] at this
    nlinarith
  · have := Real.strictAntiOn_cos ⟨abs_nonneg _, by linarith⟩ ⟨h0, by linarith⟩ hn
    rw [Real.cos_abs] at this
    nlinarith

/-- the reflections in the plane are a path -/
theorem plane_path (c : Bender) {g : Ring} {R ab ww vx vz vpl : ℝ} (hg1 : g.outer = R) (hg2 : g.inner = R - ww) (hρ : 0 < R - ab) (hab : 0 ≤ ab)
    (hww : ab < ww) (hvz : 0 < vz) (hvpl : vpl = √(vx * vx + vz * vz)) (hgr : 0 < ab ∨ vx ≠ 0) (hθ : 0 ≤ c.mWin) (t : ℝ) :
    ∃ (q : Plane) (L : List (Side × ℝ)), c.plane R ab ww vx vz vpl = some q ∧
      g.Path ⟨R - ab, 0, vx, vz, t⟩ L ⟨q.b / Real.cos q.aus, c.mWin, Real.sin q.aus * vpl, Real.cos q.aus * vpl, t + q.Ta⟩ ∧
      ((∃ z ∈ L, (c.wall z.1).Dark z.2) ↔ (q.numa > 0 ∧ q.arga > 10) ∨ (q.numi > 0 ∧ q.argi > 10)) ∧
      (L.map fun z => (c.wall z.1).R z.2).prod = q.aeuref ^ q.numa.toNat * q.innref ^ q.numi.toNat := by
  have hR : 0 < R := by linarith
  have hv0 : 0 < vpl := by rw [hvpl]; apply Real.sqrt_pos.2; nlinarith [mul_self_nonneg vx]
  have hv2 : vpl ^ 2 = vx * vx + vz * vz := by rw [hvpl, Real.sq_sqrt (by nlinarith [mul_self_nonneg vx])]
  have hsq : √(1 + (vx / vz) ^ 2) = vpl / vz := by
    have : 1 + (vx / vz) ^ 2 = (vpl / vz) ^ 2 := by
      rw [div_pow, div_pow, hv2]; field_simp; ring
    rw [this, Real.sqrt_sq (by positivity)]
  have hcos : Real.cos (Real.arctan (vx / vz)) = vz / vpl := by rw [Real.cos_arctan, hsq]; field_simp
  have hsin : Real.sin (Real.arctan (vx / vz)) = vx / vpl := by rw [Real.sin_arctan, hsq]; field_simp
  have he : |Real.arctan (vx / vz)| < Real.pi / 2 := abs_lt.2 ⟨Real.neg_pi_div_two_lt_arctan _, Real.arctan_lt_pi_div_two _⟩
  have hgz : Real.arctan (vx / vz) = 0 → 0 < ab := by
    intro h
    rw [h, Real.sin_zero] at hsin
    refine hgr.resolve_right fun h => h ?_
    rcases div_eq_zero_iff.1 hsin.symm with h | h
    · exact h
    · exact absurd h hv0.ne'
  have hc0 : 0 < Real.cos (Real.arctan (vx / vz)) := by rw [hcos]; positivity
  unfold Bender.plane
  rw [if_neg (by rintro (h | h) <;> linarith)]
  simp only
  generalize Real.arctan (vx / vz) = ein at *
  have hb : 0 < Real.cos ein * (R - ab) := mul_pos hc0 hρ
  have hdab : R - (R - Real.cos ein * (R - ab)) = Real.cos ein * (R - ab) := by ring
  have hray : (⟨R - ab, 0, vx, vz, t⟩ : Ray) = ray (Real.cos ein * (R - ab)) vpl 0 ein t := by
    unfold ray
    rw [hsin, Ray.mk.injEq]
    refine ⟨by field_simp, rfl, by field_simp, ?_, rfl⟩
    rw [hcos]; field_simp
  rw [hray]
  have hbρ : Real.cos ein * (R - ab) = (R - ab) * Real.cos ein := mul_comm _ _
  have hbR : Real.cos ein * (R - ab) ≤ R := by nlinarith [Real.cos_le_one ein]
  have hlt : Real.cos ein * (R - ab) < R := by
    rcases hbR.lt_or_eq with h | h
    · exact h
    · exfalso
      have h1 : Real.cos ein = 1 := by nlinarith [Real.cos_le_one ein]
      have h2 : ab = 0 := by rw [h1] at h; linarith
      have : ein = 0 := by
        by_contra hn
        have := Real.cos_lt_cos_of_nonneg_of_le_pi_div_two le_rfl he.le (abs_pos.2 hn)
        rw [Real.cos_abs, h1, Real.cos_zero] at this
        exact lt_irrefl _ this
      exact (hgz this).ne' h2
  simp only [hdab]
  generalize hbe : Real.cos ein * (R - ab) = b at *
  obtain ⟨eA, hA1, hA2, hA0⟩ := acosD_ok hb hbR
  have heA := (arccos_abs hb hbR he hbρ).1 (by linarith)
  simp only [eA]
  have hApos : 0 < Real.arccos (b / R) := by
    rcases hA0.lt_or_eq with h | h
    · exact h
    · rw [← h, Real.cos_zero] at hA1; linarith
  generalize Real.arccos (b / R) = A at *
  have hcA : 0 < Real.cos A := Real.cos_pos_of_mem_Ioo ⟨by linarith, hA2⟩
  have la := look_eq c.a (vpl * Real.sin A)
  rw [show 2 * (V2K * (vpl * Real.sin A)) = 2 * V2K * vpl * Real.sin A by ring] at la
  by_cases hin : R - b > ww
  · -- both walls
    have hbi : b ≤ R - ww := by linarith
    obtain ⟨eI, hI1, hI2, hI0⟩ := acosD_ok hb hbi
    have heI := (arccos_abs hb hbi he hbρ).2 (by linarith)
    rw [if_pos hin, if_neg (by linarith)]
    simp only [eI]
    have hIpos : 0 < Real.arccos (b / (R - ww)) := by
      rcases hI0.lt_or_eq with h | h
      · exact h
      · rw [← h, Real.cos_zero] at hI1; linarith
    generalize Real.arccos (b / (R - ww)) = I at *
    have hcI : 0 < Real.cos I := Real.cos_pos_of_mem_Ioo ⟨by linarith, hI2⟩
    have hIA : I < A := by
      by_contra hn
      have := Real.strictAntiOn_cos.antitoneOn ⟨hA0, by linarith [Real.pi_pos]⟩ ⟨hI0, by linarith [Real.pi_pos]⟩ (not_lt.1 hn)
      nlinarith
    have hs : Sees g b A I := ⟨hb, hI0, hIA, hA2, by rw [hg1]; rw [eq_div_iff hcA.ne']; linarith,
      .inr ⟨by rw [hg2, eq_div_iff hcI.ne']; linarith, hIpos⟩⟩
    have hz : 0 < 2 * (A - I) := by linarith
    rw [if_neg hz.ne']
    have hS0 : 0 ≤ (c.mWin + ein + A - I * (1 + sgn ein)) / (2 * (A - I)) := by
      apply div_nonneg _ hz.le
      have := abs_le.1 heA
      rcases lt_or_ge ein 0 with q | q
      · rw [sgn_neg q]; linarith
      · rw [sgn_pos q]; rw [abs_of_nonneg q] at heI; linarith
    obtain ⟨n, hn, hn1, hn2⟩ := trunc_floor hS0
    rw [le_div_iff₀ hz] at hn1
    rw [div_lt_iff₀ hz] at hn2
    have hf : fmodC (c.mWin + ein + A - I * (1 + sgn ein)) (2 * (A - I)) - 2 * (A - I) / 2 =
        c.mWin + ein + A - I * (1 + sgn ein) - n * (2 * (A - I)) - (A - I) := by
      unfold fmodC; rw [hn]; push_cast; ring
    rw [hf, hn]
    obtain ⟨L, m, hm, hL, hp⟩ := path_enter hs hv0 hIpos n 0 ein t c.mWin _ _ _ heA heI hθ rfl hn1 hn2 rfl rfl
    have li := look_eq c.i (vpl * Real.sin I)
    rw [show 2 * (V2K * (vpl * Real.sin I)) = 2 * V2K * vpl * Real.sin I by ring] at li
    obtain ⟨r1, r2⟩ := reflections (c := c) hL
    refine ⟨_, L, rfl, ?_, ?_, ?_⟩
    · simp only
      rw [zero_add] at hp
      convert hp using 1
      unfold ray
      rw [Ray.mk.injEq]
      refine ⟨rfl, rfl, mul_comm _ _, mul_comm _ _, ?_⟩
      push_cast
      rfl
    · simp only
      rw [r2, la.2, li.2, ← hm]
      simp
    · simp only
      rw [r1, la.1, li.1, ← hm]
      simp
  · -- the outer wall only
    have hs : Sees g b A 0 := ⟨hb, le_rfl, hApos, hA2, by rw [hg1]; rw [eq_div_iff hcA.ne']; linarith, .inl ⟨by rw [hg2]; linarith, rfl⟩⟩
    rw [if_neg hin]
    simp only [sub_zero, zero_mul, add_zero, Real.tan_zero]
    have hz : 0 < 2 * A := by linarith
    rw [if_neg hz.ne']
    have hab' := abs_le.1 heA
    have hS0 : 0 ≤ (c.mWin + ein + A) / (2 * A) := div_nonneg (by linarith) hz.le
    obtain ⟨n, hn, hn1, hn2⟩ := trunc_floor hS0
    rw [le_div_iff₀ hz] at hn1
    rw [div_lt_iff₀ hz] at hn2
    have hf : fmodC (c.mWin + ein + A) (2 * A) - 2 * A / 2 = c.mWin + ein + A - n * (2 * A) - A := by
      unfold fmodC; rw [hn]; push_cast; ring
    rw [hf, hn]
    have hp := path_free hs hv0 (by rw [hg2]; linarith) n 0 ein t (c.mWin + ein + A) hab'.1 hab'.2 (by linarith) hn1 hn2
    obtain ⟨r1, r2⟩ := reflections (c := c) (L := List.replicate n (Side.outer, vpl * Real.sin A)) (n := n) (m := 0) (u := vpl * Real.sin A) (v := 0)
      (by simp)
    refine ⟨_, List.replicate n (.outer, vpl * Real.sin A), rfl, ?_, ?_, ?_⟩
    · simp only
      rw [show 0 + (c.mWin + ein + A - (ein + A)) = c.mWin by ring] at hp
      convert hp using 1
      unfold ray
      rw [Ray.mk.injEq]
      refine ⟨rfl, rfl, mul_comm _ _, mul_comm _ _, ?_⟩
      push_cast
      ring
    · simp only
      rw [r2, la.2]
      norm_num
    · simp only
      rw [r1, la.1]
      simp

end Verif.McBend
