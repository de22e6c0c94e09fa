import Verif.Model.McPowderN
import Verif.Spec.McPowderN
import Verif.Lemmas.McStas
import Verif.Lemmas.Kinem
import Verif.Lemmas.Powder
import Verif.Lemmas.Flight
import Verif.Lemmas.McRotor
import Mathlib.Tactic.NormNum
import Mathlib.Tactic.FieldSimp
/-!
Lemmas about the powder sample with many lines.
-/

namespace Verif.McPowderN
open McStas McSample Kinem Solid Homog Sampling Flight Powder
open McGuide (K2V V2K)
open Classical
noncomputable section

theorem speed_eq (v : V3 ℝ) : √(v.x * v.x + v.y * v.y + v.z * v.z) = length v := (length_eq v).symm

/-- the velocity after a reflection -/
theorem braggOut_eq {v : V3 ℝ} (hv : v ≠ 0) (theta alpha0 : ℝ) :
    (braggOut v theta alpha0).dot (braggOut v theta alpha0) = v.dot v ∧
    v.dot (braggOut v theta alpha0) = Real.cos (2 * theta) * v.dot v := by
  unfold braggOut
  dsimp only
  set n : V3 ℝ := if (V3.cross v ⟨1, 0, 0⟩).x = 0 ∧ (V3.cross v ⟨1, 0, 0⟩).y = 0 ∧ (V3.cross v ⟨1, 0, 0⟩).z = 0 then ⟨0, 1, 0⟩
    else V3.cross v ⟨1, 0, 0⟩ with hn
  have h1 : n ≠ 0 ∧ n.dot v = 0 := by
    rw [hn]
    split
    · next h =>
      refine ⟨fun h0 => by have := congrArg V3.y h0; simp at this, ?_⟩
      simp only [V3.cross, V3.dot] at h ⊢
      linarith [h.2.2]
    · next h =>
      refine ⟨fun h0 => h ?_, by simp only [V3.cross, V3.dot]; ring⟩
      exact ⟨congrArg V3.x h0, congrArg V3.y h0, congrArg V3.z h0⟩
  have e1 := norm_eq h1.1
  have e2 := norm_eq hv
  have u1 : (norm n).dot (norm n) = 1 := by
    have h := length_pos h1.1
    have := length_mul_self n
    rw [e1]
    simp only [V3.dot, V3.smul_x, V3.smul_y, V3.smul_z] at this ⊢
    field_simp
    nlinarith
  have u2 : (norm v).dot (norm v) = 1 := by
    have h := length_pos hv
    have := length_mul_self v
    rw [e2]
    simp only [V3.dot, V3.smul_x, V3.smul_y, V3.smul_z] at this ⊢
    field_simp
    nlinarith
  rw [rotate_turned, rotate_turned]
  refine ⟨by rw [turned_dot u2, turned_dot u1], ?_⟩
  have h3 : v.dot (turned (norm v) alpha0 (turned (norm n) (2 * theta) v)) = v.dot (turned (norm n) (2 * theta) v) := by
    have h := turned_axis u2 alpha0 (turned (norm n) (2 * theta) v)
    rw [e2] at h ⊢
    have hl := length_pos hv
    simp only [V3.dot, V3.smul_x, V3.smul_y, V3.smul_z] at h ⊢
    have h4 : ∀ a b : V3 ℝ, (1 / length v) * v.x * a.x + (1 / length v) * v.y * a.y + (1 / length v) * v.z * a.z =
        (1 / length v) * v.x * b.x + (1 / length v) * v.y * b.y + (1 / length v) * v.z * b.z →
        v.x * a.x + v.y * a.y + v.z * a.z = v.x * b.x + v.y * b.y + v.z * b.z := by
      intro a b hab
      field_simp at hab
      exact hab
    exact h4 _ _ h
  rw [h3]
  have h5 : (norm n).dot v = 0 := by
    rw [e1]
    have := h1.2
    simp only [V3.dot, V3.smul_x, V3.smul_y, V3.smul_z] at this ⊢
    linear_combination (1 / length n) * this
  unfold turned
  rw [h5]
  simp only [V3.dot, V3.cross, V3.add_x, V3.add_y, V3.add_z, V3.sub_x, V3.sub_y, V3.sub_z, V3.smul_x, V3.smul_y, V3.smul_z]
  ring

theorem bragg_length {v w : V3 ℝ} {th : ℝ} (h1 : w.dot w = v.dot v) (h2 : v.dot w = Real.cos (2 * th) * v.dot v) :
    length w = length v ∧ length (w - v) = 2 * length v * |Real.sin th| := by
  have hl : length w = length v := by rw [length_eq, length_eq, h1]
  refine ⟨hl, ?_⟩
  have h3 : (w - v).dot (w - v) = (2 * length v * |Real.sin th|) ^ 2 := by
    have : (w - v).dot (w - v) = w.dot w + v.dot v - 2 * v.dot w := by
      simp only [V3.dot, V3.sub_x, V3.sub_y, V3.sub_z]; ring
    rw [this, h1, h2, Real.cos_two_mul', mul_pow, sq_abs, mul_pow, sq (length v), length_mul_self]
    have := Real.sin_sq_add_cos_sq th
    linear_combination (-(2 * v.dot v)) * this
  rw [length_eq, h3, Real.sqrt_sq]
  have : 0 ≤ length v := by rw [length_eq]; exact Real.sqrt_nonneg _
  positivity

/-- mean of a function of the choice between three -/
theorem mean_three {a b A B C : ℝ} (ha : 0 ≤ a) (hab : a ≤ b) (hb : b ≤ 1) {f : ℝ → ℝ} (h1 : ∀ u, 0 < u → u < a → f u = A)
    (h2 : ∀ u, a < u → u < b → f u = B) (h3 : ∀ u, b < u → u < 1 → f u = C) :
    mean f = a * A + (b - a) * B + (1 - b) * C := by
  have key : ∀ (x y D : ℝ), x ≤ y → (∀ u, x < u → u < y → f u = D) →
      IntervalIntegrable f MeasureTheory.volume x y ∧ ∫ u in x..y, f u = (y - x) * D := by
    intro x y D hxy h
    have he : Set.EqOn (fun _ => D) f (Set.Ioo x y) := fun u hu => (h u hu.1 hu.2).symm
    refine ⟨(intervalIntegrable_const (c := D)).congr_ae ?_, ?_⟩
    · rw [Set.uIoc_of_le hxy, ← MeasureTheory.restrict_Ioo_eq_restrict_Ioc]
      exact (MeasureTheory.ae_restrict_iff' measurableSet_Ioo).2 (Filter.Eventually.of_forall fun u hu => he hu)
    · rw [intervalIntegral.integral_congr_Ioo_of_le hxy (g := fun _ => D) fun u hu => h u hu.1 hu.2]
      simp
  obtain ⟨i1, e1⟩ := key 0 a A ha h1
  obtain ⟨i2, e2⟩ := key a b B hab h2
  obtain ⟨i3, e3⟩ := key b 1 C hb h3
  unfold mean
  rw [← intervalIntegral.integral_add_adjacent_intervals (i1.trans i2) i3, ← intervalIntegral.integral_add_adjacent_intervals i1 i2,
    e1, e2, e3]
  ring

/-- mean of a function of a point that is chosen first between two parts and then in this part -/
theorem mean_halves {g f : ℝ → ℝ} {a b a' b' : ℝ} (h1 : ∀ u, 0 < u → u < 1 / 2 → f u = g (a + u * (b - a)))
    (h2 : ∀ u, 1 / 2 < u → u < 1 → f u = g (a' + u * (b' - a')))
    (i1 : IntervalIntegrable g MeasureTheory.volume a ((a + b) / 2)) (i2 : IntervalIntegrable g MeasureTheory.volume ((a' + b') / 2) b')
    (n1 : b - a ≠ 0) (n2 : b' - a' ≠ 0) :
    mean f = (∫ x in a..(a + b) / 2, g x) / (b - a) + (∫ x in (a' + b') / 2..b', g x) / (b' - a') := by
  have e1 : ∫ u in (0:ℝ)..1 / 2, f u = (∫ x in a..(a + b) / 2, g x) / (b - a) := by
    rw [intervalIntegral.integral_congr_Ioo_of_le (by norm_num) (g := fun u => g (a + u * (b - a))) fun u hu => h1 u hu.1 hu.2]
    have := intervalIntegral.integral_comp_add_mul (a := 0) (b := 1 / 2) g n1 a
    simp only [mul_zero, add_zero, smul_eq_mul] at this
    rw [show (fun u => g (a + u * (b - a))) = fun u => g (a + (b - a) * u) by funext u; rw [mul_comm], this]
    rw [show a + (b - a) * (1 / 2) = (a + b) / 2 by ring]
    field_simp
  have e2 : ∫ u in (1 / 2 : ℝ)..1, f u = (∫ x in (a' + b') / 2..b', g x) / (b' - a') := by
    rw [intervalIntegral.integral_congr_Ioo_of_le (by norm_num) (g := fun u => g (a' + u * (b' - a'))) fun u hu => h2 u hu.1 hu.2]
    have := intervalIntegral.integral_comp_add_mul (a := 1 / 2) (b := 1) g n2 a'
    simp only [smul_eq_mul] at this
    rw [show (fun u => g (a' + u * (b' - a'))) = fun u => g (a' + (b' - a') * u) by funext u; rw [mul_comm], this]
    rw [show a' + (b' - a') * (1 / 2) = (a' + b') / 2 by ring, show a' + (b' - a') * 1 = b' by ring]
    field_simp
  have j1 : IntervalIntegrable f MeasureTheory.volume 0 (1 / 2) := by
    have h : IntervalIntegrable (fun u => g (a + (b - a) * u)) MeasureTheory.volume 0 (1 / 2) := by
      have := (i1.comp_add_left a).comp_mul_left (c := b - a)
      simp only [sub_self, zero_div] at this
      rw [show ((a + b) / 2 - a) / (b - a) = 1 / 2 by field_simp; ring] at this
      exact this
    refine h.congr_ae ?_
    rw [Set.uIoc_of_le (by norm_num), ← MeasureTheory.restrict_Ioo_eq_restrict_Ioc]
    exact (MeasureTheory.ae_restrict_iff' measurableSet_Ioo).2 (Filter.Eventually.of_forall fun u hu => by
      show _ = f u
      rw [h1 u hu.1 hu.2, mul_comm u])
  have j2 : IntervalIntegrable f MeasureTheory.volume (1 / 2) 1 := by
    have h : IntervalIntegrable (fun u => g (a' + (b' - a') * u)) MeasureTheory.volume (1 / 2) 1 := by
      have := (i2.comp_add_left a').comp_mul_left (c := b' - a')
      rw [show ((a' + b') / 2 - a') / (b' - a') = 1 / 2 by field_simp; ring, div_self n2] at this
      exact this
    refine h.congr_ae ?_
    rw [Set.uIoc_of_le (by norm_num), ← MeasureTheory.restrict_Ioo_eq_restrict_Ioc]
    exact (MeasureTheory.ae_restrict_iff' measurableSet_Ioo).2 (Filter.Eventually.of_forall fun u hu => by
      show _ = f u
      rw [h2 u hu.1 hu.2, mul_comm u])
  unfold mean
  rw [← intervalIntegral.integral_add_adjacent_intervals j1 j2, e1, e2]

/-- mean over the point in a sample without a hollow -/
theorem mean_point {g : ℝ → ℝ} {D : ℝ} (hD : 0 < D) (hg : IntervalIntegrable g MeasureTheory.volume 0 D) {f : ℝ → ℝ}
    (h1 : ∀ u, 0 < u → u < 1 / 2 → f u = g ((1 - 2 * u) * (D / 2))) (h2 : ∀ u, 1 / 2 < u → u < 1 → f u = g (u * D)) :
    mean f = (∫ x in (0:ℝ)..D, g x) / D := by
  have m : D / 2 ∈ Set.uIcc 0 D := by rw [Set.uIcc_of_le hD.le]; constructor <;> linarith
  have g1 : IntervalIntegrable g MeasureTheory.volume 0 (D / 2) := hg.mono_set (Set.uIcc_subset_uIcc_left m)
  have g2 : IntervalIntegrable g MeasureTheory.volume (D / 2) D := hg.mono_set (Set.uIcc_subset_uIcc_right m)
  have := mean_halves (g := g) (f := f) (a := D / 2) (b := -(D / 2)) (a' := 0) (b' := D)
    (fun u hu0 hu1 => by rw [h1 u hu0 hu1]; congr 1; ring) (fun u hu0 hu1 => by rw [h2 u hu0 hu1]; congr 1; ring)
    (by rw [show (D / 2 + -(D / 2)) / 2 = 0 by ring]; exact g1.symm)
    (by rw [show (0 + D) / 2 = D / 2 by ring]; exact g2) (by linarith) (by linarith)
  rw [this, show (D / 2 + -(D / 2)) / 2 = 0 by ring, show (0 + D) / 2 = D / 2 by ring,
    ← intervalIntegral.integral_add_adjacent_intervals g1 g2, intervalIntegral.integral_symm]
  generalize (∫ x in (0:ℝ)..D / 2, g x) = A
  generalize (∫ x in (D / 2)..D, g x) = B
  have : -(D / 2) - D / 2 = -D := by ring
  rw [this, sub_zero]
  field_simp

/-- mean over the lines -/
theorem mean_line {n : ℕ} (hn : 0 < n) (f : ℕ → ℝ) :
    mean (fun u => f (if n > 1 then ⌊n * u⌋₊ else 0)) = (∑ i ∈ Finset.range n, f i) / n := by
  rw [← mean_index hn f]
  refine mean_congr fun u h0 h1 => ?_
  have hn' : (0 : ℝ) < n := by exact_mod_cast hn
  have hf : (⌊(n : ℝ) * u⌋₊ : ℕ) < n := by
    rw [Nat.floor_lt (by positivity)]
    nlinarith
  by_cases h : n > 1
  · rw [if_pos h]
    congr 1
    unfold randomIndex random
    rw [add_zero, sub_zero, mul_comm u, Nat.mod_eq_of_lt hf]
  · have : n = 1 := by omega
    subst this
    simp only [gt_iff_lt, lt_self_iff_false, if_false]
    congr 1
    exact (randomIndex_eq (by simpa using h0) (by simpa using h1) (by norm_num)).symm

/-- the y component after a reflection of a neutron that goes along z -/
theorem braggOut_y {vz : ℝ} (hz : vz ≠ 0) (theta alpha0 : ℝ) :
    |(braggOut ⟨0, 0, vz⟩ theta alpha0).y| = |vz| * |Real.sin (2 * theta)| * |Real.sin alpha0| := by
  have hv : (⟨0, 0, vz⟩ : V3 ℝ) ≠ 0 := fun h => hz (congrArg V3.z h)
  have hn : (⟨1, 0, 0⟩ : V3 ℝ) ≠ 0 := fun h => by have := congrArg V3.x h; simp at this
  have h := (rotate_twice hv hn (by simp [V3.dot]) (2 * theta) alpha0).1
  have hl : length (⟨1, 0, 0⟩ : V3 ℝ) = 1 := by rw [length_eq]; simp [V3.dot]
  unfold braggOut
  dsimp only
  rw [if_neg (by simp [V3.cross, hz]), h, hl]
  simp only [V3.add_y, V3.smul_y, V3.cross]
  simp only [mul_zero, zero_add, div_one, one_mul, mul_one, sub_zero]
  rw [abs_mul, abs_mul]
  ring

theorem prop_at {s : ℝ} (hs : 0 ≤ s) (e : Event ℝ) : propDt ⟨false, 0⟩ s e = outAt e s e.v e.p := by
  unfold propDt outAt
  rw [if_neg (by norm_num; linarith), if_neg (by simp)]
  unfold propDtFree
  ext <;> simp only [V3.add_x, V3.add_y, V3.add_z, V3.smul_x, V3.smul_y, V3.smul_z] <;> ring

theorem num_div {a b : ℝ} (hb : b ≠ 0) : num (divD a b) = .ok (a / b) := by
  rw [divD_ok hb]; rfl

/-- backwards -/
theorem braggOut_back {vz : ℝ} (hz : vz ≠ 0) (alpha0 : ℝ) : braggOut ⟨0, 0, vz⟩ (Real.pi / 2) alpha0 = ⟨0, 0, -vz⟩ := by
  have hv : (⟨0, 0, vz⟩ : V3 ℝ) ≠ 0 := fun h => hz (congrArg V3.z h)
  have hn : (⟨1, 0, 0⟩ : V3 ℝ) ≠ 0 := fun h => by have := congrArg V3.x h; simp at this
  have h := (rotate_twice hv hn (by simp [V3.dot]) (2 * (Real.pi / 2)) alpha0).1
  unfold braggOut
  dsimp only
  rw [if_neg (by simp [V3.cross, hz]), h, show 2 * (Real.pi / 2) = Real.pi by ring, Real.cos_pi, Real.sin_pi]
  ext <;> simp

theorem init_ok {p : Par} {lines : List Line} {c : Sample} (hc : p.init lines = .ok c) : ∃ V0, p.volume = .ok V0 ∧
    c.peaks = (lines.map fun l => ⟨section2 p.pack V0 (if p.barns then 100 else 1) l, l.q * K2V, l.w⟩) ∧
    c.sum = (lines.map (section2 p.pack V0 (if p.barns then 100 else 1))).sum ∧
    c.my_a_v = p.pack * p.sigma_abs / V0 * 2200 * 100 ∧ c.my_inc = p.pack * p.sigma_inc / V0 * 100 := by
  unfold Par.init at hc
  dsimp only at hc
  generalize (if p.h ≠ 0 ∧ p.yheight = 0 then p.h else p.yheight) = y at hc
  generalize (if p.yheight_i = 0 then y else p.yheight_i) = yi at hc
  cases hr : p.rect y with
  | error x => rw [hr] at hc; simp [bind, Except.bind] at hc
  | ok b =>
    rw [hr] at hc
    simp only [bind, Except.bind] at hc
    rcases McRotor.ite_or hc with ⟨-, hc⟩ | ⟨-, hc⟩
    · simp at hc
    rcases McRotor.ite_or hc with ⟨-, hc⟩ | ⟨-, hc⟩
    · simp at hc
    cases hV : p.volume with
    | error x => rw [hV] at hc; simp at hc
    | ok V0 =>
      rw [hV] at hc
      simp only [Except.ok.injEq] at hc
      exact ⟨V0, rfl, by rw [← hc], by rw [← hc], by rw [← hc], by rw [← hc]⟩

/-- the angles on the cone for which the neutron is within the band -/
theorem band_set {A : ℝ} (hA0 : 0 ≤ A) (hA : A ≤ Real.pi / 2) :
    {b : ℝ | b ∈ Set.Icc (-Real.pi / 2) (3 * Real.pi / 2) ∧ |Real.sin b| ≤ Real.sin A} = Set.Icc (-A) A ∪ Set.Icc (Real.pi - A) (Real.pi + A) := by
  have hp := Real.pi_pos
  have key : ∀ b, |b| ≤ Real.pi / 2 → (|Real.sin b| ≤ Real.sin A ↔ |b| ≤ A) := by
    intro b hb
    rw [Real.abs_sin_eq_sin_abs_of_abs_le_pi (by linarith)]
    constructor
    · intro h
      by_contra hc
      push Not at hc
      exact absurd h (not_le.2 (Real.sin_lt_sin_of_lt_of_le_pi_div_two (by linarith) hb hc))
    · exact Real.sin_le_sin_of_le_of_le_pi_div_two (by linarith [abs_nonneg b]) hA
  ext b
  simp only [Set.mem_setOf_eq, Set.mem_Icc, Set.mem_union]
  constructor
  · rintro ⟨⟨h1, h2⟩, h3⟩
    by_cases hb : b ≤ Real.pi / 2
    · left
      exact abs_le.1 ((key b (abs_le.2 ⟨by linarith, hb⟩)).1 h3)
    · right
      push Not at hb
      have : Real.sin b = -Real.sin (b - Real.pi) := by rw [Real.sin_sub_pi]; ring
      rw [this, abs_neg] at h3
      have := abs_le.1 ((key (b - Real.pi) (abs_le.2 ⟨by linarith, by linarith⟩)).1 h3)
      constructor <;> linarith [this.1, this.2]
  · rintro (⟨h1, h2⟩ | ⟨h1, h2⟩)
    · exact ⟨⟨by linarith, by linarith⟩, (key b (abs_le.2 ⟨by linarith, by linarith⟩)).2 (abs_le.2 ⟨h1, h2⟩)⟩
    · refine ⟨⟨by linarith, by linarith⟩, ?_⟩
      have : Real.sin b = -Real.sin (b - Real.pi) := by rw [Real.sin_sub_pi]; ring
      rw [this, abs_neg]
      exact (key (b - Real.pi) (abs_le.2 ⟨by linarith, by linarith⟩)).2 (abs_le.2 ⟨by linarith, by linarith⟩)

theorem reading_ok {g : Event ℝ → ℝ} (hg : ∀ e' p, g { e' with p := p } = g e') {e' e'' : Event ℝ} {d : ℝ} (he : e'' = { e' with p := e''.p })
    (hp : 0 ≤ e''.p) : reading g (.ok (e'', d)) = e''.p * g e' := by
  unfold reading
  dsimp only
  rw [if_neg (not_lt.2 hp)]
  conv_lhs => rw [he]
  rw [hg]

/-! ### boxes for the examples -/

/-- a box of 2 m -/
def boxOf (frac tfrac : ℝ) (peaks : List Peak) (sum abs inc : ℝ) : Sample :=
  ⟨true, 0, 0, 2, 2, 2, 0, 2, 0, false, frac, tfrac, peaks, sum, abs, inc⟩

/-- a box with a hollow -/
def hollowOf (frac tfrac : ℝ) (peaks : List Peak) (sum abs inc : ℝ) : Sample :=
  ⟨true, 0, 0, 4, 2, 4, 2, 2, 2, false, frac, tfrac, peaks, sum, abs, inc⟩

theorem box_in : boxIntersect (⟨1 / 2, 0, -2⟩ : V3 ℝ) ⟨0, 0, 1⟩ ⟨2, 2, 2⟩ = some (1, 3) ∧
    boxIntersect (⟨1 / 2, 0, -2⟩ : V3 ℝ) ⟨0, 0, 1⟩ ⟨0, 2, 0⟩ = none ∧
    boxIntersect (⟨1 / 2, 0, -1 / 2⟩ : V3 ℝ) ⟨0, 0, -1⟩ ⟨2, 2, 2⟩ = some (-3 / 2, 1 / 2) ∧
    boxIntersect (⟨1 / 2, 0, -1 / 2⟩ : V3 ℝ) ⟨0, 0, -1⟩ ⟨0, 2, 0⟩ = none ∧
    boxIntersect (⟨1 / 2, 0, -1 / 2⟩ : V3 ℝ) ⟨0, 1, 0⟩ ⟨2, 2, 2⟩ = some (-1, 1) ∧
    boxIntersect (⟨1 / 2, 0, -1 / 2⟩ : V3 ℝ) ⟨0, 1, 0⟩ ⟨0, 2, 0⟩ = none := by
  refine ⟨?_, ?_, ?_, ?_, ?_, ?_⟩ <;> unfold boxIntersect faces face <;> norm_num [collect]

theorem box_up {z : ℝ} (h1 : -1 < z) (h2 : z < 1) : boxIntersect (⟨1 / 2, 0, z⟩ : V3 ℝ) ⟨0, 1, 0⟩ ⟨2, 2, 2⟩ = some (-1, 1) := by
  unfold boxIntersect faces face
  norm_num [collect, h1, h2, not_le.2 h2]

theorem box_back {z : ℝ} (h1 : -1 < z) (h2 : z < 1) : boxIntersect (⟨1 / 2, 0, z⟩ : V3 ℝ) ⟨0, 0, -1⟩ ⟨2, 2, 2⟩ = some (z - 1, z + 1) := by
  have f1 : faces z (-1) 2 (1 / 2) 0 2 0 0 2 = [1 + z, z - 1] := by
    unfold faces face
    rw [if_pos (by norm_num)]
    have e2 : (2 / 2 - z) / (-1 : ℝ) = z - 1 := by ring
    have e1 : -(2 / 2 + z) / (-1 : ℝ) = 1 + z := by ring
    rw [e1, e2]
    norm_num
  have f2 : faces (1 / 2) 0 2 0 0 2 z (-1) 2 = [0, 0] := by unfold faces; simp
  have f3 : faces 0 0 2 (1 / 2) 0 2 z (-1) 2 = [0, 0] := by unfold faces; simp
  unfold boxIntersect
  simp only [f1, f2, f3]
  have n1 : (1 + z) ≠ 0 := by linarith
  have n2 : (z - 1) ≠ 0 := by linarith
  simp only [List.cons_append, List.nil_append, collect, if_true, n1, n2, if_false, one_ne_zero]
  rw [if_neg (fun h => h.1), if_neg (by linarith), add_comm 1 z]

theorem box_line (z : ℝ) : boxIntersect (⟨1 / 2, 0, z⟩ : V3 ℝ) ⟨0, 1, 0⟩ ⟨0, 2, 0⟩ = none := by
  unfold boxIntersect faces face
  norm_num [collect]

theorem box_line' (z : ℝ) : boxIntersect (⟨1 / 2, 0, z⟩ : V3 ℝ) ⟨0, 0, -1⟩ ⟨0, 2, 0⟩ = none := by
  unfold boxIntersect faces face
  norm_num [collect]

theorem hollow_in : boxIntersect (⟨0, 0, -3⟩ : V3 ℝ) ⟨0, 0, 1⟩ ⟨4, 2, 4⟩ = some (1, 5) ∧
    boxIntersect (⟨0, 0, -3⟩ : V3 ℝ) ⟨0, 0, 1⟩ ⟨2, 2, 2⟩ = some (2, 4) ∧
    boxIntersect (⟨0, 0, 3 / 2⟩ : V3 ℝ) ⟨0, 1, 0⟩ ⟨4, 2, 4⟩ = some (-1, 1) ∧
    boxIntersect (⟨0, 0, 3 / 2⟩ : V3 ℝ) ⟨0, 1, 0⟩ ⟨2, 2, 2⟩ = none ∧
    boxIntersect (⟨0, 0, 0⟩ : V3 ℝ) ⟨0, 0, 1⟩ ⟨4, 2, 4⟩ = some (-2, 2) ∧
    boxIntersect (⟨0, 0, 0⟩ : V3 ℝ) ⟨0, 0, 1⟩ ⟨2, 2, 2⟩ = some (-1, 1) ∧
    boxIntersect (⟨0, 0, 0⟩ : V3 ℝ) ⟨0, 1, 0⟩ ⟨4, 2, 4⟩ = some (-1, 1) ∧
    boxIntersect (⟨0, 0, 0⟩ : V3 ℝ) ⟨0, 1, 0⟩ ⟨2, 2, 2⟩ = some (-1, 1) := by
  refine ⟨?_, ?_, ?_, ?_, ?_, ?_, ?_, ?_⟩ <;> unfold boxIntersect faces face <;> norm_num [collect]

theorem unit_z : length (⟨0, 0, 1⟩ : V3 ℝ) = 1 := by rw [length_eq]; simp [V3.dot]

/-- with the first random number 0 the direction is the vertical -/
theorem circle_up (u2 : ℝ) : targetCircle ⟨0, 0, 1⟩ 0 0 u2 = some (⟨0, 1, 0⟩, 4 * Real.pi) := by
  have hv : (⟨0, 0, 1⟩ : V3 ℝ) ≠ 0 := fun h => by have := congrArg V3.z h; simp at this
  rw [targetSphere_eq hv le_rfl zero_le_one]
  unfold around upright
  rw [unit_z]
  simp only [mul_zero, sub_zero, one_pow, sub_self, Real.sqrt_zero]
  congr 2
  ext <;> simp

/-! ### multiplicities -/

theorem setOne_last (l : List Line) {y : Line} (hy : y.j = 1) : setOne 1 (l ++ [y]) = l ++ [y] := by
  unfold setOne
  apply List.ext_getElem
  · simp
  intro i h1 h2
  rw [List.getElem_mapIdx]
  split
  · next h =>
    simp only [List.length_append, List.length_cons, List.length_nil] at h h2
    push_cast at h
    have hi : i = l.length := by omega
    subst hi
    rw [List.getElem_append_right (le_refl _)]
    simp only [Nat.sub_self, List.getElem_cons_zero]
    cases y
    simp only at hy
    rw [hy]
  · rfl

/-- two spacings that the reading takes as different -/
def Far (q q' : ℝ) : Prop := 0.0001 * |q'| ≤ |q - q'|

theorem readRows_far {before behind : ℤ} (hb : behind ≠ 1) : ∀ (rows : List (Line × ℝ)) (s : Loop) (l : List Line) (y : Line),
    s.list = l ++ [y] → s.mult = 1 → s.qc ≠ 0 → s.jc ≠ 0 → s.Fc ≠ 0 →
    (∀ x ∈ rows, Far s.qc x.1.q ∧ x.1.q ≠ 0 ∧ x.1.F2 ≠ 0 ∧ x.2 ≠ 0) → rows.Pairwise (fun a b => Far a.1.q b.1.q) →
    (readRows before behind s (rows.map some)).list = s.list ++ rows.map (·.1)
  | [], s, l, y, _, _, _, _, _, _, _ => by simp [readRows]
  | x :: rows, s, l, y, hs, hm, hq, hj, hF, hx, hp => by
    obtain ⟨x, jr⟩ := x
    rw [List.pairwise_cons] at hp
    obtain ⟨h1, h2, h3, h4⟩ := hx _ List.mem_cons_self
    have key : ∃ s', s.step before behind (rows.map some).isEmpty (x, jr) = s' ∧ s'.list = s.list ++ [x] ∧
        (rows ≠ [] → s'.mult = 1 ∧ s'.jc ≠ 0 ∧ s'.Fc ≠ 0 ∧ (s'.qc = s.qc ∨ s'.qc = x.q)) := by
      refine ⟨_, rfl, ?_⟩
      unfold Loop.step
      dsimp only
      rw [if_neg hq, if_neg hj, if_neg hF]
      have hns : ¬ (|s.qc - x.q| < 0.0001 * |x.q| ∧ |s.Fc - x.F2| < 0.0001 * |x.F2| ∧ s.jc = jr) := fun h => absurd h.1 (not_lt.2 h1)
      rw [if_neg hns, if_pos (Or.inl hns)]
      by_cases hl : (rows.map some).isEmpty = true
      · rw [if_pos hl]
        have hr : rows = [] := by simpa using hl
        refine ⟨?_, fun h => absurd hr h⟩
        split
        · next h =>
          rw [hm] at h ⊢
          rcases h with h | h
          · exact setOne_last _ h.symm
          · exact absurd h.symm hb
        · rfl
      · rw [if_neg hl, hs]
        simp only [List.getLast?_append, List.getLast?_singleton, Option.some_or, Option.map_some, Option.getD_some]
        split
        · next h =>
          rw [hm] at h ⊢
          refine ⟨?_, fun _ => ⟨rfl, h4, h3, Or.inr rfl⟩⟩
          dsimp only
          rw [setOne_last _ h.symm]
        · exact ⟨rfl, fun _ => ⟨hm, hj, hF, Or.inl rfl⟩⟩
    obtain ⟨s', e1, e2, e3⟩ := key
    rw [List.map_cons, readRows, e1]
    by_cases hr : rows = []
    · subst hr; simp [readRows, e2]
    obtain ⟨f1, f2, f3, f4⟩ := e3 hr
    rw [readRows_far hb rows s' s.list x e2 f1 (by rcases f4 with h | h <;> rw [h] <;> assumption) f2 f3 ?_ hp.2, e2]
    · simp
    · intro z hz
      have := hx z (List.mem_cons_of_mem _ hz)
      refine ⟨?_, this.2⟩
      rcases f4 with h | h <;> rw [h]
      · exact this.1
      · exact hp.1 z hz

end
end Verif.McPowderN
