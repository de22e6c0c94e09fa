import Verif.Spec.Sources
import Verif.Lemmas.Kinem
import Verif.Lemmas.Exchange
import Mathlib.Tactic.Linarith
import Mathlib.Tactic.LinearCombination
/-!
Lemmas about the test sources and the radial collimator.
-/

namespace Verif.Sources
open Solid Flight Homog Kinem Exchange

/-- a straight line between two rays less than half a turn apart crosses every ray between them -/
theorem crosses {a b g r1 r2 : ℝ} (h1 : 0 < r1) (h2 : 0 < r2) (hag : a < g) (hgb : g < b) (hab : b - a < Real.pi) :
    ∃ l r, 0 < l ∧ l < 1 ∧ 0 < r ∧ (1 - l) * (r1 * Real.cos a) + l * (r2 * Real.cos b) = r * Real.cos g ∧
      (1 - l) * (r1 * Real.sin a) + l * (r2 * Real.sin b) = r * Real.sin g := by
  have s1 : 0 < Real.sin (g - a) := Real.sin_pos_of_pos_of_lt_pi (by linarith) (by linarith)
  have s2 : 0 < Real.sin (b - g) := Real.sin_pos_of_pos_of_lt_pi (by linarith) (by linarith)
  have s3 : 0 < Real.sin (b - a) := Real.sin_pos_of_pos_of_lt_pi (by linarith) (by linarith)
  have hd : 0 < r1 * Real.sin (g - a) + r2 * Real.sin (b - g) := by positivity
  refine ⟨r1 * Real.sin (g - a) / (r1 * Real.sin (g - a) + r2 * Real.sin (b - g)),
    r1 * r2 * Real.sin (b - a) / (r1 * Real.sin (g - a) + r2 * Real.sin (b - g)), by positivity, ?_, by positivity, ?_, ?_⟩
  · rw [div_lt_one hd]; have : 0 < r2 * Real.sin (b - g) := by positivity
    linarith
  · field_simp
    rw [Real.sin_sub g a, Real.sin_sub b g, Real.sin_sub b a]; ring
  · field_simp
    rw [Real.sin_sub g a, Real.sin_sub b g, Real.sin_sub b a]; ring

/-- the angle of a point on the line between two rays is between theirs -/
theorem between {a b g r1 r2 r l : ℝ} (h1 : 0 < r1) (h2 : 0 < r2) (hr : 0 < r) (ha : -Real.pi < a) (hb : b < Real.pi)
    (hab : a ≤ b) (hd : b - a < Real.pi) (hg0 : -Real.pi ≤ g) (hg1 : g ≤ Real.pi) (hl0 : 0 ≤ l) (hl1 : l ≤ 1)
    (hx : (1 - l) * (r1 * Real.cos a) + l * (r2 * Real.cos b) = r * Real.cos g)
    (hy : (1 - l) * (r1 * Real.sin a) + l * (r2 * Real.sin b) = r * Real.sin g) : a ≤ g ∧ g ≤ b := by
  have hp := Real.pi_pos
  have hs : 0 ≤ Real.sin (b - a) := Real.sin_nonneg_of_nonneg_of_le_pi (by linarith) (by linarith)
  have e1 : r * Real.sin (g - a) = l * r2 * Real.sin (b - a) := by
    rw [Real.sin_sub, Real.sin_sub]; linear_combination -Real.cos a * hy + Real.sin a * hx
  have e2 : r * Real.sin (b - g) = (1 - l) * r1 * Real.sin (b - a) := by
    rw [Real.sin_sub, Real.sin_sub]; linear_combination Real.cos b * hy - Real.sin b * hx
  have e3 : r * Real.cos (g - a) = (1 - l) * r1 + l * r2 * Real.cos (b - a) := by
    rw [Real.cos_sub, Real.cos_sub]
    have := Real.sin_sq_add_cos_sq a
    linear_combination -Real.cos a * hx - Real.sin a * hy + (1 - l) * r1 * this
  have n1 : 0 ≤ Real.sin (g - a) := by
    have : 0 ≤ r * Real.sin (g - a) := by rw [e1]; positivity
    exact nonneg_of_mul_nonneg_right this hr
  have n2 : 0 ≤ Real.sin (b - g) := by
    have h1l : 0 ≤ 1 - l := by linarith
    have : 0 ≤ r * Real.sin (b - g) := by rw [e2]; positivity
    exact nonneg_of_mul_nonneg_right this hr
  have n3 : a = b → 0 < Real.cos (g - a) := by
    intro h
    have : 0 < r * Real.cos (g - a) := by
      rw [e3, h, sub_self, Real.cos_zero]
      rcases hl0.lt_or_eq with hl | hl
      · have := mul_pos hl h2
        have : 0 ≤ (1 - l) * r1 := mul_nonneg (by linarith) h1.le
        linarith
      · rw [← hl]; linarith
    exact (mul_pos_iff_of_pos_left hr).1 this
  have neg : ∀ x, Real.pi < x → x < 2 * Real.pi → Real.sin x < 0 := by
    intro x hx1 hx2
    have : 0 < Real.sin (x - Real.pi) := Real.sin_pos_of_pos_of_lt_pi (by linarith) (by linarith)
    rw [Real.sin_sub_pi] at this; linarith
  have neg' : ∀ x, -Real.pi < x → x < 0 → Real.sin x < 0 := fun x => fun h0 h1 => Real.sin_neg_of_neg_of_neg_pi_lt h1 h0
  constructor
  · by_contra h
    have h := not_le.1 h
    have h3 : g - a ≤ -Real.pi := by
      by_contra h4
      exact absurd (neg' (g - a) (not_le.1 h4) (by linarith)) (not_lt.2 n1)
    have h5 : b - g ≤ Real.pi := by
      by_contra h4
      exact absurd (neg (b - g) (not_le.1 h4) (by linarith)) (not_lt.2 n2)
    have hEq : a = b := by linarith
    have hga : g - a = -Real.pi := by linarith
    have := n3 hEq
    rw [hga, Real.cos_neg, Real.cos_pi] at this; linarith
  · by_contra h
    have h := not_le.1 h
    have h3 : b - g ≤ -Real.pi := by
      by_contra h4
      exact absurd (neg' (b - g) (not_le.1 h4) (by linarith)) (not_lt.2 n2)
    have h5 : g - a ≤ Real.pi := by
      by_contra h4
      exact absurd (neg (g - a) (not_le.1 h4) (by linarith)) (not_lt.2 n1)
    have hEq : a = b := by linarith
    have hga : g - a = Real.pi := by linarith
    have := n3 hEq
    rw [hga, Real.cos_pi] at this; linarith

/-- polar angle of a point on a ray -/
theorem arctan2_ray {a rho : ℝ} (h : 0 < rho) (h0 : -Real.pi < a) (h1 : a ≤ Real.pi) :
    arctan2 (rho * Real.sin a) (rho * Real.cos a) = a := by
  refine Eq.trans ?_ (Complex.arg_mul_cos_add_sin_mul_I h (θ := a) ⟨h0, h1⟩)
  simp only [arctan2]
  congr 1
  apply Complex.ext <;> simp [Complex.cos_ofReal_re, Complex.sin_ofReal_re]

/-- every point is on the ray at its polar angle -/
theorem onRay_arctan2 {P : ℝ × ℝ} (h : 0 < dist2 P) : OnRay (arctan2 P.2 P.1) P := by
  refine ⟨√(dist2 P), Real.sqrt_pos.2 h, ?_, ?_⟩
  all_goals
    have hn : ‖(⟨P.1, P.2⟩ : ℂ)‖ = √(dist2 P) := by
      rw [Complex.norm_def, Complex.normSq_mk, dist2]; congr 1; ring
    rw [← hn]
  · exact (Complex.norm_mul_cos_arg (⟨P.1, P.2⟩ : ℂ)).symm
  · exact (Complex.norm_mul_sin_arg (⟨P.1, P.2⟩ : ℂ)).symm

theorem arctan2_mem (y x : ℝ) : -Real.pi < arctan2 y x ∧ arctan2 y x ≤ Real.pi :=
  ⟨Complex.neg_pi_lt_arg _, Complex.arg_le_pi _⟩

/-- the time at which the neutron leaves a cylinder around its start -/
noncomputable def leave (ev : Event ℝ) (r : ℝ) : ℝ :=
  (√(4 * (ev.r.z * ev.v.z + ev.r.x * ev.v.x) ^ 2 + 4 * (ev.v.z ^ 2 + ev.v.x ^ 2) * (r ^ 2 - dist2 (ev.r.z, ev.r.x))) -
    2 * (ev.r.z * ev.v.z + ev.r.x * ev.v.x)) / 2 / (ev.v.z ^ 2 + ev.v.x ^ 2)

theorem leave_spec {ev : Event ℝ} {r : ℝ} (h : dist2 (ev.r.z, ev.r.x) < r ^ 2) (hA : 0 < ev.v.z ^ 2 + ev.v.x ^ 2) :
    0 < leave ev r ∧ (∀ t, 0 ≤ t → (r ^ 2 ≤ dist2 (track ev t) ↔ leave ev r ≤ t)) ∧
      (∀ t, 0 ≤ t → (dist2 (track ev t) ≤ r ^ 2 ↔ t ≤ leave ev r)) ∧
      0 < (ev.v.z ^ 2 + ev.v.x ^ 2) * leave ev r + (ev.r.z * ev.v.z + ev.r.x * ev.v.x) := by
  set A := ev.v.z ^ 2 + ev.v.x ^ 2 with hAdef
  set B := ev.r.z * ev.v.z + ev.r.x * ev.v.x with hBdef
  set c0 := dist2 (ev.r.z, ev.r.x) with hc
  set D := √(4 * B ^ 2 + 4 * A * (r ^ 2 - c0)) with hD
  have hpos : 0 < 4 * A * (r ^ 2 - c0) := by
    have : 0 < r ^ 2 - c0 := by linarith
    positivity
  have hD2 : D ^ 2 = 4 * B ^ 2 + 4 * A * (r ^ 2 - c0) := Real.sq_sqrt (by positivity)
  have hDn : 0 ≤ D := Real.sqrt_nonneg _
  have hl : leave ev r = (D - 2 * B) / 2 / A := rfl
  have hAl : 2 * A * leave ev r = D - 2 * B := by rw [hl]; field_simp
  have habs : |2 * B| < D := by
    apply abs_lt_of_sq_lt_sq _ hDn
    nlinarith
  obtain ⟨hb1, hb2⟩ := abs_lt.1 habs
  have hg : ∀ t, 4 * A * (dist2 (track ev t) - r ^ 2) = (2 * A * t + 2 * B) ^ 2 - D ^ 2 := by
    intro t
    rw [hD2]
    simp only [dist2, track, hc, hAdef, hBdef]; ring
  have hAp : 0 < 2 * A := by linarith
  refine ⟨?_, ?_, ?_, by linarith⟩
  · rw [hl]; apply div_pos _ hA; linarith
  · intro t ht
    have h1 : 0 ≤ A * t := mul_nonneg hA.le ht
    have h2 : -D < 2 * A * t + 2 * B := by linarith
    constructor
    · intro hle
      have h3 : 0 ≤ (2 * A * t + 2 * B) ^ 2 - D ^ 2 := by rw [← hg]; apply mul_nonneg <;> linarith
      have h4 : D ≤ 2 * A * t + 2 * B := by nlinarith
      have h5 : 2 * A * leave ev r ≤ 2 * A * t := by linarith
      exact le_of_mul_le_mul_left h5 hAp
    · intro hle
      have h5 := mul_le_mul_of_nonneg_left hle hAp.le
      have h4 : D ≤ 2 * A * t + 2 * B := by linarith
      have h3 : 0 ≤ (2 * A * t + 2 * B) ^ 2 - D ^ 2 := by nlinarith
      rw [← hg] at h3
      have := nonneg_of_mul_nonneg_right h3 (by linarith)
      linarith
  · intro t ht
    have h1 : 0 ≤ A * t := mul_nonneg hA.le ht
    have h2 : -D < 2 * A * t + 2 * B := by linarith
    constructor
    · intro hle
      have h3 : (2 * A * t + 2 * B) ^ 2 - D ^ 2 ≤ 0 := by
        rw [← hg]; apply mul_nonpos_of_nonneg_of_nonpos <;> linarith
      have h4 : 2 * A * t + 2 * B ≤ D := by nlinarith
      have h5 : 2 * A * t ≤ 2 * A * leave ev r := by linarith
      exact le_of_mul_le_mul_left h5 hAp
    · intro hle
      have h5 := mul_le_mul_of_nonneg_left hle hAp.le
      have h4 : 2 * A * t + 2 * B ≤ D := by linarith
      have h3 : (2 * A * t + 2 * B) ^ 2 - D ^ 2 ≤ 0 := by nlinarith
      rw [← hg] at h3
      have := nonpos_of_mul_nonpos_right h3 (by linarith)
      linarith

theorem intersect_ok {ev : Event ℝ} {r : ℝ} (h : dist2 (ev.r.z, ev.r.x) < r ^ 2) (hA : 0 < ev.v.z ^ 2 + ev.v.x ^ 2) :
    intersectCylinder ⟨ev.r.z, ev.r.x, ev.r.y⟩ ⟨ev.v.z, ev.v.x, ev.v.y⟩ r =
      some ⟨(track ev (leave ev r)).1, (track ev (leave ev r)).2, heightAt ev (leave ev r)⟩ := by
  have e1 : 2 * (ev.r.z * ev.v.z + ev.r.x * ev.v.x) * (2 * (ev.r.z * ev.v.z + ev.r.x * ev.v.x)) -
      4 * (ev.v.z * ev.v.z + ev.v.x * ev.v.x) * (ev.r.z * ev.r.z + ev.r.x * ev.r.x - r * r) =
      4 * (ev.r.z * ev.v.z + ev.r.x * ev.v.x) ^ 2 + 4 * (ev.v.z ^ 2 + ev.v.x ^ 2) * (r ^ 2 - dist2 (ev.r.z, ev.r.x)) := by
    simp only [dist2]; ring
  have hpos : 0 ≤ 4 * (ev.r.z * ev.v.z + ev.r.x * ev.v.x) ^ 2 + 4 * (ev.v.z ^ 2 + ev.v.x ^ 2) * (r ^ 2 - dist2 (ev.r.z, ev.r.x)) := by
    have : 0 < r ^ 2 - dist2 (ev.r.z, ev.r.x) := by linarith
    positivity
  have hA' : ev.v.z * ev.v.z + ev.v.x * ev.v.x ≠ 0 := by
    have : ev.v.z * ev.v.z + ev.v.x * ev.v.x = ev.v.z ^ 2 + ev.v.x ^ 2 := by ring
    rw [this]; exact hA.ne'
  have e2 : ev.v.z * ev.v.z + ev.v.x * ev.v.x = ev.v.z ^ 2 + ev.v.x ^ 2 := by ring
  simp only [intersectCylinder, e1, sqrtD_ok hpos, divD_ok hA', Option.bind_eq_bind, Option.bind_some, Option.some.injEq]
  simp only [track, heightAt, leave, e2]

/-- dist2 on the cylinder -/
theorem at_leave {ev : Event ℝ} {r : ℝ} (h : dist2 (ev.r.z, ev.r.x) < r ^ 2) (hA : 0 < ev.v.z ^ 2 + ev.v.x ^ 2) :
    dist2 (track ev (leave ev r)) = r ^ 2 := by
  obtain ⟨h0, h1, h2, -⟩ := leave_spec h hA
  exact le_antisymm ((h2 _ h0.le).2 le_rfl) ((h1 _ h0.le).2 le_rfl)

theorem eq_leave {ev : Event ℝ} {r : ℝ} (h : dist2 (ev.r.z, ev.r.x) < r ^ 2) (hA : 0 < ev.v.z ^ 2 + ev.v.x ^ 2)
    {t : ℝ} (ht : 0 ≤ t) (he : dist2 (track ev t) = r ^ 2) : t = leave ev r := by
  obtain ⟨h0, h1, h2, -⟩ := leave_spec h hA
  exact le_antisymm ((h2 t ht).1 he.le) ((h1 t ht).1 he.ge)

/-- what the proof needs to know about the numbering of channels -/
structure Numbers (S : Set ℝ) (lo hi : ℝ) (ch : ℝ → ℤ) : Prop where
  first : lo ∈ S
  range : ∀ b ∈ S, lo ≤ b ∧ b ≤ hi
  sep : ∀ x y, lo < x → x < y → y < hi → x ∉ S → y ∉ S → (ch x = ch y ↔ ¬ ∃ b ∈ S, x < b ∧ b < y)
  narrow : ∀ x y, lo < x → x < y → y < hi → x ∉ S → y ∉ S → y - x ≥ Real.pi → ∃ b ∈ S, x < b ∧ b < y

theorem numbers_even {a b d : ℝ} (h : (Blades.even a b d).Proper) :
    Numbers (Blades.even a b d).angles a b (Blades.even a b d).channel := by
  obtain ⟨hab, hd, hdp⟩ := h
  have fl : ∀ x, x ≤ b → a < x → a + ⌊(x - a) / d⌋ * d ≤ x ∧ x < a + (⌊(x - a) / d⌋ + 1) * d ∧ 0 ≤ ⌊(x - a) / d⌋ := by
    intro x _ hx
    have h1 := Int.floor_le ((x - a) / d)
    have h2 := Int.lt_floor_add_one ((x - a) / d)
    rw [le_div_iff₀ hd] at h1
    rw [div_lt_iff₀ hd] at h2
    exact ⟨by linarith, by linarith, Int.floor_nonneg.2 (div_nonneg (by linarith) hd.le)⟩
  refine ⟨⟨0, by simp, hab.le⟩, ?_, ?_, ?_⟩
  · rintro _ ⟨j, rfl, hj⟩
    exact ⟨by have : 0 ≤ (j : ℝ) * d := by positivity
              linarith, hj⟩
  · intro x y hx hxy hy hxS hyS
    obtain ⟨x1, x2, x3⟩ := fl x (by linarith) hx
    obtain ⟨y1, y2, y3⟩ := fl y hy.le (by linarith)
    simp only [Blades.channel]
    constructor
    · rintro he ⟨_, ⟨j, rfl, hj⟩, hb1, hb2⟩
      rw [← he] at y2
      have hj1 : (⌊(x - a) / d⌋ : ℝ) * d < j * d := by linarith
      have hj2 : (j : ℝ) * d < (⌊(x - a) / d⌋ + 1) * d := by linarith
      have h1 := lt_of_mul_lt_mul_right hj1 hd.le
      have h2 := lt_of_mul_lt_mul_right hj2 hd.le
      have h1' : ⌊(x - a) / d⌋ < (j : ℤ) := by exact_mod_cast h1
      have h2' : (j : ℤ) < ⌊(x - a) / d⌋ + 1 := by exact_mod_cast h2
      omega
    · intro hno
      by_contra hne
      have hmono : ⌊(x - a) / d⌋ ≤ ⌊(y - a) / d⌋ := Int.floor_le_floor (by gcongr)
      obtain ⟨n, hn⟩ := Int.eq_ofNat_of_zero_le y3
      have hlt : ⌊(x - a) / d⌋ + 1 ≤ (n : ℤ) := by omega
      have hlt' : (⌊(x - a) / d⌋ : ℝ) + 1 ≤ (n : ℝ) := by exact_mod_cast hlt
      have hyn : a + (n : ℝ) * d ≤ y := by
        have : ((⌊(y - a) / d⌋ : ℤ) : ℝ) = n := by rw [hn]; simp
        rw [this] at y1; exact y1
      have hmem : a + (n : ℝ) * d ∈ (Blades.even a b d).angles := ⟨n, rfl, by linarith⟩
      refine hno ⟨_, hmem, ?_, lt_of_le_of_ne hyn fun h => hyS (h ▸ hmem)⟩
      have := mul_le_mul_of_nonneg_right hlt' hd.le
      linarith
  · intro x y hx hxy hy hxS hyS hge
    obtain ⟨x1, x2, x3⟩ := fl x (by linarith) hx
    obtain ⟨n, hn⟩ := Int.eq_ofNat_of_zero_le x3
    have hc : ((⌊(x - a) / d⌋ : ℤ) : ℝ) = n := by rw [hn]; simp
    rw [hc] at x1 x2
    have hle : a + ((n : ℝ) + 1) * d ≤ y := by
      have : a + (n : ℝ) * d < x := lt_of_le_of_ne x1 fun h => hxS ⟨n, h.symm, by linarith⟩
      have : a + ((n : ℝ) + 1) * d = a + (n : ℝ) * d + d := by ring
      linarith
    have hmem : a + ((n : ℝ) + 1) * d ∈ (Blades.even a b d).angles := ⟨n + 1, by push_cast; rfl, by linarith⟩
    exact ⟨_, hmem, x2, lt_of_le_of_ne hle fun h => hyS (h ▸ hmem)⟩

theorem numbers_list {l : List ℝ} (h : (Blades.list l).Proper) :
    Numbers (Blades.list l).angles (l.headD 0) (l.getLastD 0) (Blades.list l).channel := by
  obtain ⟨hs, hlen, hn⟩ := h
  have hne : l ≠ [] := by rintro rfl; simp at hlen
  refine ⟨?_, ?_, ?_, fun x y hx hxy hy _ _ hge => hn x y hxy hge hx hy⟩
  · cases l with
    | nil => exact absurd rfl hne
    | cons a l => exact List.mem_cons_self
  · intro b hb
    have hb : b ∈ l := hb
    constructor
    · cases l with
      | nil => exact absurd rfl hne
      | cons a l =>
        simp only [List.headD_cons]
        rcases List.mem_cons.1 hb with rfl | hb
        · exact le_rfl
        · exact ((List.pairwise_cons.1 hs).1 b hb).le
    · rw [List.getLastD_eq_getLast?, List.getLast?_eq_some_getLast hne, Option.getD_some]
      have := List.dropLast_append_getLast hne
      rw [← this] at hb hs
      rcases List.mem_append.1 hb with hb | hb
      · exact ((List.pairwise_append.1 hs).2.2 b hb _ (by simp)).le
      · simp only [List.mem_singleton] at hb; exact hb.le
  · intro x y hx hxy hy hxS hyS
    have hcount : ∀ (m : List ℝ), ((m.filter fun b => decide (b ≤ x)).length = (m.filter fun b => decide (b ≤ y)).length ↔
        ¬ ∃ b ∈ m, x < b ∧ b ≤ y) := by
      intro m
      have hle : ∀ m : List ℝ, (m.filter fun b => decide (b ≤ x)).length ≤ (m.filter fun b => decide (b ≤ y)).length := by
        intro m
        rw [← List.countP_eq_length_filter, ← List.countP_eq_length_filter]
        apply List.countP_mono_left
        intro b _ hb
        simp only [decide_eq_true_eq] at hb ⊢; linarith
      induction m with
      | nil => simp
      | cons b m ih =>
        have := hle m
        by_cases h1 : b ≤ x
        · have h2 : b ≤ y := by linarith
          have h3 : ¬ x < b := not_lt.2 h1
          simp only [List.filter_cons, h1, h2, decide_true, if_true, List.length_cons, Nat.add_right_cancel_iff, ih,
            List.exists_mem_cons_iff, h3, false_and, false_or]
        · by_cases h2 : b ≤ y
          · simp only [List.filter_cons, h1, h2, decide_true, decide_false, if_true, List.length_cons,
              List.exists_mem_cons_iff, not_le.1 h1, and_self, true_or, not_true, iff_false]
            simp only [Bool.false_eq_true, if_false]
            omega
          · simp only [List.filter_cons, h1, h2, decide_false, Bool.false_eq_true, if_false, ih, List.exists_mem_cons_iff,
              and_false, false_or]
    simp only [Blades.channel, Nat.cast_inj, hcount l]
    constructor
    · rintro hno ⟨b, hb, h1, h2⟩
      exact hno ⟨b, hb, h1, h2.le⟩
    · rintro hno ⟨b, hb, h1, h2⟩
      exact hno ⟨b, hb, h1, lt_of_le_of_ne h2 fun h => hyS (h ▸ hb)⟩

theorem track_mix (ev : Event ℝ) {T1 T2 : ℝ} (l : ℝ) :
    (track ev (T1 + l * (T2 - T1))).1 = (1 - l) * (track ev T1).1 + l * (track ev T2).1 ∧
    (track ev (T1 + l * (T2 - T1))).2 = (1 - l) * (track ev T1).2 + l * (track ev T2).2 := by
  simp only [track]; constructor <;> ring

/-- a ray between those at the two cylinders is crossed in between -/
theorem hit_of {c : Collimator} {o : ℝ} {ev : Event ℝ} (h : Starts c ev) {a b g : ℝ} (hS : ∃ β ∈ c.blades.angles, OnRay (β - o) = OnRay g)
    (ha : OnRay a (track ev (leave ev c.radius1))) (hb : OnRay b (track ev (leave ev c.radius2)))
    (hg : (a < g ∧ g < b ∧ b - a < Real.pi) ∨ (b < g ∧ g < a ∧ a - b < Real.pi)) : Hits c o ev := by
  have hin2 : dist2 (ev.r.z, ev.r.x) < c.radius2 ^ 2 := by have := h.inside; have := h.pos; have := h.lt; nlinarith
  obtain ⟨t1p, g1, -, -⟩ := leave_spec h.inside h.moves
  obtain ⟨t2p, -, g2, -⟩ := leave_spec hin2 h.moves
  have hT : leave ev c.radius1 ≤ leave ev c.radius2 := by
    rw [← g1 _ t2p.le, at_leave hin2 h.moves]; have := h.pos; have := h.lt; nlinarith
  obtain ⟨r1, hr1, x1, y1⟩ := ha
  obtain ⟨r2, hr2, x2, y2⟩ := hb
  have fin : ∀ l r : ℝ, 0 < l → l < 1 → 0 < r → (1 - l) * (track ev (leave ev c.radius1)).1 + l * (track ev (leave ev c.radius2)).1 = r * Real.cos g →
      (1 - l) * (track ev (leave ev c.radius1)).2 + l * (track ev (leave ev c.radius2)).2 = r * Real.sin g → Hits c o ev := by
    intro l r l0 l1 hr hx hy
    obtain ⟨e1, e2⟩ := track_mix ev (T1 := leave ev c.radius1) (T2 := leave ev c.radius2) l
    set t := leave ev c.radius1 + l * (leave ev c.radius2 - leave ev c.radius1) with ht
    have m1 : leave ev c.radius1 ≤ t := by have := mul_nonneg l0.le (sub_nonneg.2 hT); linarith
    have m2 : t ≤ leave ev c.radius2 := by
      have := mul_nonneg (sub_nonneg.2 l1.le) (sub_nonneg.2 hT)
      have : t = leave ev c.radius2 - (1 - l) * (leave ev c.radius2 - leave ev c.radius1) := by rw [ht]; ring
      linarith
    have t0 : 0 ≤ t := t1p.le.trans m1
    obtain ⟨β, hβ, hray⟩ := hS
    refine ⟨t, t0, (g1 t t0).2 m1, (g2 t t0).2 m2, β, hβ, ?_⟩
    rw [hray]
    exact ⟨r, hr, by rw [e1, hx], by rw [e2, hy]⟩
  rcases hg with ⟨k1, k2, k3⟩ | ⟨k1, k2, k3⟩
  · obtain ⟨l, r, l0, l1, hr, hx, hy⟩ := crosses hr1 hr2 k1 k2 k3
    exact fin l r l0 l1 hr (by rw [x1, x2, hx]) (by rw [y1, y2, hy])
  · obtain ⟨l, r, l0, l1, hr, hx, hy⟩ := crosses hr2 hr1 k1 k2 k3
    exact fin (1 - l) r (by linarith) (by linarith) hr (by rw [x1, x2, ← hx]; ring) (by rw [y1, y2, ← hy]; ring)

theorem onRay_add (g : ℝ) : OnRay (g + 2 * Real.pi) = OnRay g := by
  funext P
  simp only [OnRay, Real.cos_add_two_pi, Real.sin_add_two_pi]

/-- the directions at the two cylinders are not opposite -/
theorem not_opposite {c : Collimator} {ev : Event ℝ} (h : Starts c ev) {a b : ℝ}
    (ha : OnRay a (track ev (leave ev c.radius1))) (hb : OnRay b (track ev (leave ev c.radius2))) :
    Real.cos (b - a) ≠ -1 := by
  intro hc
  have hin2 : dist2 (ev.r.z, ev.r.x) < c.radius2 ^ 2 := by have := h.inside; have := h.pos; have := h.lt; nlinarith
  obtain ⟨t1p, g1, -, gd⟩ := leave_spec h.inside h.moves
  obtain ⟨t2p, -, g2, -⟩ := leave_spec hin2 h.moves
  have hT : leave ev c.radius1 ≤ leave ev c.radius2 := by
    rw [← g1 _ t2p.le, at_leave hin2 h.moves]; have := h.pos; have := h.lt; nlinarith
  obtain ⟨r1, hr1, x1, y1⟩ := ha
  obtain ⟨r2, hr2, x2, y2⟩ := hb
  have e1 : (track ev (leave ev c.radius1)).1 * (track ev (leave ev c.radius2)).1 +
      (track ev (leave ev c.radius1)).2 * (track ev (leave ev c.radius2)).2 = - (r1 * r2) := by
    rw [x1, x2, y1, y2]; rw [Real.cos_sub] at hc; linear_combination r1 * r2 * hc
  have e2 : (track ev (leave ev c.radius1)).1 * (track ev (leave ev c.radius2)).1 +
      (track ev (leave ev c.radius1)).2 * (track ev (leave ev c.radius2)).2 = dist2 (track ev (leave ev c.radius1)) +
      (leave ev c.radius2 - leave ev c.radius1) * ((ev.v.z ^ 2 + ev.v.x ^ 2) * leave ev c.radius1 + (ev.r.z * ev.v.z + ev.r.x * ev.v.x)) := by
    simp only [track, dist2]; ring
  have h1 : 0 ≤ (leave ev c.radius2 - leave ev c.radius1) * ((ev.v.z ^ 2 + ev.v.x ^ 2) * leave ev c.radius1 + (ev.r.z * ev.v.z + ev.r.x * ev.v.x)) :=
    mul_nonneg (sub_nonneg.2 hT) gd.le
  have h2 : 0 ≤ dist2 (track ev (leave ev c.radius1)) := by simp only [dist2]; positivity
  have h3 : 0 < r1 * r2 := mul_pos hr1 hr2
  linarith

/-- the decision of the collimator in terms of the two crossings -/
theorem good_eq {c : Collimator} {u : ℝ} {ev : Event ℝ} (h : Starts c ev) :
    c.good u ev = true ↔ |heightAt ev (leave ev c.radius1)| < c.height1 / 2 ∧ |heightAt ev (leave ev c.radius2)| < c.height2 / 2 ∧
      (c.blades.min < arctan2 (track ev (leave ev c.radius1)).2 (track ev (leave ev c.radius1)).1 + c.oscillation * u ∧
       arctan2 (track ev (leave ev c.radius1)).2 (track ev (leave ev c.radius1)).1 + c.oscillation * u < c.blades.max) ∧
      (c.blades.min < arctan2 (track ev (leave ev c.radius2)).2 (track ev (leave ev c.radius2)).1 + c.oscillation * u ∧
       arctan2 (track ev (leave ev c.radius2)).2 (track ev (leave ev c.radius2)).1 + c.oscillation * u < c.blades.max) ∧
      c.blades.channel (arctan2 (track ev (leave ev c.radius1)).2 (track ev (leave ev c.radius1)).1 + c.oscillation * u) =
        c.blades.channel (arctan2 (track ev (leave ev c.radius2)).2 (track ev (leave ev c.radius2)).1 + c.oscillation * u) := by
  have hin2 : dist2 (ev.r.z, ev.r.x) < c.radius2 ^ 2 := by have := h.inside; have := h.pos; have := h.lt; nlinarith
  simp only [Collimator.good, intersect_ok h.inside h.moves, intersect_ok hin2 h.moves, decide_eq_true_eq, abs_lt, gt_iff_lt]
  rw [neg_div, neg_div]
  tauto

/-- the theorem for a numbering of the channels -/
theorem good_iff {c : Collimator} {u : ℝ} {ev : Event ℝ} (h : Starts c ev)
    (hN : Numbers c.blades.angles c.blades.min c.blades.max c.blades.channel)
    (hlo : -Real.pi ≤ c.blades.min - c.oscillation * u) (hhi : c.blades.max - c.oscillation * u ≤ Real.pi)
    (hedge : NotOnEdge c (c.oscillation * u) ev) :
    c.good u ev = true ↔ Within c ev ∧ InSector c (c.oscillation * u) ev ∧ ¬ Hits c (c.oscillation * u) ev := by
  set o := c.oscillation * u with ho
  have hin2 : dist2 (ev.r.z, ev.r.x) < c.radius2 ^ 2 := by have := h.inside; have := h.pos; have := h.lt; nlinarith
  have hpi := Real.pi_pos
  obtain ⟨t1p, g1, -, gd⟩ := leave_spec h.inside h.moves
  obtain ⟨t2p, -, g2, -⟩ := leave_spec hin2 h.moves
  have d1 := at_leave h.inside h.moves
  have d2 := at_leave hin2 h.moves
  rw [good_eq h]
  set T1 := leave ev c.radius1 with hT1
  set T2 := leave ev c.radius2 with hT2
  set a := arctan2 (track ev T1).2 (track ev T1).1 with ha
  set b := arctan2 (track ev T2).2 (track ev T2).1 with hb
  have hr1 : 0 < c.radius1 ^ 2 := by have := h.pos; positivity
  have hr2 : 0 < c.radius2 ^ 2 := by have := h.pos; have := h.lt; nlinarith
  have ra : OnRay a (track ev T1) := onRay_arctan2 (by rw [d1]; exact hr1)
  have rb : OnRay b (track ev T2) := onRay_arctan2 (by rw [d2]; exact hr2)
  have hT : T1 ≤ T2 := by
    rw [← g1 _ t2p.le, d2]; have := h.pos; have := h.lt; nlinarith
  have aS : a + o ∉ c.blades.angles := fun hm => hedge T1 t1p.le (.inl d1) _ hm (by rw [add_sub_cancel_right]; exact ra)
  have bS : b + o ∉ c.blades.angles := fun hm => hedge T2 t2p.le (.inr d2) _ hm (by rw [add_sub_cancel_right]; exact rb)
  have within_iff : Within c ev ↔ |heightAt ev T1| < c.height1 / 2 ∧ |heightAt ev T2| < c.height2 / 2 := by
    constructor
    · intro hw; exact ⟨(hw T1 t1p.le).1 d1, (hw T2 t2p.le).2 d2⟩
    · rintro ⟨w1, w2⟩ t ht
      exact ⟨fun he => by rw [eq_leave h.inside h.moves ht he]; exact w1,
        fun he => by rw [eq_leave hin2 h.moves ht he]; exact w2⟩
  have angle : ∀ x P, OnRay (x - o) P → c.blades.min < x → x < c.blades.max → arctan2 P.2 P.1 = x - o := by
    rintro x P ⟨rho, hr, hx, hy⟩ h1 h2
    rw [hx, hy]
    exact arctan2_ray hr (by linarith) (by linarith)
  have sector_iff : InSector c o ev ↔ (c.blades.min < a + o ∧ a + o < c.blades.max) ∧ (c.blades.min < b + o ∧ b + o < c.blades.max) := by
    constructor
    · intro hs
      obtain ⟨x, hx, x1, x2⟩ := hs T1 t1p.le (.inl d1)
      obtain ⟨y, hy, y1, y2⟩ := hs T2 t2p.le (.inr d2)
      have e1 := angle x _ hx x1 x2
      have e2 := angle y _ hy y1 y2
      rw [← ha] at e1; rw [← hb] at e2
      rw [e1, e2, sub_add_cancel, sub_add_cancel]
      exact ⟨⟨x1, x2⟩, y1, y2⟩
    · rintro ⟨w1, w2⟩ t ht (he | he)
      · refine ⟨a + o, ?_, w1⟩
        rw [eq_leave h.inside h.moves ht he, add_sub_cancel_right]; exact ra
      · refine ⟨b + o, ?_, w2⟩
        rw [eq_leave hin2 h.moves ht he, add_sub_cancel_right]; exact rb
  have main : (c.blades.min < a + o ∧ a + o < c.blades.max) → (c.blades.min < b + o ∧ b + o < c.blades.max) →
      (c.blades.channel (a + o) = c.blades.channel (b + o) ↔ ¬ Hits c o ev) := by
    rintro ⟨a1, a2⟩ ⟨b1, b2⟩
    have hnop := not_opposite h ra rb
    -- blades between two angles
    have sym : ∀ x y, c.blades.min < x + o → y + o < c.blades.max → x < y → x + o ∉ c.blades.angles → y + o ∉ c.blades.angles →
        OnRay x (track ev T1) ∧ OnRay y (track ev T2) ∨ OnRay y (track ev T1) ∧ OnRay x (track ev T2) →
        (∃ β ∈ c.blades.angles, x + o < β ∧ β < y + o) → Real.cos (y - x) ≠ -1 → Hits c o ev := by
      intro x y x1 y2 hxy _ _ hor ⟨β, hβ, k1, k2⟩ hcos
      rcases lt_trichotomy (y - x) Real.pi with hlt | heq | hgt
      · rcases hor with ⟨ox, oy⟩ | ⟨oy, ox⟩
        · exact hit_of h ⟨β, hβ, rfl⟩ ox oy (.inl ⟨by linarith, by linarith, hlt⟩)
        · exact hit_of h ⟨β, hβ, rfl⟩ oy ox (.inr ⟨by linarith, by linarith, hlt⟩)
      · rw [heq, Real.cos_pi] at hcos; exact absurd rfl hcos
      · -- the short way round passes the first blade
        have hm := hN.first
        have ox' : ∀ P, OnRay x P → OnRay (x + 2 * Real.pi) P := fun P hP => by rw [onRay_add]; exact hP
        rcases hor with ⟨ox, oy⟩ | ⟨oy, ox⟩
        · exact hit_of h ⟨_, hm, (onRay_add _).symm⟩ (ox' _ ox) oy (.inr ⟨by linarith, by linarith, by linarith⟩)
        · exact hit_of h ⟨_, hm, (onRay_add _).symm⟩ oy (ox' _ ox) (.inl ⟨by linarith, by linarith, by linarith⟩)
    have nohit : (∀ x y, (x = a ∧ y = b ∨ x = b ∧ y = a) → x ≤ y → (¬ ∃ β ∈ c.blades.angles, x + o < β ∧ β < y + o) →
        y - x < Real.pi → ¬ Hits c o ev) := by
      rintro x y hxy hle hno hlt ⟨t, t0, m1, m2, β, hβ, rho, hrho, hx, hy⟩
      have hβr := hN.range β hβ
      have k1 := (g1 t t0).1 m1
      have k2 := (g2 t t0).1 m2
      have hTT : T1 < T2 := by
        refine lt_of_le_of_ne hT fun he => ?_
        rw [← he, d1] at d2
        have := h.pos; have := h.lt
        nlinarith
      obtain ⟨l, hl0, hl1, hl⟩ : ∃ l, 0 ≤ l ∧ l ≤ 1 ∧ t = T1 + l * (T2 - T1) := by
        have hp : 0 < T2 - T1 := by linarith
        refine ⟨(t - T1) / (T2 - T1), div_nonneg (by linarith) hp.le, (div_le_one hp).2 (by linarith), ?_⟩
        rw [div_mul_cancel₀ _ hp.ne']; ring
      obtain ⟨e1, e2⟩ := track_mix ev (T1 := T1) (T2 := T2) l
      rw [← hl] at e1 e2
      obtain ⟨p1, hp1, px, py⟩ := ra
      obtain ⟨p2, hp2, qx, qy⟩ := rb
      have res : x ≤ β - o ∧ β - o ≤ y := by
        rcases hxy with ⟨rfl, rfl⟩ | ⟨rfl, rfl⟩
        · exact between hp1 hp2 hrho (by linarith) (by linarith) hle hlt (by linarith) (by linarith) hl0 hl1
            (by rw [← px, ← qx, ← e1, hx]) (by rw [← py, ← qy, ← e2, hy])
        · exact between (l := 1 - l) hp2 hp1 hrho (by linarith) (by linarith) hle hlt (by linarith) (by linarith) (by linarith) (by linarith)
            (by rw [← px, ← qx, ← hx, e1]; ring) (by rw [← py, ← qy, ← hy, e2]; ring)
      have nx : β - o ≠ x := by
        intro he; apply_fun (· + o) at he; simp only [sub_add_cancel] at he
        rcases hxy with ⟨rfl, rfl⟩ | ⟨rfl, rfl⟩
        · exact aS (he ▸ hβ)
        · exact bS (he ▸ hβ)
      have ny : β - o ≠ y := by
        intro he; apply_fun (· + o) at he; simp only [sub_add_cancel] at he
        rcases hxy with ⟨rfl, rfl⟩ | ⟨rfl, rfl⟩
        · exact bS (he ▸ hβ)
        · exact aS (he ▸ hβ)
      exact hno ⟨β, hβ, by have := lt_of_le_of_ne res.1 nx.symm; linarith, by have := lt_of_le_of_ne res.2 ny; linarith⟩
    rcases lt_trichotomy a b with hab | hab | hab
    · rw [hN.sep (a + o) (b + o) a1 (by linarith) b2 aS bS]
      constructor
      · intro hno
        refine nohit a b (.inl ⟨rfl, rfl⟩) hab.le hno ?_
        by_contra hge
        exact hno (hN.narrow (a + o) (b + o) a1 (by linarith) b2 aS bS (by linarith [not_lt.1 hge]))
      · intro hh hex
        exact hh (sym a b a1 b2 hab aS bS (.inl ⟨ra, rb⟩) hex hnop)
    · rw [hab]
      refine ⟨fun _ => ?_, fun _ => rfl⟩
      refine nohit a b (.inl ⟨rfl, rfl⟩) hab.le ?_ (by linarith)
      rintro ⟨β, -, k1, k2⟩; linarith
    · rw [eq_comm, hN.sep (b + o) (a + o) b1 (by linarith) a2 bS aS]
      constructor
      · intro hno
        refine nohit b a (.inr ⟨rfl, rfl⟩) hab.le hno ?_
        by_contra hge
        exact hno (hN.narrow (b + o) (a + o) b1 (by linarith) a2 bS aS (by linarith [not_lt.1 hge]))
      · intro hh hex
        refine hh (sym b a b1 a2 hab bS aS (.inr ⟨ra, rb⟩) hex ?_)
        rwa [← neg_sub, Real.cos_neg]
  rw [within_iff, sector_iff]
  constructor
  · rintro ⟨w1, w2, s1, s2, hc⟩
    exact ⟨⟨w1, w2⟩, ⟨s1, s2⟩, (main s1 s2).1 hc⟩
  · rintro ⟨⟨w1, w2⟩, ⟨s1, s2⟩, hh⟩
    exact ⟨w1, w2, s1, s2, (main s1 s2).2 hh⟩

end Verif.Sources
