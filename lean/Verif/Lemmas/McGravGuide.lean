import Verif.Spec.McGravGuide
import Verif.Lemmas.McGuide
import Verif.Lemmas.McBender
/-!
Lemmas for the guide with gravity of McStas.
-/

namespace Verif.McGrav
open McStas McGuide McBend Kinem Solid Homog Flight

/-! ### second order equations -/

theorem cross_up {A B C τ : ℝ} (hτ : 0 ≤ τ) (h0 : C ≤ 0) (h1 : 0 < A * τ ^ 2 + B * τ + C) :
    ∃ s, 0 ≤ s ∧ s < τ ∧ A * s ^ 2 + B * s + C = 0 ∧ 0 ≤ 2 * A * s + B := by
  have hc : ContinuousOn (fun t : ℝ => A * t ^ 2 + B * t + C) (Set.Icc 0 τ) := by fun_prop
  obtain ⟨s, ⟨hs0, hs1⟩, hs⟩ := intermediate_value_Icc hτ hc (show (0:ℝ) ∈ Set.Icc _ _ from ⟨by simpa using h0, h1.le⟩)
  simp only at hs
  have hlt : s < τ := by
    rcases hs1.lt_or_eq with h | h
    · exact h
    · rw [h] at hs; linarith
  by_cases hd : 0 ≤ 2 * A * s + B
  · exact ⟨s, hs0, hlt, hs, hd⟩
  · push Not at hd
    have hf : A * τ ^ 2 + B * τ + C = (τ - s) * ((2 * A * s + B) + A * (τ - s)) := by linear_combination hs
    rw [hf] at h1
    have h2 : 0 < (2 * A * s + B) + A * (τ - s) := by
      by_contra h; push Not at h
      have := mul_nonpos_of_nonneg_of_nonpos (sub_nonneg.2 hs1) h
      linarith
    have hA : 0 < A := by
      by_contra h; push Not at h
      have := mul_nonpos_of_nonpos_of_nonneg h (sub_nonneg.2 hs1)
      linarith
    refine ⟨s - (2 * A * s + B) / A, ?_, ?_, ?_, ?_⟩
    · have : (2 * A * s + B) / A ≤ 0 := div_nonpos_of_nonpos_of_nonneg hd.le hA.le
      linarith
    · have : -(2 * A * s + B) / A < τ - s := by rw [div_lt_iff₀ hA]; linarith
      rw [neg_div] at this; linarith
    · have : A * (s - (2 * A * s + B) / A) ^ 2 + B * (s - (2 * A * s + B) / A) + C = A * s ^ 2 + B * s + C := by
        field_simp; ring
      rw [this, hs]
    · have : 2 * A * (s - (2 * A * s + B) / A) + B = -(2 * A * s + B) := by field_simp; ring
      rw [this]; linarith

theorem solve2_root {A B C t : ℝ} (hA : A = 0 ∨ 1e-10 ≤ |A|) (h : solve2 A B C = some t) (ht : 1e-10 < t) : A * t ^ 2 + B * t + C = 0 := by
  unfold solve2 at h
  split at h
  · next h1 =>
    have hA0 : A = 0 := hA.resolve_right (by linarith)
    split at h
    · next hB =>
      rw [← Option.some.inj h, hA0]; field_simp; ring
    · cases h
  · next h1 =>
    have hA0 : A ≠ 0 := by
      rintro rfl
      apply h1; norm_num
    simp only at h
    split at h
    · next hD =>
      have hsq := Real.sq_sqrt hD
      set sD := √(B * B - 4 * A * C)
      have r1 : A * ((-B + sD) / 2 / A) ^ 2 + B * ((-B + sD) / 2 / A) + C = 0 := by
        field_simp; linear_combination hsq
      have r2 : A * ((-B - sD) / 2 / A) ^ 2 + B * ((-B - sD) / 2 / A) + C = 0 := by
        field_simp; linear_combination hsq
      have k1 : (if |(-B + sD) / 2 / A| < 1e-10 then 0 else (-B + sD) / 2 / A) = t → t = (-B + sD) / 2 / A := by
        intro h; split at h
        · norm_num at ht; linarith
        · exact h.symm
      have k2 : (if |(-B - sD) / 2 / A| < 1e-10 then 0 else (-B - sD) / 2 / A) = t → t = (-B - sD) / 2 / A := by
        intro h; split at h
        · norm_num at ht; linarith
        · exact h.symm
      generalize (if |(-B + sD) / 2 / A| < 1e-10 then (0:ℝ) else (-B + sD) / 2 / A) = x1 at h k1
      generalize (if |(-B - sD) / 2 / A| < 1e-10 then (0:ℝ) else (-B - sD) / 2 / A) = x2 at h k2
      split at h
      · rw [k2 (Option.some.inj h)]; exact r2
      · split at h
        · rw [k1 (Option.some.inj h)]; exact r1
        · split at h
          · split at h
            · rw [k1 (Option.some.inj h)]; exact r1
            · rw [k2 (Option.some.inj h)]; exact r2
          · cases h
    · cases h

/-- the first time at which the wall is met is found -/
theorem solve2_first {A B C s : ℝ} (hA : A = 0 ∨ 1e-10 ≤ |A|) (h0 : C ≤ 0)
    (hg : ∀ u, 0 ≤ u → u ≤ 1e-10 → A * u ^ 2 + B * u + C = 0 → 2 * A * u + B < 0)
    (hs : 1e-10 < s) (hr : A * s ^ 2 + B * s + C = 0) : ∃ t, solve2 A B C = some t ∧ 1e-10 < t ∧ t ≤ s := by
  have hs0 : 0 < s := lt_trans (by norm_num) hs
  rcases hA with rfl | hA
  · have hB : B ≠ 0 := by
      rintro rfl
      have hC : C = 0 := by linarith
      have := hg 0 le_rfl (by norm_num) (by rw [hC]; ring)
      linarith
    refine ⟨s, ?_, hs, le_rfl⟩
    unfold solve2
    rw [if_pos (by norm_num), if_pos hB]
    congr 1
    rw [div_eq_iff hB]; linarith
  · have hA0 : A ≠ 0 := by
      rintro rfl; norm_num at hA
    have hD : 0 ≤ B * B - 4 * A * C := by
      have : B * B - 4 * A * C = (2 * A * s + B) ^ 2 := by linear_combination -4 * A * hr
      rw [this]; positivity
    have hsq := Real.sq_sqrt hD
    unfold solve2
    rw [if_neg (not_lt.2 hA)]
    simp only
    rw [if_pos hD]
    set sD := √(B * B - 4 * A * C)
    set d1 := (-B + sD) / 2 / A with hd1
    set d2 := (-B - sD) / 2 / A with hd2
    have r1 : A * d1 ^ 2 + B * d1 + C = 0 := by rw [hd1]; field_simp; linear_combination hsq
    have r2 : A * d2 ^ 2 + B * d2 + C = 0 := by rw [hd2]; field_simp; linear_combination hsq
    have hsum : A * (d1 + d2) = -B := by rw [hd1, hd2]; field_simp; ring
    have hprod : A * (d1 * d2) = C := by rw [hd1, hd2]; field_simp; linear_combination -hsq
    have hor : s = d1 ∨ s = d2 := by
      have : A * ((s - d1) * (s - d2)) = 0 := by linear_combination hr - s * hsum + hprod
      rcases mul_eq_zero.1 ((mul_eq_zero.1 this).resolve_left hA0) with h | h
      · left; linarith
      · right; linarith
    -- a smaller positive root is not within the tolerance
    have key : ∀ a b : ℝ, A * a ^ 2 + B * a + C = 0 → A * (a + b) = -B → A * (a * b) = C → 0 < a → a < b → 1e-10 < a := by
      intro a b ra hsum hprod ha hab
      by_contra hcon
      push Not at hcon
      have h1 := hg a ha.le hcon ra
      have h2 : 2 * A * a + B = A * (a - b) := by linear_combination hsum
      rw [h2] at h1
      have h3 : 0 < A := by
        by_contra h; push Not at h
        have := mul_nonneg_of_nonpos_of_nonpos h (by linarith : a - b ≤ 0)
        linarith
      have : 0 < A * (a * b) := mul_pos h3 (mul_pos ha (ha.trans hab))
      linarith
    have z : ∀ a : ℝ, (if |a| < 1e-10 then (0:ℝ) else a) = a ∨ (if |a| < 1e-10 then (0:ℝ) else a) = 0 := by
      intro a; split <;> simp
    have zs : (if |s| < 1e-10 then (0:ℝ) else s) = s := by
      rw [if_neg]; rw [abs_of_pos hs0]; linarith
    rcases hor with h | h
    · rw [← h] at hsum hprod ⊢
      rw [zs]
      rcases z d2 with h2 | h2
      · rw [h2]
        by_cases p : 0 < d2
        · rw [if_neg (by rintro ⟨a, _⟩; linarith), if_neg (by rintro ⟨a, _⟩; linarith), if_pos ⟨hs0, p⟩]
          split
          · exact ⟨s, rfl, hs, le_rfl⟩
          · next hle =>
            push Not at hle
            rcases hle.lt_or_eq with hlt | heq
            · exact ⟨d2, rfl, key d2 s r2 (by linarith) (by linarith) p hlt, hle⟩
            · exact ⟨d2, rfl, by linarith, hle⟩
        · push Not at p
          rw [if_neg (by rintro ⟨a, _⟩; linarith), if_pos ⟨p, hs0⟩]
          exact ⟨s, rfl, hs, le_rfl⟩
      · rw [h2, if_neg (by rintro ⟨a, _⟩; linarith), if_pos ⟨le_rfl, hs0⟩]
        exact ⟨s, rfl, hs, le_rfl⟩
    · rw [← h] at hsum hprod ⊢
      rw [zs]
      rcases z d1 with h2 | h2
      · rw [h2]
        by_cases p : 0 < d1
        · rw [if_neg (by rintro ⟨a, _⟩; linarith), if_neg (by rintro ⟨a, _⟩; linarith), if_pos ⟨p, hs0⟩]
          split
          · next hlt => exact ⟨d1, rfl, key d1 s r1 (by linarith) (by linarith) p hlt, hlt.le⟩
          · exact ⟨s, rfl, hs, le_rfl⟩
        · push Not at p
          rw [if_pos ⟨p, hs0⟩]
          exact ⟨s, rfl, hs, le_rfl⟩
      · rw [h2, if_pos ⟨le_rfl, hs0⟩]
        exact ⟨s, rfl, hs, le_rfl⟩

/-- at the end of a time during which a quadratic function is not positive it does not fall from 0 -/
theorem end_up {A B C T : ℝ} (hT : 0 < T) (h : A * T ^ 2 + B * T + C = 0) (hle : ∀ τ, 0 ≤ τ → τ ≤ T → A * τ ^ 2 + B * τ + C ≤ 0) :
    0 ≤ 2 * A * T + B := by
  by_contra hd
  push Not at hd
  have hf : ∀ u, A * (T - u) ^ 2 + B * (T - u) + C = u * (-(2 * A * T + B) + A * u) := by
    intro u; linear_combination h
  by_cases hA : 0 ≤ A
  · have := hle 0 le_rfl hT.le
    have h2 := hf T
    rw [sub_self] at h2
    rw [h2] at this
    have : 0 < T * (-(2 * A * T + B) + A * T) := mul_pos hT (by have := mul_nonneg hA hT.le; linarith)
    linarith
  · push Not at hA
    set u := min T ((2 * A * T + B) / (2 * A)) with hu
    have hu0 : 0 < u := lt_min hT (div_pos_of_neg_of_neg hd (by linarith))
    have h1 : u ≤ (2 * A * T + B) / (2 * A) := min_le_right _ _
    rw [le_div_iff_of_neg (by linarith)] at h1
    have := hle (T - u) (by have := min_le_left T ((2 * A * T + B) / (2 * A)); linarith) (by linarith)
    rw [hf u] at this
    have : 0 < u * (-(2 * A * T + B) + A * u) := mul_pos hu0 (by linarith)
    linarith

/-! ### the next side -/

/-- the product of the normal with the distance from a point of the wall, in the coordinates of the channel -/
noncomputable def Side.val (s : Side) (r : V3 ℝ) : ℝ := s.n.x * (r.x - s.w.x) + s.n.y * (r.y - s.w.y) + s.n.z * r.z

/-- the time to a wall -/
noncomputable def Par.sol (c : Par) (e : Event ℝ) (s : Side) : Option ℝ := solve2 (s.n.dot c.g / 2) (s.n.dot e.v) (s.val e.r)

open Classical in
theorem test_eq (c : Par) (e : Event ℝ) (b : Option (ℝ × Option Side)) (s : Side) :
    c.test e b s = match c.sol e s with
      | none => b
      | some dt => if dt > 1e-10 ∧ (match b with | none => True | some b => dt < b.1) then some (dt, some s) else b := rfl

theorem test_cases (c : Par) (e : Event ℝ) (b : Option (ℝ × Option Side)) (s : Side) :
    (c.test e b s = b ∧ (∀ t, c.sol e s = some t → 1e-10 < t → ∃ b', b = some b' ∧ b'.1 ≤ t)) ∨
    ∃ t, c.sol e s = some t ∧ 1e-10 < t ∧ c.test e b s = some (t, some s) ∧ ∀ b', b = some b' → t < b'.1 := by
  rw [test_eq]
  cases h : c.sol e s with
  | none => left; exact ⟨rfl, fun t h => by cases h⟩
  | some dt =>
    simp only
    by_cases h1 : dt > 1e-10 ∧ (match b with | none => True | some b => dt < b.1)
    · right
      refine ⟨dt, rfl, h1.1, if_pos h1, ?_⟩
      rintro b' rfl
      exact h1.2
    · left
      refine ⟨if_neg h1, ?_⟩
      intro t ht hlt
      cases ht
      cases b with
      | none => exact absurd ⟨hlt, trivial⟩ h1
      | some b' =>
        refine ⟨b', rfl, ?_⟩
        by_contra hn
        push Not at hn
        exact h1 ⟨hlt, hn⟩

theorem fold_spec (c : Par) (e : Event ℝ) (L : List Side) (b0 : Option (ℝ × Option Side)) (hb : ∀ b, b0 = some b → 1e-10 < b.1) :
    (∀ r, L.foldl (c.test e) b0 = some r → 1e-10 < r.1 ∧ (b0 = some r ∨ ∃ s ∈ L, r.2 = some s ∧ c.sol e s = some r.1)) ∧
    (∀ b, b0 = some b → ∃ r, L.foldl (c.test e) b0 = some r ∧ r.1 ≤ b.1) ∧
    (∀ s ∈ L, ∀ t, c.sol e s = some t → 1e-10 < t → ∃ r, L.foldl (c.test e) b0 = some r ∧ r.1 ≤ t) := by
  induction L generalizing b0 with
  | nil =>
    refine ⟨fun r hr => ⟨hb r hr, .inl hr⟩, fun b h => ⟨b, h, le_rfl⟩, fun s hs => by cases hs⟩
  | cons a L ih =>
    simp only [List.foldl_cons]
    rcases test_cases c e b0 a with ⟨h1, h2⟩ | ⟨t, h1, h2, h3, h4⟩
    · rw [h1]
      obtain ⟨i1, i2, i3⟩ := ih b0 hb
      refine ⟨fun r hr => ?_, i2, ?_⟩
      · obtain ⟨k1, k2⟩ := i1 r hr
        refine ⟨k1, k2.imp id ?_⟩
        rintro ⟨s, hs, h⟩
        exact ⟨s, List.mem_cons_of_mem _ hs, h⟩
      · intro s hs t ht hlt
        rcases List.mem_cons.1 hs with rfl | hs
        · obtain ⟨b', hb', hle⟩ := h2 t ht hlt
          obtain ⟨r, hr, hr2⟩ := i2 b' hb'
          exact ⟨r, hr, hr2.trans hle⟩
        · exact i3 s hs t ht hlt
    · rw [h3]
      obtain ⟨i1, i2, i3⟩ := ih (some (t, some a)) (by rintro b ⟨⟩; exact h2)
      obtain ⟨r0, hr0, hr1⟩ := i2 _ rfl
      refine ⟨fun r hr => ?_, ?_, ?_⟩
      · obtain ⟨k1, k2⟩ := i1 r hr
        refine ⟨k1, .inr ?_⟩
        rcases k2 with k2 | ⟨s, hs, h⟩
        · cases k2
          exact ⟨a, List.mem_cons_self, rfl, h1⟩
        · exact ⟨s, List.mem_cons_of_mem _ hs, h⟩
      · intro b hb'
        exact ⟨r0, hr0, hr1.trans (h4 b hb').le⟩
      · intro s hs t' ht hlt
        rcases List.mem_cons.1 hs with rfl | hs
        · rw [h1] at ht
          cases ht
          exact ⟨r0, hr0, hr1⟩
        · exact i3 s hs t' ht hlt

theorem exit_eq {c : Par} (hl : 0 < c.l) (e : Event ℝ) :
    c.exit e = if e.v.z ≠ 0 ∧ 1e-10 < (c.l - e.r.z) / e.v.z then some ((c.l - e.r.z) / e.v.z, none) else none := by
  unfold Par.exit solve2
  simp only [Par.g, mul_zero, zero_div, abs_zero]
  rw [if_pos (by norm_num)]
  by_cases hv : e.v.z = 0
  · simp [hv]
  · have : -(c.l * (e.r.z - c.l)) / (c.l * e.v.z) = (c.l - e.r.z) / e.v.z := by field_simp; ring
    rw [if_pos (mul_ne_zero hl.ne' hv), this]
    simp only [gt_iff_lt, ne_eq, hv, not_false_eq_true, true_and]

/-! ### the walls of a channel -/

/-- a wall in the coordinates of the guide: normal, coating, and the distance behind it -/
structure WallS where
  (n : V3 ℝ)
  (M : ℝ)
  (c0 : ℝ)

/-- the distance (along an axis) behind the wall -/
def WallS.h (w : WallS) (r : V3 ℝ) : ℝ := w.n.dot r + w.c0

/-- the walls of a channel -/
noncomputable def Par.wall (c : Par) (i j : ℝ) : Fin 4 → WallS
  | 0 => ⟨⟨-1, 0, c.xslope i⟩, c.mOf c.mright, edge c.w1 c.k c.d i⟩
  | 1 => ⟨⟨1, 0, -c.xslope (i + 1)⟩, c.mOf c.mleft, -(edge c.w1 c.k c.d (i + 1) - c.d)⟩
  | 2 => ⟨⟨0, -1, c.yslope j⟩, c.mOf c.mbottom, edge c.h1 c.kh c.d j⟩
  | 3 => ⟨⟨0, 1, -c.yslope (j + 1)⟩, c.mOf c.mtop, -(edge c.h1 c.kh c.d (j + 1) - c.d)⟩

theorem wall0 (c : Par) (i j : ℝ) (r : V3 ℝ) : (c.wall i j 0).h r = c.xlo i r.z - r.x := by
  simp only [Par.wall, WallS.h, V3.dot, Par.xlo, Par.xslope]; ring
theorem wall1 (c : Par) (i j : ℝ) (r : V3 ℝ) : (c.wall i j 1).h r = r.x - c.xhi i r.z := by
  simp only [Par.wall, WallS.h, V3.dot, Par.xlo, Par.xhi, Par.xslope]; ring
theorem wall2 (c : Par) (i j : ℝ) (r : V3 ℝ) : (c.wall i j 2).h r = c.ylo j r.z - r.y := by
  simp only [Par.wall, WallS.h, V3.dot, Par.ylo, Par.yslope]; ring
theorem wall3 (c : Par) (i j : ℝ) (r : V3 ℝ) : (c.wall i j 3).h r = r.y - c.yhi j r.z := by
  simp only [Par.wall, WallS.h, V3.dot, Par.ylo, Par.yhi, Par.yslope]; ring

theorem inside_wall (c : Par) (i j : ℝ) (r : V3 ℝ) : c.Inside i j r ↔ ∀ k, (c.wall i j k).h r ≤ 0 := by
  unfold Par.Inside
  simp only [Fin.forall_fin_succ, Fin.succ_zero_eq_one, Fin.succ_one_eq_two, IsEmpty.forall_iff, and_true]
  have : (Fin.succ 2 : Fin 4) = 3 := rfl
  rw [this, wall0, wall1, wall2, wall3, sub_nonpos, sub_nonpos, sub_nonpos, sub_nonpos]
  tauto

theorem face_wall (c : Par) (i j : ℝ) (n : V3 ℝ) (M : ℝ) (r : V3 ℝ) :
    c.Face i j n M r ↔ ∃ k, (c.wall i j k).h r = 0 ∧ n = (c.wall i j k).n ∧ M = (c.wall i j k).M := by
  unfold Par.Face
  constructor
  · rintro (⟨h, rfl, rfl⟩ | ⟨h, rfl, rfl⟩ | ⟨h, rfl, rfl⟩ | ⟨h, rfl, rfl⟩)
    · exact ⟨0, by rw [wall0]; linarith, rfl, rfl⟩
    · exact ⟨1, by rw [wall1]; linarith, rfl, rfl⟩
    · exact ⟨2, by rw [wall2]; linarith, rfl, rfl⟩
    · exact ⟨3, by rw [wall3]; linarith, rfl, rfl⟩
  · rintro ⟨k, h, rfl, rfl⟩
    fin_cases k
    · left; refine ⟨?_, rfl, rfl⟩
      have := wall0 c i j r
      simp only [Fin.zero_eta] at h; linarith
    · right; left; refine ⟨?_, rfl, rfl⟩
      have := wall1 c i j r
      simp only [Fin.mk_one] at h; linarith
    · right; right; left; refine ⟨?_, rfl, rfl⟩
      have := wall2 c i j r
      have h' : (c.wall i j 2).h r = 0 := h
      linarith
    · right; right; right; refine ⟨?_, rfl, rfl⟩
      have := wall3 c i j r
      have h' : (c.wall i j 3).h r = 0 := h
      linarith

theorem M_eq (c : Par) (own : ℝ) : c.M own = c.mOf own := by
  unfold Par.M Par.mOf
  by_cases h : own < 0
  · rw [if_pos h, if_neg (by linarith)]
  · rw [if_neg h, if_pos (by linarith)]

theorem nzOf_eq (a b : ℝ) : nzOf a b = a * b := by
  unfold nzOf; split
  · rfl
  · next h => push Not at h; rw [h, zero_mul]

/-- the middle of a channel at the entrance -/
noncomputable def mid (w k d i : ℝ) : ℝ := i * ((w - (k - 1) * d) / k + d) + (w - (k - 1) * d) / k / 2 - w / 2

theorem side_wall {c : Par} (hl : 0 < c.l) (hk : c.k ≠ 0) (hkh : c.kh ≠ 0) (i j : ℝ) (s : Side) (hs : s ∈ c.sides i j) :
    ∃ k, s.n = c.l • (c.wall i j k).n ∧ s.M = (c.wall i j k).M ∧
      ∀ e : Event ℝ, s.val e.r = c.l * (c.wall i j k).h (shift (mid c.w1 c.k c.d i) (mid c.h1 c.kh c.d j) e).r := by
  have hl' := hl.ne'
  simp only [Par.sides, List.mem_cons, List.not_mem_nil, or_false] at hs
  rcases hs with rfl | rfl | rfl | rfl
  · refine ⟨2, ?_, M_eq _ _, fun e => ?_⟩
    · rw [nzOf_eq]
      ext
      · simp [Par.wall]
      · simp [Par.wall]
      · simp only [Par.wall, V3.smul_z, Par.yslope, edge, Par.h1c, Par.h2c]; field_simp; ring
    · rw [nzOf_eq]
      simp only [Side.val, WallS.h, Par.wall, V3.dot, Par.yslope, edge, Par.h1c, Par.h2c, shift, mid]; field_simp; ring
  · refine ⟨3, ?_, M_eq _ _, fun e => ?_⟩
    · rw [nzOf_eq]
      ext
      · simp [Par.wall]
      · simp [Par.wall]
      · simp only [Par.wall, V3.smul_z, Par.yslope, edge, Par.h1c, Par.h2c]; field_simp; ring
    · rw [nzOf_eq]
      simp only [Side.val, WallS.h, Par.wall, V3.dot, Par.yslope, edge, Par.h1c, Par.h2c, shift, mid]; field_simp; ring
  · refine ⟨0, ?_, M_eq _ _, fun e => ?_⟩
    · rw [nzOf_eq]
      ext
      · simp [Par.wall]
      · simp [Par.wall]
      · simp only [Par.wall, V3.smul_z, Par.xslope, edge, Par.w1c, Par.w2c]; field_simp; ring
    · rw [nzOf_eq]
      simp only [Side.val, WallS.h, Par.wall, V3.dot, Par.xslope, edge, Par.w1c, Par.w2c, shift, mid]; field_simp; ring
  · refine ⟨1, ?_, M_eq _ _, fun e => ?_⟩
    · rw [nzOf_eq]
      ext
      · simp [Par.wall]
      · simp [Par.wall]
      · simp only [Par.wall, V3.smul_z, Par.xslope, edge, Par.w1c, Par.w2c]; field_simp; ring
    · rw [nzOf_eq]
      simp only [Side.val, WallS.h, Par.wall, V3.dot, Par.xslope, edge, Par.w1c, Par.w2c, shift, mid]; field_simp; ring

theorem wall_side {c : Par} (hl : 0 < c.l) (hk : c.k ≠ 0) (hkh : c.kh ≠ 0) (i j : ℝ) (k : Fin 4) : ∃ s ∈ c.sides i j,
    s.n = c.l • (c.wall i j k).n ∧
      ∀ e : Event ℝ, s.val e.r = c.l * (c.wall i j k).h (shift (mid c.w1 c.k c.d i) (mid c.h1 c.kh c.d j) e).r := by
  have hl' := hl.ne'
  have h : ∀ m : Fin 4, (c.sides i j)[m]'(by simp [Par.sides]) ∈ c.sides i j := fun m => List.getElem_mem _
  fin_cases k
  · have hm := h 2
    obtain ⟨k, h1, -, h3⟩ := side_wall hl hk hkh i j _ hm
    have hx := congrArg V3.x h1
    have hy := congrArg V3.y h1
    refine ⟨_, hm, ?_⟩
    fin_cases k
    · exact ⟨h1, h3⟩
    all_goals
      exfalso
      simp [Par.sides, Par.wall, V3.smul_x, V3.smul_y, hl'] at hx hy
      try linarith
  · have hm := h 3
    obtain ⟨k, h1, -, h3⟩ := side_wall hl hk hkh i j _ hm
    have hx := congrArg V3.x h1
    have hy := congrArg V3.y h1
    refine ⟨_, hm, ?_⟩
    fin_cases k
    rotate_left
    · exact ⟨h1, h3⟩
    all_goals
      exfalso
      simp [Par.sides, Par.wall, V3.smul_x, V3.smul_y, hl'] at hx hy
      try linarith
  · have hm := h 0
    obtain ⟨k, h1, -, h3⟩ := side_wall hl hk hkh i j _ hm
    have hx := congrArg V3.x h1
    have hy := congrArg V3.y h1
    refine ⟨_, hm, ?_⟩
    fin_cases k
    rotate_left 2
    · exact ⟨h1, h3⟩
    all_goals
      exfalso
      simp [Par.sides, Par.wall, V3.smul_x, V3.smul_y, hl'] at hx hy
      try linarith
  · have hm := h 1
    obtain ⟨k, h1, -, h3⟩ := side_wall hl hk hkh i j _ hm
    have hx := congrArg V3.x h1
    have hy := congrArg V3.y h1
    refine ⟨_, hm, ?_⟩
    fin_cases k
    rotate_left 3
    · exact ⟨h1, h3⟩
    all_goals
      exfalso
      simp [Par.sides, Par.wall, V3.smul_x, V3.smul_y, hl'] at hx hy
      try linarith

/-! ### flight -/

theorem flown_shift (c : Par) (x y : ℝ) (e : Event ℝ) (t : ℝ) : flown c.grav (shift x y e) t = shift x y (propDtGrav t c.g e) := by
  unfold flown accel shift propDtGrav Par.grav Par.g
  simp only [if_true]
  refine Event.ext ?_ ?_ rfl rfl rfl rfl
  · ext <;> simp <;> ring
  · ext <;> simp <;> ring

theorem h_flown (c : Par) (w : WallS) (e : Event ℝ) (t : ℝ) :
    w.h (flown c.grav e t).r = w.n.dot c.g / 2 * t ^ 2 + w.n.dot e.v * t + w.h e.r := by
  simp only [WallS.h, V3.dot, flown, accel, Par.grav, Par.g, if_true, V3.add_x, V3.add_y, V3.add_z, V3.smul_x, V3.smul_y, V3.smul_z]
  ring

theorem nv_flown (c : Par) (n : V3 ℝ) (e : Event ℝ) (t : ℝ) :
    n.dot (flown c.grav e t).v = 2 * (n.dot c.g / 2) * t + n.dot e.v := by
  simp only [V3.dot, flown, accel, Par.grav, Par.g, if_true, V3.add_x, V3.add_y, V3.add_z, V3.smul_x, V3.smul_y, V3.smul_z]
  ring

theorem z_flown (c : Par) (e : Event ℝ) (t : ℝ) : (flown c.grav e t).r.z = e.r.z + t * e.v.z := by
  simp [flown, accel, Par.grav]

theorem vz_flown (c : Par) (e : Event ℝ) (t : ℝ) : (flown c.grav e t).v.z = e.v.z := by
  simp [flown, accel, Par.grav]

/-- the acceleration is seen by all walls it acts on -/
def Par.Heavy (c : Par) : Prop := c.G = 0 ∨ 1e-10 ≤ c.l * |c.G| / 2

theorem heavy {c : Par} (hl : 0 < c.l) (h : c.Heavy) (i j : ℝ) (k : Fin 4) :
    c.l * ((c.wall i j k).n.dot c.g / 2) = 0 ∨ 1e-10 ≤ |c.l * ((c.wall i j k).n.dot c.g / 2)| := by
  have key : ∀ a : ℝ, a = 0 ∨ |a| = 1 → c.l * (a * c.G / 2) = 0 ∨ 1e-10 ≤ |c.l * (a * c.G / 2)| := by
    rintro a (rfl | ha)
    · left; ring
    · rcases h with h | h
      · left; rw [h]; ring
      · right
        rw [abs_mul, abs_div, abs_mul, ha, abs_of_pos hl]
        norm_num at h ⊢; linarith
  have hy : (c.wall i j k).n.dot c.g = (c.wall i j k).n.y * c.G := by simp [V3.dot, Par.g]
  rw [hy]
  apply key
  fin_cases k
  · left; rfl
  · left; rfl
  · right; simp [Par.wall]
  · right; simp [Par.wall]

section Chan
variable {c : Par} {i j : ℝ} (hl : 0 < c.l) (hk : c.k ≠ 0) (hkh : c.kh ≠ 0) (hG : c.Heavy)
include hl hk hkh hG

/-- the coordinates of the guide -/
local notation "abs' " e => shift (mid c.w1 c.k c.d i) (mid c.h1 c.kh c.d j) e

theorem sol_wall {e : Event ℝ} {s : Side} {k : Fin 4} (h1 : s.n = c.l • (c.wall i j k).n)
    (h2 : ∀ e : Event ℝ, s.val e.r = c.l * (c.wall i j k).h (abs' e).r) :
    c.sol e s = solve2 (c.l * ((c.wall i j k).n.dot c.g / 2)) (c.l * (c.wall i j k).n.dot e.v) (c.l * (c.wall i j k).h (abs' e).r) := by
  unfold Par.sol
  rw [h1, h2]
  congr 1
  · simp only [V3.dot, V3.smul_x, V3.smul_y, V3.smul_z]; ring
  · simp only [V3.dot, V3.smul_x, V3.smul_y, V3.smul_z]; ring

theorem next_inside {e : Event ℝ} {T : ℝ} {o : Option Side} (hn : c.next i j e = some (T, o)) (hin : c.Inside i j (abs' e).r)
    (hg : ¬ c.Grazes i j (abs' e)) : ∀ τ, 0 ≤ τ → τ ≤ T → c.Inside i j (flown c.grav (abs' e) τ).r := by
  intro τ h0 hT
  rw [inside_wall] at hin ⊢
  intro k
  rw [h_flown]
  by_contra hcon
  push Not at hcon
  have hvv : (abs' e).v = e.v := rfl
  obtain ⟨s, hs0, hs1, hs2, hs3⟩ := cross_up h0 (hin k) hcon
  have hnz : ∀ u, 0 ≤ u → u ≤ 1e-10 → (c.wall i j k).n.dot c.g / 2 * u ^ 2 + (c.wall i j k).n.dot (abs' e).v * u +
      (c.wall i j k).h (abs' e).r = 0 → 2 * ((c.wall i j k).n.dot c.g / 2) * u + (c.wall i j k).n.dot (abs' e).v < 0 := by
    intro u u0 u1 hu
    by_contra hneg
    push Not at hneg
    refine hg ⟨u, u0, u1, .inr ⟨_, _, (face_wall c i j _ _ _).2 ⟨k, ?_, rfl, rfl⟩, ?_⟩⟩
    · rw [h_flown]; exact hu
    · rw [nv_flown]; exact hneg
  have hs4 : 1e-10 < s := by
    by_contra h
    push Not at h
    have := hnz s hs0 h hs2
    linarith
  obtain ⟨sd, hsd, n1, n2⟩ := wall_side hl hk hkh i j k
  obtain ⟨t, ht1, ht2, ht3⟩ := solve2_first (A := c.l * ((c.wall i j k).n.dot c.g / 2)) (B := c.l * (c.wall i j k).n.dot e.v)
    (C := c.l * (c.wall i j k).h (abs' e).r) (s := s) (heavy hl hG i j k) (mul_nonpos_of_nonneg_of_nonpos hl.le (hin k))
    (by
      intro u u0 u1 hu
      have := hnz u u0 u1 (by
        have : c.l * ((c.wall i j k).n.dot c.g / 2 * u ^ 2 + (c.wall i j k).n.dot (abs' e).v * u + (c.wall i j k).h (abs' e).r) = 0 := by
          rw [hvv]; linarith
        exact (mul_eq_zero.1 this).resolve_left hl.ne')
      have := mul_neg_of_pos_of_neg hl this
      rw [hvv] at this
      linarith)
    hs4 (by rw [hvv] at hs2; linear_combination c.l * hs2)
  have hsol : c.sol e sd = some t := by rw [sol_wall hl hk hkh hG n1 n2]; exact ht1
  have hfs := (fold_spec c e (c.sides i j) (c.exit e) (by
    intro b hb
    rw [exit_eq hl] at hb
    split at hb
    · next h => cases hb; exact h.2
    · cases hb)).2.2 sd hsd t hsol ht2
  obtain ⟨r, hr1, hr2⟩ := hfs
  unfold Par.next at hn
  rw [hn] at hr1
  cases hr1
  simp only at hr2
  linarith

theorem next_cases {e : Event ℝ} (hz : e.r.z < c.l) (hv : 0 < e.v.z) (hin : c.Inside i j (abs' e).r)
    (hg : ¬ c.Grazes i j (abs' e)) : ∃ T o, c.next i j e = some (T, o) ∧ 0 < T ∧ (∀ τ, 0 ≤ τ → τ ≤ T → c.Inside i j (flown c.grav (abs' e) τ).r) ∧
      ((o = none ∧ (flown c.grav (abs' e) T).r.z = c.l) ∨
       ∃ s k, o = some s ∧ s ∈ c.sides i j ∧ s.n = c.l • (c.wall i j k).n ∧ s.M = (c.wall i j k).M ∧
        (c.wall i j k).h (flown c.grav (abs' e) T).r = 0 ∧ 0 ≤ (c.wall i j k).n.dot (flown c.grav (abs' e) T).v ∧
        ∀ τ, τ ≤ T → (flown c.grav (abs' e) τ).r.z < c.l) := by
  have hx : c.exit e = some ((c.l - e.r.z) / e.v.z, none) := by
    rw [exit_eq hl, if_pos]
    refine ⟨hv.ne', ?_⟩
    by_contra hcon
    push Not at hcon
    refine hg ⟨_, div_nonneg (by linarith) hv.le, hcon, .inl ?_⟩
    rw [z_flown]
    change e.r.z + (c.l - e.r.z) / e.v.z * e.v.z = c.l
    field_simp; ring
  obtain ⟨f1, f2, -⟩ := fold_spec c e (c.sides i j) (c.exit e) (by
    intro b hb
    rw [exit_eq hl] at hb
    split at hb
    · next h => cases hb; exact h.2
    · cases hb)
  obtain ⟨⟨T, o⟩, hr, hle⟩ := f2 _ hx
  have hins := next_inside hl hk hkh hG (T := T) (o := o) hr hin hg
  obtain ⟨g1, g2⟩ := f1 _ hr
  simp only at g1 hle
  have hT : 0 < T := lt_trans (by norm_num) g1
  refine ⟨T, o, hr, hT, hins, ?_⟩
  rcases g2 with g2 | ⟨s, hs, rfl, hsol⟩
  · left
    rw [hx] at g2
    simp only [Option.some.injEq, Prod.mk.injEq] at g2
    refine ⟨g2.2.symm, ?_⟩
    rw [z_flown, ← g2.1]
    change e.r.z + (c.l - e.r.z) / e.v.z * e.v.z = c.l
    field_simp; ring
  · by_cases hEq : T = (c.l - e.r.z) / e.v.z
    · -- the exit is tested first, a wall at the same time does not replace it
      exfalso
      have : ∀ (L : List Side) (b : ℝ × Option Side), b.2 = none → ∀ r, L.foldl (c.test e) (some b) = some r → r.2 ≠ none → r.1 < b.1 := by
        intro L
        induction L with
        | nil => intro b hb r hr hne; cases hr; exact absurd hb hne
        | cons a L ih =>
          intro b hb r hr hne
          simp only [List.foldl_cons] at hr
          rcases test_cases c e (some b) a with ⟨h1, -⟩ | ⟨t, h1, h2, h3, h4⟩
          · rw [h1] at hr; exact ih b hb r hr hne
          · rw [h3] at hr
            have hlt := h4 b rfl
            obtain ⟨r', hr', hle'⟩ := (fold_spec c e L (some (t, some a)) (by rintro b ⟨⟩; exact h2)).2.1 _ rfl
            rw [hr] at hr'
            cases hr'
            exact lt_of_le_of_lt hle' hlt
      rw [hx] at hr
      have := this _ _ rfl _ hr (by simp)
      simp only at this
      linarith
    · right
      obtain ⟨k, n1, n3, n2⟩ := side_wall hl hk hkh i j s hs
      rw [sol_wall hl hk hkh hG n1 n2] at hsol
      have hroot := solve2_root (heavy hl hG i j k) hsol g1
      have hroot' : (c.wall i j k).n.dot c.g / 2 * T ^ 2 + (c.wall i j k).n.dot (abs' e).v * T + (c.wall i j k).h (abs' e).r = 0 := by
        have : c.l * ((c.wall i j k).n.dot c.g / 2 * T ^ 2 + (c.wall i j k).n.dot e.v * T + (c.wall i j k).h (abs' e).r) = 0 := by
          linarith
        exact (mul_eq_zero.1 this).resolve_left hl.ne'
      refine ⟨s, k, rfl, hs, n1, n3, ?_, ?_, ?_⟩
      · rw [h_flown]; exact hroot'
      · rw [nv_flown]
        refine end_up hT hroot' ?_
        intro τ h0 h1
        have := (inside_wall c i j _).1 (hins τ h0 h1) k
        rwa [h_flown] at this
      · intro τ h1
        rw [z_flown]
        change e.r.z + τ * e.v.z < c.l
        have h3 : T < (c.l - e.r.z) / e.v.z := lt_of_le_of_ne hle hEq
        rw [lt_div_iff₀ hv] at h3
        have := mul_le_mul_of_nonneg_right h1 hv.le
        linarith

end Chan

/-! ### a reflection -/

theorem clip_eq (B : ℝ) : (if B < 0 then 0 else if B > 1 then 1 else B) = unitClip B := by
  unfold unitClip
  split
  · next h => rw [min_eq_right (by linarith), max_eq_left h.le]
  · next h =>
    push Not at h
    split
    · next h1 => rw [min_eq_left h1.le, max_eq_right (by norm_num)]
    · next h1 => push Not at h1; rw [min_eq_right h1, max_eq_right h]

theorem reflect_eq {c : Par} {M : ℝ} (h : ¬ (M = 0 ∨ c.Qc = 0 ∨ c.R0 = 0)) (q : ℝ) : c.reflect M q = c.R M q := by
  unfold Par.reflect Par.R
  rw [if_neg h]
  cases c.table with
  | some f => simp only [clip_eq]
  | none =>
    simp only
    by_cases hq : q ≤ c.Qc
    · rw [if_neg (not_lt.2 hq), if_pos hq]
      simp only [clip_eq]
    · have hq' := not_le.1 hq
      have harg : (if c.W > 0 then (q - M * c.Qc) / c.W else (q - M * c.Qc) * 10000) =
          (q - M * c.Qc) / (if c.W > 0 then c.W else 0.0001) := by
        split
        · rfl
        · rw [div_eq_mul_inv]; norm_num
      rw [if_pos hq', if_neg hq, harg]
      set x := (q - M * c.Qc) / (if c.W > 0 then c.W else 0.0001)
      by_cases h10 : 10 ≤ x
      · rw [if_neg (not_lt.2 h10), if_pos h10]
      · rw [if_pos (not_le.1 h10), if_neg h10]
        simp only [clip_eq]
        congr 2
        rw [tanh_logistic]; ring

theorem near_multiple {z L C : ℝ} (hL : 0 < L) (hz : 0 ≤ z) :
    (C ≠ 0 ∧ (fmodC z L < C ∨ fmodC z L > L - C)) ↔ ∃ k : ℤ, |z - k * L| < C := by
  obtain ⟨n, hn, h1, h2⟩ := trunc_floor (div_nonneg hz hL.le)
  have hf : fmodC z L = z - n * L := by unfold fmodC; rw [hn]; simp
  rw [hf]
  rw [le_div_iff₀ hL] at h1
  rw [div_lt_iff₀ hL] at h2
  constructor
  · rintro ⟨-, h | h⟩
    · refine ⟨n, ?_⟩
      rw [abs_of_nonneg (by push_cast; linarith)]; push_cast; exact h
    · refine ⟨n + 1, ?_⟩
      rw [abs_of_nonpos (by push_cast; linarith)]; push_cast; linarith
  · rintro ⟨k, hk⟩
    have hC : 0 < C := lt_of_le_of_lt (abs_nonneg _) hk
    refine ⟨hC.ne', ?_⟩
    rw [abs_lt] at hk
    rcases le_or_gt k n with h | h
    · left
      have : (k : ℝ) ≤ n := by exact_mod_cast h
      have := mul_le_mul_of_nonneg_right this hL.le
      linarith
    · right
      have : (n : ℝ) + 1 ≤ k := by exact_mod_cast h
      have := mul_le_mul_of_nonneg_right this hL.le
      linarith

theorem chamf_eq (c : Par) : c.chamf = (c.Cz, c.Clr, c.Ctb) := by
  unfold Par.chamf Par.Cz Par.Clr Par.Ctb
  by_cases h : c.chamfers_z = 0 ∧ c.chamfers_lr = 0 ∧ c.chamfers_tb = 0
  · by_cases h0 : c.chamfers = 0
    · rw [if_neg (by tauto), if_pos h, if_pos h, if_pos h, h0, h.1, h.2.1, h.2.2]
    · rw [if_pos (by tauto), if_pos h, if_pos h, if_pos h]
  · rw [if_neg (by tauto), if_neg h, if_neg h, if_neg h]

theorem chamfer_iff {c : Par} (hl : 0 < c.l) (hn : 0 < c.nelements) {i j : ℝ} {k : Fin 4} {s : Side} (hs : s.n = c.l • (c.wall i j k).n)
    {r : V3 ℝ} (hz : 0 ≤ r.z) : c.chamfered s r ↔ c.Chamfer (c.wall i j k).n r := by
  unfold Par.chamfered Par.Chamfer
  simp only [chamf_eq]
  rw [near_multiple (div_pos hl hn) hz]
  have hy : s.n.y = 0 ↔ (c.wall i j k).n.y = 0 := by rw [hs]; simp [hl.ne']
  have hx : s.n.y ≠ 0 ↔ (c.wall i j k).n.x = 0 := by
    rw [ne_eq, hy]
    fin_cases k <;> simp [Par.wall]
  have e1 : ∀ a b : ℝ, (a + (b - a) * r.z / c.l) = a + (b - a) * (r.z / c.l) := by intro a b; ring
  rw [hx, hy, e1, e1]
  have e2 : ∀ a b d : ℝ, (a > b - d ↔ b - a < d) := by
    intro a b d; constructor <;> intro h <;> linarith
  rw [e2, e2]
  tauto

theorem wavy_flat {c : Par} (h : c.Flat) (ξ : ℝ × ℝ) (s : Side) : c.wavyN ξ s = s.n := by
  unfold Par.wavyN Par.wav
  obtain ⟨h1, h2, h3, h4⟩ := h
  simp [h1, h2, h3, h4]

theorem dot_pos {v : V3 ℝ} (h : v ≠ 0) : 0 < v.dot v := by
  have : 0 ≤ v.dot v := by simp only [V3.dot]; nlinarith [sq_nonneg v.x, sq_nonneg v.y, sq_nonneg v.z]
  rcases this.lt_or_eq with h1 | h1
  · exact h1
  · exfalso; apply h
    simp only [V3.dot] at h1
    have hx : v.x = 0 := by nlinarith [sq_nonneg v.x, sq_nonneg v.y, sq_nonneg v.z]
    have hy : v.y = 0 := by nlinarith [sq_nonneg v.x, sq_nonneg v.y, sq_nonneg v.z]
    have hz : v.z = 0 := by nlinarith [sq_nonneg v.x, sq_nonneg v.y, sq_nonneg v.z]
    ext <;> assumption

theorem mirror_spec {n m : V3 ℝ} {l : ℝ} (hl : 0 < l) (hn : n = l • m) (hm : m ≠ 0) (v : V3 ℝ) :
    Mirrored m v (v - (2 * v.dot n / n.dot n) • n) ∧
    2 * V2K * |v.dot n| / √(n.dot n) = V2K * length (v - (2 * v.dot n / n.dot n) • n - v) := by
  have hm' := dot_pos hm
  have hnn : n.dot n = l ^ 2 * m.dot m := by rw [hn]; simp only [V3.dot, V3.smul_x, V3.smul_y, V3.smul_z]; ring
  have hvn : v.dot n = l * v.dot m := by rw [hn]; simp only [V3.dot, V3.smul_x, V3.smul_y, V3.smul_z]; ring
  have hpos : 0 < n.dot n := by rw [hnn]; positivity
  have hnm : n.dot m = l * m.dot m := by rw [hn]; simp only [V3.dot, V3.smul_x, V3.smul_y, V3.smul_z]; ring
  refine ⟨⟨⟨-(2 * v.dot n / n.dot n) * l, ?_⟩, ?_⟩, ?_⟩
  · rw [hn]
    ext
    · simp only [V3.sub_x, V3.smul_x]; ring
    · simp only [V3.sub_y, V3.smul_y]; ring
    · simp only [V3.sub_z, V3.smul_z]; ring
  · have : (v - (2 * v.dot n / n.dot n) • n).dot m = v.dot m - 2 * v.dot n / n.dot n * n.dot m := by
      simp only [V3.dot, V3.sub_x, V3.sub_y, V3.sub_z, V3.smul_x, V3.smul_y, V3.smul_z]; ring
    rw [this, hnm, hvn, hnn]
    field_simp; ring
  · have hd : v - (2 * v.dot n / n.dot n) • n - v = (-(2 * v.dot n / n.dot n)) • n := by
      ext
      · simp only [V3.sub_x, V3.smul_x]; ring
      · simp only [V3.sub_y, V3.smul_y]; ring
      · simp only [V3.sub_z, V3.smul_z]; ring
    have h2 : ((-(2 * v.dot n / n.dot n)) • n).dot ((-(2 * v.dot n / n.dot n)) • n) = (2 * v.dot n / n.dot n) ^ 2 * n.dot n := by
      simp only [V3.dot, V3.smul_x, V3.smul_y, V3.smul_z]; ring
    rw [hd, length_eq, h2, Real.sqrt_mul (sq_nonneg _), Real.sqrt_sq_eq_abs, abs_div, abs_mul, abs_of_pos hpos]
    have hs := Real.sqrt_pos.2 hpos
    have hsq := Real.mul_self_sqrt hpos.le
    norm_num
    rw [div_mul_eq_mul_div, mul_comm 2 V2K, mul_assoc, mul_div_assoc, ]
    congr 1
    rw [div_eq_div_iff hs.ne' hpos.ne']
    linear_combination -(2 * |v.dot n|) * hsq

/-- the neutron at the end -/
def out : Except (Event ℝ) (Event ℝ) → Event ℝ
  | .error e => e
  | .ok e => e

theorem trace_out (c : Par) (ξ : Nat → ℝ × ℝ) (e : Event ℝ) : trace c ξ e = out (c.run ξ e) := by
  unfold trace out; cases c.run ξ e <;> rfl

theorem wall_ne (c : Par) (i j : ℝ) (k : Fin 4) : (c.wall i j k).n ≠ 0 := by
  intro h
  have hx := congrArg V3.x h
  have hy := congrArg V3.y h
  fin_cases k <;> simp [Par.wall] at hx hy

theorem shift_v (x y : ℝ) (e : Event ℝ) (v : V3 ℝ) : shift x y { e with v := v } = { shift x y e with v := v } := rfl

theorem loop_sound {c : Par} {i j : ℝ} (hl : 0 < c.l) (hk : c.k ≠ 0) (hkh : c.kh ≠ 0) (hG : c.Heavy) (hF : c.Flat) (hN : 0 < c.nelements)
    (ξ : Nat → ℝ × ℝ) (fuel : Nat) (e : Event ℝ) (hin : c.Inside i j (shift (mid c.w1 c.k c.d i) (mid c.h1 c.kh c.d j) e).r)
    (hz : e.r.z < c.l) (hz0 : 0 ≤ e.r.z) :
    ∃ N b, c.Reach i j N (shift (mid c.w1 c.k c.d i) (mid c.h1 c.kh c.d j) e) b ∧
      ((N < fuel ∧ c.Ends i j b (out (c.loop i j (mid c.w1 c.k c.d i) (mid c.h1 c.kh c.d j) ξ fuel e))) ∨
       (N = fuel ∧ (out (c.loop i j (mid c.w1 c.k c.d i) (mid c.h1 c.kh c.d j) ξ fuel e)).p = -1) ∨ c.Grazes i j b ∨ b.v.z ≤ 0) := by
  induction fuel generalizing e with
  | zero => exact ⟨0, _, .refl _, .inr (.inl ⟨rfl, rfl⟩)⟩
  | succ fuel ih =>
    by_cases hg : c.Grazes i j (shift (mid c.w1 c.k c.d i) (mid c.h1 c.kh c.d j) e)
    · exact ⟨0, _, .refl _, .inr (.inr (.inl hg))⟩
    by_cases hv : e.v.z ≤ 0
    · exact ⟨0, _, .refl _, .inr (.inr (.inr hv))⟩
    push Not at hv
    obtain ⟨T, o, hn, hT, hins, hcase⟩ := next_cases hl hk hkh hG hz hv hin hg
    unfold Par.loop
    rw [hn]
    rcases hcase with ⟨rfl, hend⟩ | ⟨s, k, rfl, hs, n1, n2, hface, hnv, hzT⟩
    · refine ⟨0, _, .refl _, .inl ⟨Nat.succ_pos _, .inl ⟨T, hT, hend, hins, ?_⟩⟩⟩
      rw [flown_shift]; rfl
    · simp only
      rw [flown_shift] at hface hnv
      set e1 := propDtGrav T c.g e with he1
      obtain ⟨m1, m2⟩ := mirror_spec hl n1 (wall_ne c i j k) e1.v
      set v' := e1.v - (2 * e1.v.dot s.n / s.n.dot s.n) • s.n with hv'
      have hz1 : e1.r.z = (flown c.grav (shift (mid c.w1 c.k c.d i) (mid c.h1 c.kh c.d j) e) T).r.z := by rw [flown_shift]; rfl
      have hz1' : 0 ≤ e1.r.z := by
        rw [hz1, z_flown]
        exact add_nonneg hz0 (mul_nonneg hT.le hv.le)
      have hhit : c.Hit i j (c.wall i j k).n (c.wall i j k).M (shift (mid c.w1 c.k c.d i) (mid c.h1 c.kh c.d j) e)
          (shift (mid c.w1 c.k c.d i) (mid c.h1 c.kh c.d j) { e1 with v := v' }) (2 * V2K * |e1.v.dot s.n| / √(s.n.dot s.n)) := by
        refine ⟨T, hT, ?_, ?_, fun τ h0 h1 => ⟨hins τ h0 h1, hzT τ h1⟩, ?_, ?_, ?_⟩
        · rw [flown_shift, face_wall]; exact ⟨k, hface, rfl, rfl⟩
        · rw [flown_shift]; exact hnv
        · rw [flown_shift]; exact m1
        · rw [flown_shift]; rfl
        · rw [flown_shift]; exact m2
      have hstop : ∀ x : Event ℝ, x.p = -1 → (c.Chamfer (c.wall i j k).n (shift (mid c.w1 c.k c.d i) (mid c.h1 c.kh c.d j) e1).r ∨
          c.R (c.wall i j k).M (2 * V2K * |e1.v.dot s.n| / √(s.n.dot s.n)) = none) →
          ∃ N b, c.Reach i j N (shift (mid c.w1 c.k c.d i) (mid c.h1 c.kh c.d j) e) b ∧ ((N < fuel + 1 ∧ c.Ends i j b x) ∨
            (N = fuel + 1 ∧ x.p = -1) ∨ c.Grazes i j b ∨ b.v.z ≤ 0) := by
        intro x hx h
        exact ⟨0, _, .refl _, .inl ⟨Nat.succ_pos _, .inr ⟨_, _, _, _, hhit, h, hx⟩⟩⟩
      by_cases hM : s.M = 0 ∨ c.Qc = 0 ∨ c.R0 = 0
      · rw [if_pos hM]
        refine hstop _ rfl (.inr ?_)
        unfold Par.R
        rw [if_pos (by rw [← n2]; exact hM)]
      rw [if_neg hM]
      have hcf := chamfer_iff hl hN n1 (r := (shift (mid c.w1 c.k c.d i) (mid c.h1 c.kh c.d j) e1).r) hz1'
      by_cases hC : c.chamfered s ⟨e1.r.x + mid c.w1 c.k c.d i, e1.r.y + mid c.h1 c.kh c.d j, e1.r.z⟩
      · rw [if_pos hC]
        exact hstop _ rfl (.inl (hcf.1 hC))
      rw [if_neg hC, wavy_flat hF, reflect_eq hM, ← hv', n2]
      cases hR : c.R (c.wall i j k).M (2 * V2K * |e1.v.dot s.n| / √(s.n.dot s.n)) with
      | none => exact hstop _ rfl (.inr hR)
      | some w =>
        simp only
        have hstep : c.Step i j (shift (mid c.w1 c.k c.d i) (mid c.h1 c.kh c.d j) e)
            (shift (mid c.w1 c.k c.d i) (mid c.h1 c.kh c.d j) { e1 with v := v', p := e1.p * w }) :=
          ⟨_, _, _, _, w, hhit, fun h => hC (hcf.2 h), hR, rfl⟩
        obtain ⟨N, b, hNb, hcase⟩ := ih { e1 with v := v', p := e1.p * w } (by
            have := hins T hT.le le_rfl
            rw [flown_shift] at this
            exact this) (by
            have := hzT T le_rfl
            rw [flown_shift] at this
            exact this) hz1'
        refine ⟨N + 1, b, .step hstep hNb, ?_⟩
        rcases hcase with ⟨h1, h2⟩ | ⟨h1, h2⟩ | h | h
        · exact .inl ⟨by omega, h2⟩
        · exact .inr (.inl ⟨by omega, h2⟩)
        · exact .inr (.inr (.inl h))
        · exact .inr (.inr (.inr h))

/-! ### energy and weight -/

theorem rotate_len {a : V3 ℝ} (h : a ≠ 0) (v : V3 ℝ) (φ : ℝ) : (rotate v φ a).dot (rotate v φ a) = v.dot v := by
  rw [rotate_turned, turned_dot (McStas.norm_unit h)]

theorem wavy_len {c : Par} (hl : 0 < c.l) {i j : ℝ} {s : Side} (hs : s ∈ c.sides i j) (ξ : ℝ × ℝ) :
    (c.wavyN ξ s).dot (c.wavyN ξ s) = s.n.dot s.n := by
  have h1 : s.n.cross ⟨0, 0, 1⟩ ≠ 0 := by
    intro h
    have hx := congrArg V3.x h
    have hy := congrArg V3.y h
    simp only [Par.sides, List.mem_cons, List.not_mem_nil, or_false] at hs
    rcases hs with rfl | rfl | rfl | rfl <;> simp [V3.cross, hl.ne'] at hx hy
  have h2 : (⟨0, 0, 1⟩ : V3 ℝ) ≠ 0 := by
    intro h
    have hz := congrArg V3.z h
    simp at hz
  unfold Par.wavyN
  simp only
  have key : ∀ n : V3 ℝ, n.dot n = s.n.dot s.n → ∀ φ t : ℝ,
      (if φ ≠ 0 then rotate n t ⟨0, 0, 1⟩ else n).dot (if φ ≠ 0 then rotate n t ⟨0, 0, 1⟩ else n) = s.n.dot s.n := by
    intro n hn φ t
    split
    · rw [rotate_len h2, hn]
    · exact hn
  apply key
  split
  · rw [rotate_len h1]
  · rfl

theorem energy_shift (c : Par) (x y : ℝ) (e : Event ℝ) : c.energy (shift x y e) = c.energy e - 2 * c.G * y := by
  simp only [Par.energy, shift]; ring

theorem energy_prop (c : Par) (t : ℝ) (e : Event ℝ) : c.energy (propDtGrav t c.g e) = c.energy e := by
  simp only [Par.energy, propDtGrav, Par.g, V3.dot]; ring

theorem mirror_len {n m v : V3 ℝ} (h : n.dot n = m.dot m) (hm : 0 < m.dot m) :
    (v - (2 * v.dot n / m.dot m) • n).dot (v - (2 * v.dot n / m.dot m) • n) = v.dot v := by
  have : (v - (2 * v.dot n / m.dot m) • n).dot (v - (2 * v.dot n / m.dot m) • n) =
      v.dot v - 2 * (2 * v.dot n / m.dot m) * v.dot n + (2 * v.dot n / m.dot m) ^ 2 * n.dot n := by
    simp only [V3.dot, V3.sub_x, V3.sub_y, V3.sub_z, V3.smul_x, V3.smul_y, V3.smul_z]; ring
  rw [this, h]
  field_simp; ring

theorem side_pos {c : Par} (hl : 0 < c.l) {i j : ℝ} {s : Side} (hs : s ∈ c.sides i j) : 0 < s.n.dot s.n := by
  apply dot_pos
  intro h
  have hx := congrArg V3.x h
  have hy := congrArg V3.y h
  simp only [Par.sides, List.mem_cons, List.not_mem_nil, or_false] at hs
  rcases hs with rfl | rfl | rfl | rfl <;> simp [hl.ne'] at hx hy

theorem next_mem {c : Par} (hl : 0 < c.l) {i j : ℝ} {e : Event ℝ} {T : ℝ} {o : Option Side} (h : c.next i j e = some (T, o)) :
    1e-10 < T ∧ ((o = none ∧ e.v.z ≠ 0 ∧ T = (c.l - e.r.z) / e.v.z) ∨ ∃ s ∈ c.sides i j, o = some s) := by
  obtain ⟨f1, -⟩ := fold_spec c e (c.sides i j) (c.exit e) (by
    intro b hb
    rw [exit_eq hl] at hb
    split at hb
    · next h => cases hb; exact h.2
    · cases hb)
  obtain ⟨h1, h2⟩ := f1 _ h
  refine ⟨h1, ?_⟩
  rcases h2 with h2 | ⟨s, hs, h3, -⟩
  · left
    rw [exit_eq hl] at h2
    split at h2
    · next h5 => cases h2; exact ⟨rfl, h5.1, rfl⟩
    · cases h2
  · exact .inr ⟨s, hs, h3⟩

theorem reflect_mem {c : Par} {M q w : ℝ} (h : c.reflect M q = some w) : 0 ≤ w ∧ w ≤ 1 := by
  unfold Par.reflect at h
  simp only at h
  split at h
  · cases h
  · rw [clip_eq] at h
    cases h
    exact ⟨le_max_left _ _, max_le (by norm_num) (min_le_left _ _)⟩

/-- what is conserved in the loop -/
theorem loop_ok {c : Par} (hl : 0 < c.l) (i j x y : ℝ) (ξ : Nat → ℝ × ℝ) (fuel : Nat) (e r : Event ℝ)
    (h : c.loop i j x y ξ fuel e = .ok r) (hp : 0 ≤ e.p) :
    c.energy r = c.energy (shift x y e) ∧ r.r.z = c.l ∧ 0 ≤ r.p ∧ r.p ≤ e.p := by
  induction fuel generalizing e with
  | zero => cases h
  | succ fuel ih =>
    unfold Par.loop at h
    cases hn : c.next i j e with
    | none => rw [hn] at h; cases h
    | some To =>
      obtain ⟨T, o⟩ := To
      rw [hn] at h
      simp only at h
      obtain ⟨-, hc⟩ := next_mem hl hn
      rcases hc with ⟨rfl, hv, hT⟩ | ⟨s, hs, rfl⟩
      · simp only at h
        cases h
        refine ⟨?_, ?_, hp, le_rfl⟩
        · rw [energy_shift, energy_prop, energy_shift]
        · simp only [shift, propDtGrav, Par.g]
          rw [hT]; field_simp; ring
      · simp only at h
        split at h
        · cases h
        split at h
        · cases h
        cases hR : c.reflect s.M (2 * V2K * |(propDtGrav T c.g e).v.dot (c.wavyN (ξ fuel) s)| / √(s.n.dot s.n)) with
        | none => rw [hR] at h; cases h
        | some w =>
          rw [hR] at h
          simp only at h
          obtain ⟨w0, w1⟩ := reflect_mem hR
          obtain ⟨i1, i2, i3, i4⟩ := ih _ h (mul_nonneg hp w0)
          refine ⟨?_, i2, i3, i4.trans (mul_le_of_le_one_right hp w1)⟩
          rw [i1, energy_shift, energy_shift, ← energy_prop c T e]
          congr 1
          simp only [Par.energy]
          rw [mirror_len (wavy_len hl hs _) (side_pos hl hs)]

theorem loop_error {c : Par} (i j x y : ℝ) (ξ : Nat → ℝ × ℝ) (fuel : Nat) (e r : Event ℝ) (h : c.loop i j x y ξ fuel e = .error r) : r.p = -1 := by
  induction fuel generalizing e with
  | zero => cases h; rfl
  | succ fuel ih =>
    unfold Par.loop at h
    cases hn : c.next i j e with
    | none => rw [hn] at h; cases h; rfl
    | some To =>
      obtain ⟨T, o⟩ := To
      rw [hn] at h
      cases o with
      | none => cases h
      | some s =>
        simp only at h
        split at h
        · cases h; rfl
        split at h
        · cases h; rfl
        split at h
        · cases h; rfl
        · exact ih _ h

theorem enter_solve {c : Par} (hl : 0 < c.l) (e : Event ℝ) :
    solve2 (-c.l * c.g.z / 2) (-c.l * e.v.z) (-c.l * e.r.z) = if e.v.z ≠ 0 then some (-e.r.z / e.v.z) else none := by
  unfold solve2
  simp only [Par.g, mul_zero, zero_div, abs_zero]
  rw [if_pos (by norm_num)]
  by_cases hv : e.v.z = 0
  · simp [hv]
  · rw [if_pos (mul_ne_zero (neg_ne_zero.2 hl.ne') hv), if_pos hv]
    congr 1
    field_simp

theorem pass_ok {c : Par} (hl : 0 < c.l) (a : ℝ) (ξ : Nat → ℝ × ℝ) (e r : Event ℝ) (h : c.pass a ξ e = .ok r) (hp : 0 ≤ e.p) :
    c.energy r = c.energy e ∧ r.r.z = c.l ∧ 0 ≤ r.p ∧ r.p ≤ e.p := by
  unfold Par.pass at h
  split at h
  · cases h
  simp only at h
  split at h
  · cases h
  next dt _ _ =>
  have he : c.energy (if dt > 0 then propDtGrav dt c.g e else e) = c.energy e := by
    split
    · exact energy_prop c _ e
    · rfl
  have hp1 : (if dt > 0 then propDtGrav dt c.g e else e).p = e.p := by split <;> rfl
  generalize (if dt > 0 then propDtGrav dt c.g e else e) = e1 at h he hp1
  split at h
  · cases h
  split at h
  · cases h
  split at h
  · cases h
  obtain ⟨h1, h2, h3, h4⟩ := loop_ok hl _ _ _ _ ξ _ _ r h (by simp only; rw [hp1]; exact hp)
  refine ⟨?_, h2, h3, by rw [← hp1]; exact h4⟩
  rw [h1, ← he]
  simp only [Par.energy, shift]; ring

theorem pass_error {c : Par} (a : ℝ) (ξ : Nat → ℝ × ℝ) (e r : Event ℝ) (h : c.pass a ξ e = .error r) : r.p = -1 := by
  unfold Par.pass at h
  split at h
  · cases h; rfl
  simp only at h
  split at h
  · cases h; rfl
  next dt _ _ =>
  generalize (if dt > 0 then propDtGrav dt c.g e else e) = e1 at h
  split at h
  · cases h; rfl
  split at h
  · cases h; rfl
  split at h
  · cases h; rfl
  exact loop_error _ _ _ _ ξ _ _ r h

theorem energy_turn (c : Par) (a : ℝ) (e : Event ℝ) : c.energy (c.turn a e) = c.energy e := by
  have h := Real.sin_sq_add_cos_sq a
  simp only [Par.energy, Par.turn, rotSet, rotApply, V3.dot, Real.sin_zero, Real.cos_zero]
  linear_combination (e.v.x ^ 2 + e.v.z ^ 2) * h

/-! ### entrance -/

theorem new_ok {c0 c : Par} (h : c0.new = .ok c) : 0 < c.k ∧ 0 < c.kh ∧ c.w1 ≠ 0 ∧ c.h1 ≠ 0 ∧ (0 < c.l → 0 < c.nelements → 0 ≤ c.d) := by
  unfold Par.new at h
  split at h
  · cases h
  split at h
  · cases h
  split at h
  · cases h
  next h2 h3 =>
  push Not at h2 h3
  simp only at h
  split at h
  · cases h
  next h4 =>
  push Not at h4
  cases h
  exact ⟨h2.1, h2.2, h3.1, h3.2, h4⟩

theorem enter (c : Par) (hl : 0 < c.l) (e : Event ℝ) (hz : e.r.z ≤ 0) (hv : 0 < e.v.z) :
    (if -e.r.z / e.v.z > 0 then propDtGrav (-e.r.z / e.v.z) c.g e else e) = flown c.grav e (-e.r.z / e.v.z) := by
  have h0 : ∀ t, propDtGrav t c.g e = flown c.grav e t := by
    intro t
    have := flown_shift c 0 0 e t
    simp only [shift, add_zero] at this
    exact this.symm
  split
  · exact h0 _
  · next h =>
    have : e.r.z = 0 := by
      by_contra hne
      exact h (div_pos (by have := lt_of_le_of_ne hz hne; linarith) hv)
    rw [this, neg_zero, zero_div, ← h0]
    simp [propDtGrav]

theorem pass_enter {c : Par} (hl : 0 < c.l) (ξ : Nat → ℝ × ℝ) (e : Event ℝ) (hz : e.r.z ≤ 0) (hv : 0 < e.v.z) :
    c.pass 0 ξ e = (let e := flown c.grav e (-e.r.z / e.v.z)
      if |e.r.x| > c.w1 / 2 ∨ |e.r.y| > c.h1 / 2 then .error (absorb e)
      else
        let x := e.r.x + c.w1 / 2
        let xnum : ℝ := ⌊x / (c.w1c + c.d)⌋
        let xedge := xnum * (c.w1c + c.d)
        if x - xedge > c.w1c then .error (absorb e)
        else
          let xadj := xedge + c.w1c / 2
          let y := e.r.y + c.h1 / 2
          let ynum : ℝ := ⌊y / (c.h1c + c.d)⌋
          let yedge := ynum * (c.h1c + c.d)
          if y - yedge > c.h1c then .error (absorb e)
          else
            let yadj := yedge + c.h1c / 2
            c.loop xnum ynum (xadj - c.w1 / 2) (yadj - c.h1 / 2) ξ 1001
              { e with r := ⟨x - xadj, y - yadj, e.r.z⟩ }) := by
  conv_lhs => unfold Par.pass
  rw [enter_solve hl, if_pos hv.ne']
  simp only [ne_eq, not_true_eq_false, and_false, if_false]
  rw [enter c hl e hz hv]

theorem run_plain {c : Par} (hl : 0 < c.l) (hN : 0 < c.nelements) (hc : c.nu = 0 ∧ c.phase = 0) (ξ : Nat → ℝ × ℝ) (e : Event ℝ) :
    c.run ξ e = c.pass 0 ξ e := by
  unfold Par.run
  rw [if_pos ⟨hl, hN⟩, if_neg (by simp [hc.1, hc.2])]

/-- the number of a channel -/
theorem channel {w k d x : ℝ} (hk : 0 < k) (hw : 0 < w + d) (i : ℤ) :
    (⌊(x + w / 2) / ((w - (k - 1) * d) / k + d)⌋ = i ↔ edge w k d i ≤ x ∧ x < edge w k d (i + 1)) ∧
    (x + w / 2 - i * ((w - (k - 1) * d) / k + d) > (w - (k - 1) * d) / k ↔ edge w k d (i + 1) - d < x) := by
  have hP : (w - (k - 1) * d) / k + d = (w + d) / k := by field_simp; ring
  have hpos : 0 < (w + d) / k := div_pos hw hk
  have hc : (w - (k - 1) * d) / k = (w + d) / k - d := by field_simp; ring
  rw [hP, Int.floor_eq_iff, le_div_iff₀ hpos, div_lt_iff₀ hpos, hc]
  unfold edge
  generalize (w + d) / k = P
  refine ⟨⟨fun h => ⟨by linarith [h.1], by linarith [h.2]⟩, fun h => ⟨by linarith [h.1], by linarith [h.2]⟩⟩,
    ⟨fun h => by linarith, fun h => by linarith⟩⟩

theorem inside_zero {c : Par} {i j : ℝ} {r : V3 ℝ} (hz : r.z = 0) : c.Inside i j r ↔
    (edge c.w1 c.k c.d i ≤ r.x ∧ r.x ≤ edge c.w1 c.k c.d (i + 1) - c.d) ∧ edge c.h1 c.kh c.d j ≤ r.y ∧ r.y ≤ edge c.h1 c.kh c.d (j + 1) - c.d := by
  unfold Par.Inside Par.xhi Par.yhi Par.xlo Par.ylo
  rw [hz]
  simp

theorem start_z {c : Par} {e : Event ℝ} (hv : 0 < e.v.z) : (flown c.grav e (-e.r.z / e.v.z)).r.z = 0 := by
  rw [z_flown]; field_simp; ring

theorem pass_channel {c0 c : Par} (h : c0.new = .ok c) (hl : 0 < c.l) (hN : 0 < c.nelements) (ξ : Nat → ℝ × ℝ) (e : Event ℝ)
    (hz : e.r.z ≤ 0) (hv : 0 < e.v.z) (a : Event ℝ) (ha : a = flown c.grav e (-e.r.z / e.v.z)) (i j : ℤ)
    (hop : |a.r.x| ≤ c.w1 / 2 ∧ |a.r.y| ≤ c.h1 / 2) (hin : c.Inside i j a.r) (hx : a.r.x < edge c.w1 c.k c.d (i + 1))
    (hy : a.r.y < edge c.h1 c.kh c.d (j + 1)) :
    ∃ b, c.pass 0 ξ e = c.loop i j (mid c.w1 c.k c.d i) (mid c.h1 c.kh c.d j) ξ 1001 b ∧
      shift (mid c.w1 c.k c.d i) (mid c.h1 c.kh c.d j) b = a ∧ b.r.z = 0 := by
  obtain ⟨hk, hkh, hw, hh, hd⟩ := new_ok h
  have hd := hd hl hN
  have hw0 : 0 < c.w1 := lt_of_le_of_ne (by have := (abs_nonneg _).trans hop.1; linarith) (Ne.symm hw)
  have hh0 : 0 < c.h1 := lt_of_le_of_ne (by have := (abs_nonneg _).trans hop.2; linarith) (Ne.symm hh)
  have haz : a.r.z = 0 := by rw [ha]; exact start_z hv
  rw [inside_zero haz] at hin
  obtain ⟨⟨x1, x2⟩, y1, y2⟩ := hin
  obtain ⟨cx1, cx2⟩ := channel (x := a.r.x) hk (by linarith : 0 < c.w1 + c.d) i
  obtain ⟨cy1, cy2⟩ := channel (x := a.r.y) hkh (by linarith : 0 < c.h1 + c.d) j
  have fx := cx1.2 ⟨x1, hx⟩
  have fy := cy1.2 ⟨y1, hy⟩
  rw [pass_enter hl ξ e hz hv, ← ha]
  simp only
  rw [if_neg (by push Not; exact hop)]
  unfold Par.w1c Par.h1c
  rw [fx, fy, if_neg (fun h => by have := cx2.1 h; linarith), if_neg (fun h => by have := cy2.1 h; linarith)]
  refine ⟨_, rfl, ?_, haz⟩
  unfold shift mid
  refine Event.ext ?_ rfl rfl rfl rfl rfl
  ext
  · simp only; ring
  · simp only; ring
  · rfl

theorem pass_outside {c0 c : Par} (h : c0.new = .ok c) (hl : 0 < c.l) (hN : 0 < c.nelements) (ξ : Nat → ℝ × ℝ) (e : Event ℝ)
    (hz : e.r.z ≤ 0) (hv : 0 < e.v.z) (a : Event ℝ) (ha : a = flown c.grav e (-e.r.z / e.v.z))
    (hout : ¬ (|a.r.x| ≤ c.w1 / 2 ∧ |a.r.y| ≤ c.h1 / 2) ∨ ∀ i j : ℤ, ¬ c.Inside i j a.r) : ∃ b, c.pass 0 ξ e = .error b ∧ b.p = -1 := by
  obtain ⟨hk, hkh, hw, hh, hd⟩ := new_ok h
  have hd := hd hl hN
  have haz : a.r.z = 0 := by rw [ha]; exact start_z hv
  rw [pass_enter hl ξ e hz hv, ← ha]
  simp only
  by_cases hop : |a.r.x| > c.w1 / 2 ∨ |a.r.y| > c.h1 / 2
  · rw [if_pos hop]; exact ⟨_, rfl, rfl⟩
  rw [if_neg hop]
  push Not at hop
  have hw0 : 0 < c.w1 := lt_of_le_of_ne (by have := (abs_nonneg _).trans hop.1; linarith) (Ne.symm hw)
  have hh0 : 0 < c.h1 := lt_of_le_of_ne (by have := (abs_nonneg _).trans hop.2; linarith) (Ne.symm hh)
  have hout := hout.resolve_left (by push Not; exact hop)
  unfold Par.w1c Par.h1c
  obtain ⟨cx1, cx2⟩ := channel (x := a.r.x) hk (by linarith : 0 < c.w1 + c.d) ⌊(a.r.x + c.w1 / 2) / ((c.w1 - (c.k - 1) * c.d) / c.k + c.d)⌋
  obtain ⟨cy1, cy2⟩ := channel (x := a.r.y) hkh (by linarith : 0 < c.h1 + c.d) ⌊(a.r.y + c.h1 / 2) / ((c.h1 - (c.kh - 1) * c.d) / c.kh + c.d)⌋
  split
  · exact ⟨_, rfl, rfl⟩
  split
  · exact ⟨_, rfl, rfl⟩
  next n1 n2 =>
  exfalso
  refine hout _ _ ((inside_zero haz).2 ⟨⟨(cx1.1 rfl).1, ?_⟩, (cy1.1 rfl).1, ?_⟩)
  · by_contra hn; push Not at hn; exact n1 (cx2.2 hn)
  · by_contra hn; push Not at hn; exact n2 (cy2.2 hn)

theorem step_vz {c : Par} (hw : c.w2 = c.w1) (hh : c.h2 = c.h1) {i j : ℝ} {e e' : Event ℝ} (h : c.Step i j e e') : e'.v.z = e.v.z := by
  obtain ⟨n, M, e1, q, w, ⟨s, -, hf, -, -, ⟨⟨k, hk⟩, -⟩, -, -⟩, -, -, rfl⟩ := h
  have hz := congrArg V3.z hk
  have hnz : n.z = 0 := by
    rcases hf with ⟨-, rfl, -⟩ | ⟨-, rfl, -⟩ | ⟨-, rfl, -⟩ | ⟨-, rfl, -⟩ <;> simp [Par.xslope, Par.yslope, hw, hh]
  simp only [V3.sub_z, V3.smul_z, hnz, mul_zero, vz_flown] at hz
  simp only
  linarith

theorem reach_vz {c : Par} (hw : c.w2 = c.w1) (hh : c.h2 = c.h1) {i j : ℝ} {N : Nat} {e e' : Event ℝ} (h : c.Reach i j N e e') : e'.v.z = e.v.z := by
  induction h with
  | refl => rfl
  | step hs _ ih => rw [ih, step_vz hw hh hs]

/-! ### the phase -/

theorem loop_phase (c : Par) (φ i j x y : ℝ) (ξ : Nat → ℝ × ℝ) (fuel : Nat) (e : Event ℝ) :
    Par.loop { c with phase := φ } i j x y ξ fuel e = c.loop i j x y ξ fuel e := by
  induction fuel generalizing e with
  | zero => rfl
  | succ fuel ih =>
    unfold Par.loop
    have h1 : Par.next { c with phase := φ } i j e = c.next i j e := rfl
    rw [h1]
    cases c.next i j e with
    | none => rfl
    | some To =>
      obtain ⟨T, o⟩ := To
      cases o with
      | none => rfl
      | some s =>
        simp only [ih]
        rfl

theorem pass_phase (c : Par) (φ a : ℝ) (ξ : Nat → ℝ × ℝ) (e : Event ℝ) : Par.pass { c with phase := φ } a ξ e = c.pass a ξ e := by
  unfold Par.pass
  simp only [loop_phase]
  rfl

/-- the angle matters only modulo a full turn -/
theorem turn_full (c : Par) {a b : ℝ} (h : b = a ∨ b = a + 2 * Real.pi ∨ b = a - 2 * Real.pi) (e : Event ℝ) :
    c.turn b e = c.turn a e ∧ c.turn (-b) e = c.turn (-a) e := by
  have key : ∀ a b : ℝ, (b = a ∨ b = a + 2 * Real.pi ∨ b = a - 2 * Real.pi) → c.turn b e = c.turn a e := by
    intro a b h
    have hs : Real.sin b = Real.sin a := by
      rcases h with rfl | rfl | rfl
      · rfl
      · exact Real.sin_add_two_pi _
      · exact Real.sin_sub_two_pi _
    have hc : Real.cos b = Real.cos a := by
      rcases h with rfl | rfl | rfl
      · rfl
      · exact Real.cos_add_two_pi _
      · exact Real.cos_sub_two_pi _
    unfold Par.turn rotSet
    rw [hs, hc]
  refine ⟨key a b h, key _ _ ?_⟩
  rcases h with rfl | rfl | rfl
  · exact .inl rfl
  · right; right; ring
  · right; left; ring

theorem pass_angle (c : Par) {a b : ℝ} (h : a = 0 ↔ b = 0) (ξ : Nat → ℝ × ℝ) (e : Event ℝ) : c.pass a ξ e = c.pass b ξ e := by
  unfold Par.pass
  by_cases ha : a = 0
  · have hb := h.1 ha
    simp only [ha, hb]
  · have hb : b ≠ 0 := fun hb => ha (h.2 hb)
    simp only [ne_eq, ha, hb, not_false_eq_true, and_true]

theorem half_turn {x : ℝ} (h0 : 0 ≤ x) (h90 : ∀ k : ℤ, x ≠ 90 + 180 * k) (f g : ℝ)
    (hf : f = if fmodC x 360 > 90 ∧ fmodC x 360 < 270 then fmodC x 360 - 180 else fmodC x 360)
    (hg : g = if fmodC (x + 180) 360 > 90 ∧ fmodC (x + 180) 360 < 270 then fmodC (x + 180) 360 - 180 else fmodC (x + 180) 360) :
    (g = f ∨ g = f + 360 ∨ g = f - 360) ∧ (g = 0 ↔ f = 0) := by
  obtain ⟨n, hn, h1, h2⟩ := trunc_floor (div_nonneg h0 (by norm_num : (0:ℝ) ≤ 360))
  obtain ⟨m, hm, h3, h4⟩ := trunc_floor (div_nonneg (by linarith : 0 ≤ x + 180) (by norm_num : (0:ℝ) ≤ 360))
  rw [le_div_iff₀ (by norm_num)] at h1 h3
  rw [div_lt_iff₀ (by norm_num)] at h2 h4
  have e1 : fmodC x 360 = x - n * 360 := by unfold fmodC; rw [hn]; simp
  have e2 : fmodC (x + 180) 360 = x + 180 - m * 360 := by unfold fmodC; rw [hm]; simp
  rw [e1] at hf
  rw [e2] at hg
  have n1 := h90 (2 * n)
  have n2 := h90 (2 * n + 1)
  push_cast at n1 n2
  have hnm : m = n ∨ m = n + 1 := by
    have a1 : (n : ℝ) < m + 1 := by linarith
    have a2 : (m : ℝ) < n + 2 := by linarith
    have a1' : n < m + 1 := by exact_mod_cast a1
    have a2' : m < n + 2 := by exact_mod_cast a2
    omega
  rcases hnm with rfl | rfl
  · -- the first half of the turn
    by_cases c1 : x - m * 360 > 90
    · rw [if_pos ⟨c1, by linarith⟩] at hf
      rw [if_neg (by rintro ⟨_, _⟩; linarith)] at hg
      exact ⟨by right; left; linarith, ⟨fun h => by linarith, fun h => by linarith⟩⟩
    · have c1' : x - m * 360 < 90 := by
        rcases lt_or_eq_of_le (not_lt.1 c1) with h | h
        · exact h
        · exact absurd (by linarith) n1
      rw [if_neg (by rintro ⟨_, _⟩; linarith)] at hf
      rw [if_pos ⟨by linarith, by linarith⟩] at hg
      have : g = f := by linarith
      exact ⟨.inl this, by rw [this]⟩
  · push_cast at h3 h4 hg
    by_cases c1 : x - n * 360 < 270
    · rw [if_pos ⟨by linarith, c1⟩] at hf
      rw [if_neg (by rintro ⟨_, _⟩; linarith)] at hg
      have : g = f := by linarith
      exact ⟨.inl this, by rw [this]⟩
    · have c1' : 270 < x - n * 360 := by
        rcases lt_or_eq_of_le (not_lt.1 c1) with h | h
        · exact h
        · exact absurd (by linarith) n2
      rw [if_neg (by rintro ⟨_, _⟩; linarith)] at hf
      rw [if_pos ⟨by linarith, by linarith⟩] at hg
      exact ⟨by right; right; linarith, ⟨fun h => by linarith, fun h => by linarith⟩⟩

end Verif.McGrav
