import Verif.Props.McStas
import Verif.Lemmas.McSource
import Verif.Lemmas.Homog
import Verif.Spec.McSample
/-!
Lemmas for the samples of McStas.
-/

namespace Verif.McSample
open McStas Kinem Solid McGuide McConst Homog
noncomputable section
open Classical

lemma num_ok {α : Type} {o : Option α} {a : α} (h : num o = .ok a) : o = some a := by
  cases o with
  | none => cases h
  | some b => cases h; rfl

lemma num_divD {a b : ℝ} (h : b ≠ 0) : num (divD a b) = .ok (a / b) := by rw [divD_ok h]; rfl

/-- length of a set that is two intervals up to finitely many points -/
lemma two_intervals {P : ℝ → Prop} {a b c d : ℝ} (hab : a ≤ b) (hbc : b ≤ c) (hcd : c ≤ d) {F : Set ℝ} (hF : F.Finite)
    (h : ∀ s, s ∉ F → (P s ↔ (a < s ∧ s < b) ∨ (c < s ∧ s < d))) : (MeasureTheory.volume {s | P s}).toReal = (b - a) + (d - c) := by
  have h1 : {s | P s} =ᵐ[MeasureTheory.volume] (Set.Ioo a b ∪ Set.Ioo c d : Set ℝ) := by
    have hn : ∀ᵐ s : ℝ, s ∉ F := (MeasureTheory.measure_eq_zero_iff_ae_notMem).1 (hF.measure_zero _)
    filter_upwards [hn] with s hs
    exact propext (h s hs)
  rw [MeasureTheory.measure_congr h1, MeasureTheory.measure_union _ measurableSet_Ioo, Real.volume_Ioo, Real.volume_Ioo,
    ENNReal.toReal_add ENNReal.ofReal_ne_top ENNReal.ofReal_ne_top, ENNReal.toReal_ofReal (by linarith), ENNReal.toReal_ofReal (by linarith)]
  rw [Set.disjoint_left]
  rintro s ⟨_, h2⟩ ⟨h3, _⟩
  linarith

lemma speed_eq (v : V3 ℝ) : √(v.x * v.x + v.y * v.y + v.z * v.z) = length v := by rw [Flight.length_eq]; rfl

lemma VPar.init_ok {c : VPar} {s : VVars} (h : c.init = .ok s) : (s.isrect = true ↔ c.Rect) ∧ c.V0 ≠ 0 ∧ s.my_s = c.muS ∧
    (∀ v, v ≠ 0 → s.absorption v = c.muA v) ∧ s.aw = Real.pi / 180 * c.focus_aw ∧ s.ah = Real.pi / 180 * c.focus_ah ∧ s.xw = c.focus_xw ∧
    s.yh = c.focus_yh ∧ s.t = (if c.target_index ≠ 0 then 0 else ⟨c.target_x, c.target_y, c.target_z⟩) := by
  unfold VPar.init at h
  have key : ∀ b : Bool, (b = true ↔ c.Rect) →
      ((do let rho ← num (divD c.pack c.V0)
           .ok (⟨rho * 100 * c.sig_i, rho * 100 * c.sig_a, b, Real.pi / 180 * c.focus_aw, Real.pi / 180 * c.focus_ah, c.focus_xw, c.focus_yh,
             if c.target_index ≠ 0 then 0 else ⟨c.target_x, c.target_y, c.target_z⟩⟩ : VVars)) : Except Err VVars) = .ok s →
      (s.isrect = true ↔ c.Rect) ∧ c.V0 ≠ 0 ∧ s.my_s = c.muS ∧
      (∀ v, v ≠ 0 → s.absorption v = c.muA v) ∧ s.aw = Real.pi / 180 * c.focus_aw ∧ s.ah = Real.pi / 180 * c.focus_ah ∧ s.xw = c.focus_xw ∧
      s.yh = c.focus_yh ∧ s.t = (if c.target_index ≠ 0 then 0 else ⟨c.target_x, c.target_y, c.target_z⟩) := by
    intro b hb hs
    cases hd : divD c.pack c.V0 with
    | none => rw [hd] at hs; cases hs
    | some rho =>
      obtain ⟨h0, hr⟩ := divD_some hd
      rw [hd] at hs
      cases hs
      refine ⟨hb, h0, ?_, fun v hv => ?_, rfl, rfl, rfl, rfl, rfl⟩
      · rw [hr]; unfold VPar.muS; ring
      · unfold VVars.absorption VPar.muA; rw [if_pos hv, hr]; ring
  by_cases h1 : c.xwidth = 0 ∨ c.yheight = 0 ∨ c.zthick = 0
  · have hr : ¬ c.Rect := by unfold VPar.Rect; tauto
    rw [if_pos h1] at h
    by_cases h2 : c.radius_o = 0 ∨ c.h = 0
    · rw [if_pos h2] at h; cases h
    · rw [if_neg h2] at h
      exact key false (by simpa using hr) h
  · have hr : c.Rect := by unfold VPar.Rect; tauto
    rw [if_neg h1] at h
    exact key true (by simpa using hr) h

/-- entry and exit of the whole sample -/
lemma VPar.outer_spec {c : VPar} {s : VVars} (hs : s.isrect = true ↔ c.Rect) (hc : c.Valid) {r v : V3 ℝ} (hg : c.Clear r v) :
    (c.outer s r v = .ok none ∧ ∀ τ : ℝ, ¬ c.Outer (r + τ • v)) ∨
    ∃ t0 t3, c.outer s r v = .ok (some (t0, t3)) ∧ t0 ≤ t3 ∧ ∀ τ : ℝ, c.Outer (r + τ • v) ↔ t0 ≤ τ ∧ τ ≤ t3 := by
  obtain ⟨hv, hr, hn⟩ := hg
  unfold VPar.outer VPar.Outer
  by_cases h : c.Rect
  · rw [if_pos (hs.2 h)]
    simp only [if_pos h]
    obtain ⟨hx, hy, hz⟩ := hc.2.1 h
    rcases C165_box_partial (d := ⟨c.xwidth, c.yheight, c.zthick⟩) hx hy hz hv (hr h) with ⟨h1, h2⟩ | ⟨t0, t1, h1, h2, h3⟩
    · left; rw [h1]; exact ⟨rfl, h2⟩
    · right; exact ⟨t0, t1, by rw [h1], h2.le, h3⟩
  · rw [if_neg (fun h' => h (hs.1 h'))]
    simp only [if_neg h]
    rcases C165_cylinder_partial (hn h) c.radius_o (hc.2.2 h).2.1.le (p := r) with ⟨h1, h2⟩ | ⟨k1, k2, t0, t1, h1, _, _, h2, h3⟩
    · left; rw [h1]; exact ⟨rfl, h2⟩
    · right; rw [h1]; exact ⟨t0, t1, rfl, h2, h3⟩

/-- entry and exit of the hole -/
lemma VPar.hole_spec {c : VPar} {s : VVars} (hs : s.isrect = true ↔ c.Rect) (hc : c.Valid) {r v : V3 ℝ} (hg : c.Clear r v) {t0 t3 : ℝ}
    (h03 : t0 ≤ t3) (ho : ∀ τ : ℝ, c.Outer (r + τ • v) ↔ t0 ≤ τ ∧ τ ≤ t3) :
    ∃ t1 t2, c.hole s r v t3 = .ok (t1, t2) ∧ t0 ≤ t1 ∧ t1 ≤ t2 ∧ t2 ≤ t3 ∧ (∀ τ : ℝ, t1 < τ → τ < t2 → c.Hole (r + τ • v)) ∧
      ∀ τ : ℝ, c.Hole (r + τ • v) → t1 ≤ τ ∧ τ ≤ t2 := by
  obtain ⟨hv, hr, hn⟩ := hg
  unfold VPar.hole
  by_cases h : c.Rect
  · rw [if_pos (hs.2 h)]
    exact ⟨t3, t3, rfl, h03, le_rfl, le_rfl, fun τ h1 h2 => absurd h1 (not_lt.2 h2.le), fun τ h1 => absurd h h1.1⟩
  · rw [if_neg (fun h' => h (hs.1 h'))]
    by_cases hi : c.radius_i = 0
    · rw [if_pos hi]
      exact ⟨t3, t3, rfl, h03, le_rfl, le_rfl, fun τ h1 h2 => absurd h1 (not_lt.2 h2.le), fun τ h1 => absurd hi h1.2.1⟩
    · rw [if_neg hi]
      rcases C165_cylinder_partial (hn h) c.radius_i (hc.2.2 h).2.1.le (p := r) with ⟨h1, h2⟩ | ⟨k1, k2, t1, t2, h1, _, _, h2, h3⟩
      · rw [h1]
        exact ⟨t3, t3, rfl, h03, le_rfl, le_rfl, fun τ h1 h2 => absurd h1 (not_lt.2 h2.le), fun τ h' => absurd h'.2.2 (h2 τ)⟩
      · rw [h1]
        have hio : ∀ τ, InCylinder r v c.radius_i c.h τ → c.Outer (r + τ • v) := by
          intro τ h'
          unfold VPar.Outer
          rw [if_neg h]
          refine ⟨h'.1.trans ?_, h'.2⟩
          exact pow_le_pow_left₀ (hc.2.2 h).2.2.1 (hc.2.2 h).2.2.2 2
        refine ⟨t1, t2, rfl, ((ho t1).1 (hio t1 ((h3 t1).2 ⟨le_rfl, h2⟩))).1, h2, ((ho t2).1 (hio t2 ((h3 t2).2 ⟨h2, le_rfl⟩))).2,
          fun τ h4 h5 => ⟨h, hi, (h3 τ).2 ⟨h4.le, h5.le⟩⟩, fun τ h' => (h3 τ).1 h'.2.2⟩

/-- length of the way in the sample in a window of time -/
lemma VPar.way_eq {c : VPar} {r v : V3 ℝ} {t0 t1 t2 t3 : ℝ} (h0 : 0 ≤ t0) (h1 : t0 ≤ t1) (h2 : t1 ≤ t2) (h3 : t2 ≤ t3)
    (ho : ∀ τ : ℝ, c.Outer (r + τ • v) ↔ t0 ≤ τ ∧ τ ≤ t3) (hh : ∀ τ : ℝ, t1 < τ → τ < t2 → c.Hole (r + τ • v))
    (hh' : ∀ τ : ℝ, c.Hole (r + τ • v) → t1 ≤ τ ∧ τ ≤ t2) :
    way c.Material r v (Set.Ici 0) = length v * ((t1 - t0) + (t3 - t2)) ∧
    (∀ T, t0 ≤ T → T ≤ t1 → way c.Material r v (Set.Icc 0 T) = length v * (T - t0)) ∧
    (∀ T, t2 ≤ T → T ≤ t3 → way c.Material r v (Set.Icc 0 T) = length v * ((t1 - t0) + (T - t2))) := by
  have key : ∀ τ, τ ≠ t0 → τ ≠ t1 → τ ≠ t2 → τ ≠ t3 → (c.Material (r + τ • v) ↔ (t0 < τ ∧ τ < t1) ∨ (t2 < τ ∧ τ < t3)) := by
    intro τ n0 n1 n2 n3
    unfold VPar.Material
    rw [ho]
    constructor
    · rintro ⟨⟨a, b⟩, d⟩
      rcases lt_or_gt_of_ne n1 with h | h
      · exact .inl ⟨lt_of_le_of_ne a n0.symm, h⟩
      · rcases lt_or_gt_of_ne n2 with h' | h'
        · exact absurd (hh τ h h') d
        · exact .inr ⟨h', lt_of_le_of_ne b n3⟩
    · rintro (⟨a, b⟩ | ⟨a, b⟩)
      · exact ⟨⟨a.le, by linarith⟩, fun h => by have := (hh' τ h).1; linarith⟩
      · exact ⟨⟨by linarith, b.le⟩, fun h => by have := (hh' τ h).2; linarith⟩
  have fin : ∀ T : ℝ, ({0, T, t0, t1, t2, t3} : Set ℝ).Finite := fun T => Set.toFinite _
  unfold way
  refine ⟨?_, fun T a b => ?_, fun T a b => ?_⟩
  · rw [two_intervals h1 h2 h3 (fin 0) (P := fun s => s ∈ Set.Ici 0 ∧ c.Material (r + s • v))]
    intro τ hτ
    simp only [Set.mem_insert_iff, Set.mem_singleton_iff, not_or] at hτ
    rw [key τ hτ.2.2.1 hτ.2.2.2.1 hτ.2.2.2.2.1 hτ.2.2.2.2.2, Set.mem_Ici]
    constructor
    · exact fun h => h.2
    · intro h
      refine ⟨?_, h⟩
      rcases h with h | h <;> linarith [h.1]
  · rw [two_intervals a (le_refl T) (le_refl T) (fin T) (P := fun s => s ∈ Set.Icc 0 T ∧ c.Material (r + s • v))]
    · ring
    intro τ hτ
    simp only [Set.mem_insert_iff, Set.mem_singleton_iff, not_or] at hτ
    rw [key τ hτ.2.2.1 hτ.2.2.2.1 hτ.2.2.2.2.1 hτ.2.2.2.2.2, Set.mem_Icc]
    constructor
    · rintro ⟨⟨_, g⟩, h | h⟩
      · exact .inl ⟨h.1, lt_of_le_of_ne g hτ.2.1⟩
      · linarith [h.1]
    · rintro (⟨g, g'⟩ | ⟨g, g'⟩)
      · exact ⟨⟨by linarith, g'.le⟩, .inl ⟨g, by linarith⟩⟩
      · linarith
  · rw [two_intervals h1 h2 a (fin T) (P := fun s => s ∈ Set.Icc 0 T ∧ c.Material (r + s • v))]
    intro τ hτ
    simp only [Set.mem_insert_iff, Set.mem_singleton_iff, not_or] at hτ
    rw [key τ hτ.2.2.1 hτ.2.2.2.1 hτ.2.2.2.2.1 hτ.2.2.2.2.2, Set.mem_Icc]
    constructor
    · rintro ⟨⟨_, g⟩, h | h⟩
      · exact .inl h
      · exact .inr ⟨h.1, lt_of_le_of_ne g hτ.2.1⟩
    · rintro (⟨g, g'⟩ | ⟨g, g'⟩)
      · exact ⟨⟨by linarith, by linarith⟩, .inl ⟨g, g'⟩⟩
      · exact ⟨⟨by linarith, by linarith⟩, .inr ⟨g, by linarith⟩⟩

/-- the time in the material after scattering -/
lemma VPar.leave_spec {c : VPar} {s : VVars} (hs : s.isrect = true ↔ c.Rect) (hc : c.Valid) {r v : V3 ℝ} (hg : c.Clear r v)
    (hr : c.Outer r) (hi : ¬ c.Hole r) : ∃ T, c.leave s r v = .ok T ∧ length v * T = way c.Material r v (Set.Ici 0) := by
  have r0 : r + (0 : ℝ) • v = r := by ext <;> simp
  rcases c.outer_spec hs hc hg with ⟨_, h⟩ | ⟨t0, t3, h, h03, ho⟩
  · exact absurd hr (r0 ▸ h 0)
  have hb := (ho 0).1 (r0.symm ▸ hr)
  have fin : ∀ a b : ℝ, ({0, a, b, t3} : Set ℝ).Finite := fun a b => Set.toFinite _
  unfold VPar.leave
  rw [h]
  by_cases hq : c.Rect
  · refine ⟨t3, ?_, ?_⟩
    · show (if s.isrect = true then (Except.ok t3 : Except Err ℝ) else _) = _
      rw [if_pos (hs.2 hq)]
    · unfold way
      rw [two_intervals hb.2 (le_refl t3) (le_refl t3) (fin 0 0) (P := fun τ => τ ∈ Set.Ici 0 ∧ c.Material (r + τ • v))]
      · ring
      intro τ hτ
      simp only [Set.mem_insert_iff, Set.mem_singleton_iff, not_or] at hτ
      have hn : ¬ c.Hole (r + τ • v) := fun h => h.1 hq
      unfold VPar.Material
      rw [ho, Set.mem_Ici]
      constructor
      · rintro ⟨a, ⟨_, b⟩, _⟩
        exact .inl ⟨lt_of_le_of_ne a (Ne.symm hτ.1), lt_of_le_of_ne b hτ.2.2.2⟩
      · rintro (⟨a, b⟩ | ⟨a, b⟩)
        · exact ⟨a.le, ⟨by linarith, b.le⟩, hn⟩
        · linarith
  · have hq' : ¬ s.isrect = true := fun h => hq (hs.1 h)
    rcases C165_cylinder_partial (hg.2.2 hq) c.radius_i (hc.2.2 hq).2.1.le (p := r) with ⟨h1, h2⟩ | ⟨k1, k2, t1, t2, h1, _, _, h2, h3⟩
    · refine ⟨t3, ?_, ?_⟩
      · show (if s.isrect = true then (Except.ok t3 : Except Err ℝ) else _) = _
        rw [if_neg hq', h1]; rfl
      · unfold way
        rw [two_intervals hb.2 (le_refl t3) (le_refl t3) (fin 0 0) (P := fun τ => τ ∈ Set.Ici 0 ∧ c.Material (r + τ • v))]
        · ring
        intro τ hτ
        simp only [Set.mem_insert_iff, Set.mem_singleton_iff, not_or] at hτ
        have hn : ¬ c.Hole (r + τ • v) := fun h => h2 τ h.2.2
        unfold VPar.Material
        rw [ho, Set.mem_Ici]
        constructor
        · rintro ⟨a, ⟨_, b⟩, _⟩
          exact .inl ⟨lt_of_le_of_ne a (Ne.symm hτ.1), lt_of_le_of_ne b hτ.2.2.2⟩
        · rintro (⟨a, b⟩ | ⟨a, b⟩)
          · exact ⟨a.le, ⟨by linarith, b.le⟩, hn⟩
          · linarith
    · -- the cylinder of the hole is met; without a hole it is met in one point at most
      have hole : ∀ τ : ℝ, τ ≠ t1 → τ ≠ t2 → (c.Hole (r + τ • v) ↔ t1 < τ ∧ τ < t2) := by
        intro τ n1 n2
        constructor
        · intro h
          have := (h3 τ).1 h.2.2
          exact ⟨lt_of_le_of_ne this.1 n1.symm, lt_of_le_of_ne this.2 n2⟩
        · rintro ⟨a, b⟩
          refine ⟨hq, fun hi0 => ?_, (h3 τ).2 ⟨a.le, b.le⟩⟩
          have e1 := ((h3 τ).2 ⟨a.le, b.le⟩).1
          have e2 := ((h3 t1).2 ⟨le_rfl, h2⟩).1
          rw [hi0] at e1 e2
          have hx1 : r.x + τ * v.x = 0 := by nlinarith [sq_nonneg (r.x + τ * v.x), sq_nonneg (r.z + τ * v.z)]
          have hz1 : r.z + τ * v.z = 0 := by nlinarith [sq_nonneg (r.x + τ * v.x), sq_nonneg (r.z + τ * v.z)]
          have hx2 : r.x + t1 * v.x = 0 := by nlinarith [sq_nonneg (r.x + t1 * v.x), sq_nonneg (r.z + t1 * v.z)]
          have hz2 : r.z + t1 * v.z = 0 := by nlinarith [sq_nonneg (r.x + t1 * v.x), sq_nonneg (r.z + t1 * v.z)]
          rcases hg.2.2 hq with hv | hv
          · have : (τ - t1) * v.x = 0 := by linarith
            rcases mul_eq_zero.1 this with h | h
            · linarith
            · exact hv h
          · have : (τ - t1) * v.z = 0 := by linarith
            rcases mul_eq_zero.1 this with h | h
            · linarith
            · exact hv h
      have out : ∀ τ, InCylinder r v c.radius_i c.h τ → c.Outer (r + τ • v) := by
        intro τ h'
        unfold VPar.Outer
        rw [if_neg hq]
        exact ⟨h'.1.trans (pow_le_pow_left₀ (hc.2.2 hq).2.2.1 (hc.2.2 hq).2.2.2 2), h'.2⟩
      have h23 : t2 ≤ t3 := ((ho t2).1 (out t2 ((h3 t2).2 ⟨h2, le_rfl⟩))).2
      by_cases ht : t2 > 0
      · refine ⟨t3 - (t2 - t1), ?_, ?_⟩
        · show (if s.isrect = true then (Except.ok t3 : Except Err ℝ) else _) = _
          rw [if_neg hq', h1]
          show (if t2 > 0 then _ else _) = _
          rw [if_pos ht]
        · have ht1 : 0 ≤ t1 := by
            by_contra hlt
            push Not at hlt
            have := (hole 0 hlt.ne' ht.ne).2 ⟨hlt, ht⟩
            rw [r0] at this
            exact hi this
          unfold way
          rw [two_intervals ht1 h2 h23 (fin t1 t2) (P := fun τ => τ ∈ Set.Ici 0 ∧ c.Material (r + τ • v))]
          · ring
          intro τ hτ
          simp only [Set.mem_insert_iff, Set.mem_singleton_iff, not_or] at hτ
          unfold VPar.Material
          rw [ho, Set.mem_Ici, hole τ hτ.2.1 hτ.2.2.1]
          constructor
          · rintro ⟨a, ⟨_, b⟩, d⟩
            have a' := lt_of_le_of_ne a (Ne.symm hτ.1)
            have b' := lt_of_le_of_ne b hτ.2.2.2
            rcases lt_or_gt_of_ne hτ.2.1 with g | g
            · exact .inl ⟨a', g⟩
            · rcases lt_or_gt_of_ne hτ.2.2.1 with g' | g'
              · exact absurd ⟨g, g'⟩ d
              · exact .inr ⟨g', b'⟩
          · rintro (⟨a, b⟩ | ⟨a, b⟩)
            · exact ⟨a.le, ⟨by linarith, by linarith⟩, fun h => by linarith [h.1]⟩
            · exact ⟨by linarith, ⟨by linarith, b.le⟩, fun h => by linarith [h.2]⟩
      · refine ⟨t3, ?_, ?_⟩
        · show (if s.isrect = true then (Except.ok t3 : Except Err ℝ) else _) = _
          rw [if_neg hq', h1]
          show (if t2 > 0 then _ else _) = _
          rw [if_neg ht]
        · push Not at ht
          unfold way
          rw [two_intervals hb.2 (le_refl t3) (le_refl t3) (fin t1 t2) (P := fun τ => τ ∈ Set.Ici 0 ∧ c.Material (r + τ • v))]
          · ring
          intro τ hτ
          simp only [Set.mem_insert_iff, Set.mem_singleton_iff, not_or] at hτ
          unfold VPar.Material
          rw [ho, Set.mem_Ici, hole τ hτ.2.1 hτ.2.2.1]
          constructor
          · rintro ⟨a, ⟨_, b⟩, d⟩
            exact .inl ⟨lt_of_le_of_ne a (Ne.symm hτ.1), lt_of_le_of_ne b hτ.2.2.2⟩
          · rintro (⟨a, b⟩ | ⟨a, b⟩)
            · exact ⟨a.le, ⟨by linarith, by linarith⟩, fun h => by linarith [h.2]⟩
            · linarith

lemma norm_ne {d : V3 ℝ} {w : ℝ} (h : w • norm d ≠ 0) : d ≠ 0 := by
  intro h'
  apply h
  rw [h', norm_zero]
  ext <;> simp

lemma length_dir {d : V3 ℝ} {w : ℝ} (hw : 0 ≤ w) (h : w • norm d ≠ 0) : length (w • norm d) = w := by
  rw [McSource.length_smul, abs_of_nonneg hw, Flight.length_eq, norm_unit (norm_ne h), Real.sqrt_one, mul_one]

/-- there is always a time of exit -/
lemma VPar.leave_ok {c : VPar} {s : VVars} (hs : s.isrect = true ↔ c.Rect) (hc : c.Valid) {r v : V3 ℝ} (hg : c.Clear r v)
    (hr : c.Outer r) : ∃ T, c.leave s r v = .ok T ∧ (¬ c.Hole r → length v * T = way c.Material r v (Set.Ici 0)) := by
  by_cases hi : c.Hole r
  · have r0 : r + (0 : ℝ) • v = r := by ext <;> simp
    rcases c.outer_spec hs hc hg with ⟨_, h⟩ | ⟨t0, t3, h, h03, ho⟩
    · exact absurd hr (r0 ▸ h 0)
    unfold VPar.leave
    rw [h]
    have hq' : ¬ s.isrect = true := fun h => hi.1 (hs.1 h)
    show ∃ T, (if s.isrect = true then (Except.ok t3 : Except Err ℝ) else _) = _ ∧ _
    rw [if_neg hq']
    rcases C165_cylinder_partial (hg.2.2 hi.1) c.radius_i (hc.2.2 hi.1).2.1.le (p := r) with ⟨h1, h2⟩ | ⟨k1, k2, t1, t2, h1, _, _, h2, h3⟩
    · rw [h1]; exact ⟨t3, rfl, fun h => absurd hi h⟩
    · rw [h1]
      show ∃ T, (if t2 > 0 then (Except.ok (t3 - (t2 - t1)) : Except Err ℝ) else .ok t3) = _ ∧ _
      by_cases ht : t2 > 0
      · exact ⟨_, if_pos ht, fun h => absurd hi h⟩
      · exact ⟨_, if_neg ht, fun h => absurd hi h⟩
  · obtain ⟨T, h1, h2⟩ := VPar.leave_spec hs hc hg hr hi
    exact ⟨T, h1, fun _ => h2⟩

/-- the scattered neutron -/
lemma VPar.scatter_eq {c : VPar} {s : VVars} (hi : c.init = .ok s) (hc : c.Valid) (hf : c.frac ≠ 0) {e : Event ℝ} (hg : c.Clear e.r e.v)
    {t0 t1 t2 t3 : ℝ} (h0 : 0 ≤ t0) (h1 : t0 ≤ t1) (h2 : t1 ≤ t2) (h3 : t2 ≤ t3)
    (ho : ∀ τ : ℝ, c.Outer (e.r + τ • e.v) ↔ t0 ≤ τ ∧ τ ≤ t3) (hh : ∀ τ : ℝ, t1 < τ → τ < t2 → c.Hole (e.r + τ • e.v))
    (hh' : ∀ τ : ℝ, c.Hole (e.r + τ • e.v) → t1 ≤ τ ∧ τ ≤ t2) {ud : ℝ} (u0 : 0 ≤ ud) (u1' : ud ≤ 1) :
    ∃ T : ℝ, 0 ≤ T ∧ c.Outer (e.r + T • e.v) ∧ T = t0 + ud * ((t1 - t0) + (t3 - t2)) + (if t1 - t0 < ud * ((t1 - t0) + (t3 - t2)) then t2 - t1 else 0) ∧
      way c.Material e.r e.v (Set.Icc 0 T) = ud * way c.Material e.r e.v (Set.Ici 0) ∧
      ∀ u1 u2 uq ue d Ω vf, c.direction s (s.aim (e.r + T • e.v)) u1 u2 = .ok (d, Ω) → Ω ≠ 0 → c.speed (length e.v) uq ue = some vf → 0 < vf →
        c.Clear (e.r + T • e.v) (vf • norm d) →
        ∃ (e' : Event ℝ) (L : ℝ), c.scatter s Off t0 t1 t2 t3 e ud u1 u2 uq ue = .ok e' ∧ e'.r = e.r + T • e.v ∧ e'.t = e.t + T ∧ e'.s1 = e.s1 ∧
          e'.s2 = e.s2 ∧ e'.v = vf • norm d ∧ 
          e'.p = e.p * Real.exp (-(c.muS + c.muA (length e.v)) * way c.Material e.r e.v (Set.Icc 0 T)) *
            (c.muS * way c.Material e.r e.v (Set.Ici 0)) * (length e'.v / length e.v) * (Ω / (4 * Real.pi)) *
            Real.exp (-c.muA (length e'.v) * L) / c.frac ∧ (¬ c.Hole (e.r + T • e.v) → L = way c.Material e'.r e'.v (Set.Ici 0)) := by
  obtain ⟨hs, _, hms, hma, -, -, -, -, -⟩ := VPar.init_ok hi
  obtain ⟨w1, w2, w3⟩ := VPar.way_eq h0 h1 h2 h3 ho hh hh'
  have hl : 0 < length e.v := Kinem.length_pos hg.1
  set dt := ud * ((t1 - t0) + (t3 - t2)) with hdt
  have d0 : 0 ≤ dt := mul_nonneg u0 (by linarith)
  have d1 : dt ≤ (t1 - t0) + (t3 - t2) := by
    have := mul_le_mul_of_nonneg_right u1' (show 0 ≤ (t1 - t0) + (t3 - t2) by linarith)
    linarith
  obtain ⟨T, hT, hT0, hTo, hTw⟩ : ∃ T, (if dt > t1 - t0 then dt + (t2 - t1) else dt) + t0 = T ∧ 0 ≤ T ∧ (t0 ≤ T ∧ T ≤ t3) ∧
      way c.Material e.r e.v (Set.Icc 0 T) = length e.v * dt := by
    by_cases h : dt > t1 - t0
    · refine ⟨_, rfl, ?_⟩
      rw [if_pos h]
      refine ⟨by linarith, ⟨by linarith, by linarith⟩, ?_⟩
      rw [w3 _ (by linarith) (by linarith)]; ring
    · refine ⟨_, rfl, ?_⟩
      rw [if_neg h]
      push Not at h
      refine ⟨by linarith, ⟨by linarith, by linarith⟩, ?_⟩
      rw [w2 _ (by linarith) (by linarith)]; ring
  refine ⟨T, hT0, (ho T).2 hTo, ?_, by rw [hTw, w1, hdt]; ring, fun u1 u2 uq ue d Ω vf hd hΩ hvf hvf0 hcl => ?_⟩
  · rw [← hT]
    by_cases h : dt > t1 - t0
    · rw [if_pos h, if_pos h]; ring
    · rw [if_neg h, if_neg h]; ring
  have hprop : propDt Off T e = { e with r := e.r + T • e.v, t := e.t + T } := by
    rw [(C160_dt Off T e).1 (by linarith), flown]
    ext <;> simp [accel, Off]
  have hvec : (⟨(norm d).x * vf, (norm d).y * vf, (norm d).z * vf⟩ : V3 ℝ) = vf • norm d := by ext <;> simp <;> ring
  obtain ⟨L, hL, hLw⟩ := VPar.leave_ok hs hc hcl ((ho T).2 hTo)
  unfold VPar.scatter
  simp only [speed_eq, ← hdt, hT, hprop, hd, hvf]
  simp only [bind, Except.bind, num_divD hl.ne', num_divD hvf0.ne', num_divD hΩ, num_divD hf,
    num_divD (div_ne_zero (mul_ne_zero (by norm_num : (4 : ℝ) ≠ 0) Real.pi_ne_zero) hΩ)]
  simp only [hvec, hL]
  refine ⟨_, vf * L, rfl, rfl, rfl, rfl, rfl, rfl, ?_, fun h => by rw [← hLw h, length_dir hvf0.le hcl.1]⟩
  have hlv := length_dir hvf0.le hcl.1
  simp only
  rw [hTw, w1, hlv, hma _ hl.ne', hms]
  have hA : c.muA vf = c.muA (length e.v) * (length e.v / vf) := by
    unfold VPar.muA
    field_simp
  rw [hA]
  have hE : Real.exp (-c.muA (length e.v) * (length e.v * dt + length e.v / vf * (vf * L)) - c.muS * (length e.v * dt)) =
      Real.exp (-(c.muS + c.muA (length e.v)) * (length e.v * dt)) * Real.exp (-(c.muA (length e.v) * (length e.v / vf)) * (vf * L)) := by
    rw [← Real.exp_add]
    congr 1
    ring
  rw [hE]
  have hpi := Real.pi_pos
  field_simp

/-- the neutron that meets the sample -/
lemma VPar.trace_hit {c : VPar} {s : VVars} (hi : c.init = .ok s) (hc : c.Valid) {e : Event ℝ} (hg : c.Clear e.r e.v) {τ : ℝ}
    (hhit : c.Outer (e.r + τ • e.v)) (hb : ∀ τ : ℝ, τ < 0 → ¬ c.Outer (e.r + τ • e.v)) :
    ∃ t0 t1 t2 t3, 0 ≤ t0 ∧ t0 ≤ t1 ∧ t1 ≤ t2 ∧ t2 ≤ t3 ∧ (∀ τ : ℝ, c.Outer (e.r + τ • e.v) ↔ t0 ≤ τ ∧ τ ≤ t3) ∧
      (∀ τ : ℝ, t1 < τ → τ < t2 → c.Hole (e.r + τ • e.v)) ∧ (∀ τ : ℝ, c.Hole (e.r + τ • e.v) → t1 ≤ τ ∧ τ ≤ t2) ∧
      ∀ ub ud u1 u2 uq ue, c.trace s Off e ub ud u1 u2 uq ue =
        if c.frac ≥ 1 ∨ ub < c.frac then c.scatter s Off t0 t1 t2 t3 e ud u1 u2 uq ue
        else (num (divD (e.p * Real.exp (-(c.muA (length e.v) + c.muS) * way c.Material e.r e.v (Set.Ici 0))) (1 - c.frac))).map
          fun p => { e with p := p } := by
  obtain ⟨hs, _, hms, hma, -, -, -, -, -⟩ := VPar.init_ok hi
  rcases c.outer_spec hs hc hg with ⟨_, h⟩ | ⟨t0, t3, h, h03, ho⟩
  · exact absurd hhit (h τ)
  have h0 : 0 ≤ t0 := by
    by_contra hc'
    push Not at hc'
    exact hb t0 hc' ((ho t0).2 ⟨le_rfl, h03⟩)
  obtain ⟨t1, t2, hho, h1, h2, h3, hh, hh'⟩ := c.hole_spec hs hc hg h03 ho
  refine ⟨t0, t1, t2, t3, h0, h1, h2, h3, ho, hh, hh', fun ub ud u1 u2 uq ue => ?_⟩
  obtain ⟨w1, -, -⟩ := VPar.way_eq h0 h1 h2 h3 ho hh hh'
  unfold VPar.trace
  rw [h]
  show (if t0 < 0 then _ else _) = _
  rw [if_neg (not_lt.2 h0), hho]
  show (if c.frac ≥ 1 ∨ ub < c.frac then _ else _) = _
  by_cases hq : c.frac ≥ 1 ∨ ub < c.frac
  · rw [if_pos hq, if_pos hq]
  · rw [if_neg hq, if_neg hq, w1]
    simp only [speed_eq]
    rw [hma _ (Kinem.length_pos hg.1).ne', hms]
    cases num (divD (e.p * Real.exp (-(c.muA (length e.v) + c.muS) * (length e.v * (t1 - t0 + (t3 - t2))))) (1 - c.frac)) <;> rfl

lemma mean_congr_off {f g : ℝ → ℝ} {F : Set ℝ} (hF : F.Finite) (h : ∀ u, 0 < u → u < 1 → u ∉ F → f u = g u) : mean f = mean g := by
  unfold mean
  apply intervalIntegral.integral_congr_ae
  have hn : ∀ᵐ s : ℝ, s ∉ F ∪ {1} := (MeasureTheory.measure_eq_zero_iff_ae_notMem).1 ((hF.union (Set.toFinite _)).measure_zero _)
  filter_upwards [hn] with s hs hs'
  rw [Set.uIoc_of_le zero_le_one] at hs'
  simp only [Set.mem_union, Set.mem_singleton_iff, not_or] at hs
  exact h s hs'.1 (lt_of_le_of_ne hs'.2 hs.2) hs.1

/-- the cylinder of the examples: radius 1, height 2, with a hole of the radius `ri`; everything is scattered into the whole sphere -/
def ex (ri frac : ℝ) : VPar := ⟨ri, 1, 2, 0, 1, frac, 0, 0, 0, 0, 0, 0, 0, 0, 0, 0, 0, 0, 0, 0.01, 1, 0⟩
/-- its variables -/
def exv : VVars := ⟨1, 0, false, 0, 0, 0, 0, ⟨0, 0, 0⟩⟩

lemma ex_init (ri frac : ℝ) : (ex ri frac).init = .ok exv := by
  unfold VPar.init ex exv
  simp only [true_or, if_true]
  rw [if_neg (by norm_num), num_divD (by norm_num)]
  norm_num [bind, Except.bind]

lemma ex_rect (ri frac : ℝ) : ¬ (ex ri frac).Rect := by unfold VPar.Rect ex; norm_num

lemma ex_valid {ri frac : ℝ} (h0 : 0 ≤ ri) (h1 : ri ≤ 1) : (ex ri frac).Valid :=
  ⟨by norm_num [ex], fun h => absurd h (ex_rect _ _), fun _ => ⟨by norm_num [ex], by norm_num [ex], h0, h1⟩⟩

/-- a neutron on the z axis -/
def exe : Event ℝ := ⟨⟨0, 0, -2⟩, ⟨0, 0, 1⟩, 0, 0, 0, 1⟩

lemma ex_clear (ri frac : ℝ) : (ex ri frac).Clear exe.r exe.v :=
  ⟨fun h => by have := congrArg V3.z h; norm_num [exe] at this, fun h => absurd h (ex_rect _ _), fun _ => .inr (by norm_num [exe])⟩

lemma ex_outer (ri frac τ : ℝ) : (ex ri frac).Outer (exe.r + τ • exe.v) ↔ (τ - 2) ^ 2 ≤ 1 := by
  unfold VPar.Outer
  rw [if_neg (ex_rect _ _)]
  simp only [ex, exe, V3.add_x, V3.add_y, V3.add_z, V3.smul_x, V3.smul_y, V3.smul_z]
  norm_num
  rw [show -2 + τ = τ - 2 by ring]

lemma ex_dir (ri frac : ℝ) : ∃ d, (∀ q, (ex ri frac).direction exv (exv.aim q) (1 / 2) 0 = .ok (d, 4 * Real.pi)) ∧
    ∀ r, (ex ri frac).Clear r (length exe.v • norm d) := by
  have ht : (⟨0, 0, 1⟩ : V3 ℝ) ≠ 0 := by intro h; have := congrArg V3.z h; norm_num at this
  obtain ⟨_, hl, hab⟩ := upright_spec ht
  have hs := targetSphere_eq ht (u1 := 1 / 2) (by norm_num) (by norm_num) 0
  obtain ⟨s1, s2⟩ := Sampling.around_spec hab (c := 1 - 2 * (1 / 2)) (by norm_num) (2 * Real.pi * 0)
  generalize Sampling.around (upright ⟨0, 0, 1⟩) _ _ _ _ = d at s1 s2 hs
  refine ⟨d, fun q => ?_, fun r => ?_⟩
  · have ha : exv.aim q = ⟨0, 0, 1⟩ := by unfold VVars.aim exv; simp
    unfold VPar.direction
    rw [if_neg (by simp [exv]), if_neg (by simp [exv]), ha]
    show num (targetCircle ⟨0, 0, 1⟩ 0 (1 / 2) 0) = _
    rw [hs]
    rfl
  · have h1 : length (⟨0, 0, 1⟩ : V3 ℝ) = 1 := by rw [Flight.length_eq]; norm_num [V3.dot]
    have hu : upright ⟨0, 0, 1⟩ = ⟨0, 1, 0⟩ := by unfold upright; rw [h1]
    rw [hu] at s1 s2
    simp only [V3.dot] at s1 s2
    norm_num at s1 s2
    have hd : d ≠ 0 := by
      intro h
      rw [h] at s1
      simp at s1
    have hld : 0 < length d := Kinem.length_pos hd
    have hle : 0 < length exe.v := Kinem.length_pos (ex_clear 0 0).1
    have hxz : d.x ≠ 0 ∨ d.z ≠ 0 := by
      by_contra hc
      push Not at hc
      rw [hc.1, hc.2, s2] at s1
      norm_num at s1
    have hxz' : (length exe.v • norm d).x ≠ 0 ∨ (length exe.v • norm d).z ≠ 0 := by
      rw [norm_eq hd]
      simp only [V3.smul_x, V3.smul_z]
      rcases hxz with h | h
      · left; positivity
      · right; positivity
    refine ⟨fun h => ?_, fun h => absurd h (ex_rect _ _), fun _ => hxz'⟩
    rw [h] at hxz'
    simp at hxz'

lemma mean_two {a : ℝ} (h0 : 0 ≤ a) (h1 : a ≤ 1) (A B : ℝ) {f : ℝ → ℝ} (hA : ∀ u, 0 < u → u < a → f u = A) (hB : ∀ u, a < u → u < 1 → f u = B) :
    mean f = a * A + (1 - a) * B := by
  have key : ∀ {x y c : ℝ}, x ≤ y → (∀ u, x < u → u < y → f u = c) →
      IntervalIntegrable f MeasureTheory.volume x y ∧ ∫ u in x..y, f u = (y - x) * c := by
    intro x y c hxy hf
    have hae : (fun _ : ℝ => c) =ᵐ[MeasureTheory.volume.restrict (Set.uIoc x y)] f := by
      rw [Set.uIoc_of_le hxy, ← MeasureTheory.restrict_Ioo_eq_restrict_Ioc]
      filter_upwards [MeasureTheory.ae_restrict_mem measurableSet_Ioo] with u hu
      exact (hf u hu.1 hu.2).symm
    constructor
    · exact (intervalIntegrable_const (c := c)).congr_ae hae
    · have : ∫ u in x..y, f u = ∫ _u in x..y, c := by
        apply intervalIntegral.integral_congr_ae_restrict
        exact hae.symm
      rw [this, intervalIntegral.integral_const, smul_eq_mul]
  obtain ⟨i1, e1⟩ := key h0 hA
  obtain ⟨i2, e2⟩ := key h1 hB
  rw [mean, ← intervalIntegral.integral_add_adjacent_intervals i1 i2, e1, e2]
  ring

/-- the mean weight of the scattered neutrons without absorption, for one direction -/
lemma VPar.mean_scatter {c : VPar} {s : VVars} (hi : c.init = .ok s) (hc : c.Valid) (hf : c.frac ≠ 0) {e : Event ℝ} (hg : c.Clear e.r e.v)
    (ha : c.sig_a = 0) (hq : c.f_QE ≤ 0)
    {t0 t1 t2 t3 : ℝ} (h0 : 0 ≤ t0) (h1 : t0 ≤ t1) (h2 : t1 ≤ t2) (h3 : t2 ≤ t3)
    (ho : ∀ τ : ℝ, c.Outer (e.r + τ • e.v) ↔ t0 ≤ τ ∧ τ ≤ t3) (hh : ∀ τ : ℝ, t1 < τ → τ < t2 → c.Hole (e.r + τ • e.v))
    (hh' : ∀ τ : ℝ, c.Hole (e.r + τ • e.v) → t1 ≤ τ ∧ τ ≤ t2) {u1 u2 : ℝ} {d : V3 ℝ}
    (hd : ∀ q, c.Outer q → c.direction s (s.aim q) u1 u2 = .ok (d, 4 * Real.pi))
    (hout : {τ : ℝ | c.Outer (e.r + τ • e.v) ∧ ¬ c.Clear (e.r + τ • e.v) (length e.v • norm d)}.Finite) {uq ue : ℝ} (huq : 0 ≤ uq) :
    mean (fun ud => weight (c.scatter s Off t0 t1 t2 t3 e ud u1 u2 uq ue)) =
      e.p * (1 - Real.exp (-c.muS * way c.Material e.r e.v (Set.Ici 0))) / c.frac := by
  have hl : 0 < length e.v := Kinem.length_pos hg.1
  obtain ⟨w1, -, -⟩ := VPar.way_eq h0 h1 h2 h3 ho hh hh'
  set B := {τ : ℝ | c.Outer (e.r + τ • e.v) ∧ ¬ c.Clear (e.r + τ • e.v) (length e.v • norm d)} with hB
  set Z := (t1 - t0) + (t3 - t2) with hZ
  have hZ0 : 0 ≤ Z := by linarith
  -- the random numbers that lead to an edge
  have hfin : ({ud : ℝ | (t0 + ud * Z + (if t1 - t0 < ud * Z then t2 - t1 else 0)) ∈ B ∧ Z ≠ 0}).Finite := by
    by_cases hz : Z = 0
    · simp [hz]
    · have : {ud : ℝ | (t0 + ud * Z + (if t1 - t0 < ud * Z then t2 - t1 else 0)) ∈ B ∧ Z ≠ 0} ⊆
          (fun τ => (τ - t0) / Z) '' B ∪ (fun τ => (τ - t0 - (t2 - t1)) / Z) '' B := by
        rintro ud ⟨hu, -⟩
        by_cases h : t1 - t0 < ud * Z
        · rw [if_pos h] at hu
          exact .inr ⟨_, hu, by field_simp; ring⟩
        · rw [if_neg h] at hu
          exact .inl ⟨_, hu, by field_simp; ring⟩
      exact ((hout.image _).union (hout.image _)).subset this
  have hmu : ∀ v, c.muA v = 0 := fun v => by unfold VPar.muA; rw [ha]; ring
  have hsp : c.speed (length e.v) uq ue = some (length e.v) := by
    unfold VPar.speed; rw [if_neg (by linarith)]
  have hsc : ∀ ud, 0 < ud → ud < 1 → ud ∉ {ud : ℝ | (t0 + ud * Z + (if t1 - t0 < ud * Z then t2 - t1 else 0)) ∈ B ∧ Z ≠ 0} →
      weight (c.scatter s Off t0 t1 t2 t3 e ud u1 u2 uq ue) =
        e.p / c.frac * c.muS * (way c.Material e.r e.v (Set.Ici 0) * Real.exp (-c.muS * (ud * way c.Material e.r e.v (Set.Ici 0)))) := by
    intro ud g0 g1 hud
    obtain ⟨T, hT, hTo, hTe, hTw, hs⟩ := VPar.scatter_eq hi hc hf hg h0 h1 h2 h3 ho hh hh' g0.le g1.le
    rw [← hZ] at hTe
    by_cases hz : Z = 0
    · -- no way in the material
      have hw : way c.Material e.r e.v (Set.Ici 0) = 0 := by rw [w1, hz, mul_zero]
      rw [hw]
      by_cases hcl : c.Clear (e.r + T • e.v) (length e.v • norm d)
      · obtain ⟨e', L, a1, -, -, -, -, -, a7, -⟩ := hs u1 u2 uq ue d (4 * Real.pi) (length e.v) (hd _ hTo) (by positivity) hsp hl hcl
        rw [a1]
        show e'.p = _
        rw [a7, hw]; ring
      · have hd' := hd _ hTo
        have hprop : propDt Off T e = { e with r := e.r + T • e.v, t := e.t + T } := by
          rw [(C160_dt Off T e).1 (by linarith), flown]
          ext <;> simp [accel, Off]
        have hT' : (if ud * Z > t1 - t0 then ud * Z + (t2 - t1) else ud * Z) + t0 = T := by
          rw [hTe]
          by_cases h : t1 - t0 < ud * Z
          · rw [if_pos h, if_pos h]; ring
          · rw [if_neg h, if_neg h]; ring
        unfold VPar.scatter
        simp only [speed_eq, ← hZ, hT', hprop, hd', hsp]
        simp only [bind, Except.bind, num_divD hl.ne', num_divD hf,
          num_divD (show 4 * Real.pi ≠ 0 by positivity), num_divD (show 4 * Real.pi / (4 * Real.pi) ≠ 0 by positivity)]
        split
        · simp [weight]
        · simp [weight, hz]
    · have hcl : c.Clear (e.r + T • e.v) (length e.v • norm d) := by
        by_contra hcl
        exact hud ⟨by rw [← hTe]; exact ⟨hTo, hcl⟩, hz⟩
      obtain ⟨e', L, a1, -, -, -, -, a6, a7, -⟩ := hs u1 u2 uq ue d (4 * Real.pi) (length e.v) (hd _ hTo) (by positivity) hsp hl hcl
      rw [a1]
      show e'.p = _
      rw [a7, hTw, hmu, hmu, a6, length_dir hl.le hcl.1, neg_zero, zero_mul, Real.exp_zero, add_zero]
      have := Real.pi_pos
      field_simp
  rw [mean_congr_off hfin hsc, mean_mul, mean_distance (way c.Material e.r e.v (Set.Ici 0)) (fun x => Real.exp (-c.muS * x))]
  have := integral_decay c.muS (way c.Material e.r e.v (Set.Ici 0))
  rw [← this]
  ring

/-- the distribution of the energy transfer -/
lemma quasi_le {gamma : ℝ} (hg : 0 < gamma) {u : ℝ} (h0 : 0 < u) (h1 : u < 1) (x : ℝ) :
    quasi gamma u ≤ x ↔ u ≤ 1 / 2 + Real.arctan (x / gamma) / Real.pi := by
  have hp := Real.pi_pos
  have ha : Real.arctan (Real.tan (Real.pi / 2 * (2 * u - 1))) = Real.pi / 2 * (2 * u - 1) :=
    Real.arctan_tan (by nlinarith) (by nlinarith)
  unfold quasi
  rw [show gamma * Real.tan (Real.pi / 2 * (2 * u - 1)) ≤ x ↔ Real.tan (Real.pi / 2 * (2 * u - 1)) ≤ x / gamma by
    rw [le_div_iff₀ hg, mul_comm], ← Real.arctan_strictMono.le_iff_le, ha]
  constructor
  · intro h
    have : u - 1 / 2 ≤ Real.arctan (x / gamma) / Real.pi := by rw [le_div_iff₀ hp]; linarith
    linarith
  · intro h
    have : u - 1 / 2 ≤ Real.arctan (x / gamma) / Real.pi := by linarith
    rw [le_div_iff₀ hp] at this
    linarith

/-- a direction in the cone of a disk ends in the disk -/
lemma disk_hit {t d : V3 ℝ} (ht : t ≠ 0) {radius c : ℝ} (hr : 0 < radius) (hc : Sampling.edge t radius ≤ c) (hd : d.dot d = t.dot t)
    (hdt : d.dot t = c * t.dot t) : ∃ T : ℝ, 0 < T ∧ (T • d - t).dot t = 0 ∧ length (T • d - t) ≤ radius := by
  have h0 := McStas.dot_self_pos ht
  have hl : length t * length t = t.dot t := length_mul_self t
  have hl0 := Kinem.length_pos ht
  have hs : 0 < √(t.dot t + radius ^ 2) := Real.sqrt_pos.2 (by positivity)
  have hs2 : √(t.dot t + radius ^ 2) ^ 2 = t.dot t + radius ^ 2 := Real.sq_sqrt (by positivity)
  unfold Sampling.edge at hc
  rw [if_neg (by linarith), one_mul] at hc
  have hc0 : 0 < c := lt_of_lt_of_le (div_pos hl0 hs) hc
  rw [div_le_iff₀ hs] at hc
  have hc2 : t.dot t ≤ c ^ 2 * (t.dot t + radius ^ 2) := by
    have := mul_self_le_mul_self hl0.le hc
    rw [hl] at this
    rw [← hs2]
    linarith
  refine ⟨1 / c, by positivity, ?_, ?_⟩
  · have : ((1 / c) • d - t).dot t = 1 / c * d.dot t - t.dot t := by
      simp only [V3.dot, V3.sub_x, V3.sub_y, V3.sub_z, V3.smul_x, V3.smul_y, V3.smul_z]; ring
    rw [this, hdt]
    field_simp
    ring
  · rw [Flight.length_eq]
    apply Real.sqrt_le_iff.2 ⟨hr.le, ?_⟩
    have : ((1 / c) • d - t).dot ((1 / c) • d - t) = 1 / c ^ 2 * d.dot d - 2 / c * d.dot t + t.dot t := by
      simp only [V3.dot, V3.sub_x, V3.sub_y, V3.sub_z, V3.smul_x, V3.smul_y, V3.smul_z]; field_simp; ring
    rw [this, hdt, hd]
    have e : 1 / c ^ 2 * t.dot t - 2 / c * (c * t.dot t) + t.dot t = t.dot t / c ^ 2 - t.dot t := by field_simp; ring
    rw [e, tsub_le_iff_left, div_le_iff₀ (by positivity)]
    linarith

lemma transfer_eq (a b : V3 ℝ) : transfer a b = V2K * length (a - b) := by
  have hV : (0 : ℝ) ≤ V2K := by unfold V2K; norm_num
  have : V2K * length (a - b) = √(V2K ^ 2 * (a - b).dot (a - b)) := by
    rw [Real.sqrt_mul (sq_nonneg _), Real.sqrt_sq hV]; rfl
  rw [this]
  unfold transfer
  congr 1
  simp only [V3.dot, V3.sub_x, V3.sub_y, V3.sub_z]
  ring_nf

/-- the amplitude of a sphere -/
lemma amplitude_eq {q : ℝ} (hq : q ≠ 0) (R : ℝ) : amplitude q R = 4 * Real.pi / q * (Real.sin (q * R) / q ^ 2 - R * Real.cos (q * R) / q) := by
  have h1 : amplitude q R = ∫ r in (0 : ℝ)..R, 4 * Real.pi / q * (r * Real.sin (q * r)) := by
    unfold amplitude
    congr 1
    ext r
    by_cases hr : r = 0
    · simp [hr]
    · field_simp
  have hd : ∀ r, HasDerivAt (fun r => 4 * Real.pi / q * (Real.sin (q * r) / q ^ 2 - r * Real.cos (q * r) / q)) (4 * Real.pi / q * (r * Real.sin (q * r))) r := by
    intro r
    have hlin : HasDerivAt (fun r : ℝ => q * r) q r := by simpa using (hasDerivAt_id r).const_mul q
    have h2 := (hlin.sin.div_const (q ^ 2)).sub (((hasDerivAt_id r).mul hlin.cos).div_const q)
    refine HasDerivAt.congr_deriv (f := fun r => 4 * Real.pi / q * (Real.sin (q * r) / q ^ 2 - r * Real.cos (q * r) / q)) (h2.const_mul (4 * Real.pi / q)) ?_
    simp only [id]
    field_simp
    ring
  rw [h1, intervalIntegral.integral_eq_sub_of_hasDerivAt (fun r _ => hd r)]
  · simp
  · apply Continuous.intervalIntegrable
    fun_prop

/-- entry and exit of the box -/
lemma Sans.box_spec {c : Sans} (hx : 0 < c.xwidth) (hy : 0 < c.yheight) (hz : 0 < c.zthick) {r v : V3 ℝ} (hv : v ≠ 0)
    (he : NoEdge r v ⟨c.xwidth, c.yheight, c.zthick⟩) :
    (boxIntersect r v ⟨c.xwidth, c.yheight, c.zthick⟩ = none ∧ ∀ τ : ℝ, ¬ c.Box (r + τ • v)) ∨
    ∃ t0 t1, boxIntersect r v ⟨c.xwidth, c.yheight, c.zthick⟩ = some (t0, t1) ∧ t0 < t1 ∧ ∀ τ : ℝ, c.Box (r + τ • v) ↔ t0 ≤ τ ∧ τ ≤ t1 :=
  C165_box_partial (d := ⟨c.xwidth, c.yheight, c.zthick⟩) hx hy hz hv he

lemma way_box {M : V3 ℝ → Prop} {r v : V3 ℝ} {t0 t1 a b : ℝ} (ho : ∀ τ : ℝ, M (r + τ • v) ↔ t0 ≤ τ ∧ τ ≤ t1) (h : a ≤ b) {S : Set ℝ}
    (hS : ∀ τ, τ ≠ a → τ ≠ b → ((τ ∈ S ∧ t0 ≤ τ ∧ τ ≤ t1) ↔ a < τ ∧ τ < b)) : way M r v S = length v * (b - a) := by
  unfold way
  rw [two_intervals h (le_refl b) (le_refl b) (Set.toFinite {a, b}) (P := fun τ => τ ∈ S ∧ M (r + τ • v))]
  · ring
  intro τ hτ
  simp only [Set.mem_insert_iff, Set.mem_singleton_iff, not_or] at hτ
  rw [ho, hS τ hτ.1 hτ.2]
  constructor
  · exact .inl
  · rintro (g | g)
    · exact g
    · linarith [g.1, g.2]

end
end Verif.McSample
