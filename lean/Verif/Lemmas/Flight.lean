import Verif.Spec.Flight
import Verif.Lemmas.SolidHit
import Mathlib.MeasureTheory.Measure.Lebesgue.Basic
/-!
Helper lemmas about flights and path lengths.
-/

namespace Verif.Flight
open Solid MeasureTheory

theorem locate_clear {tol : ℝ} (h0 : 0 < tol) {s : Shape} (hw : WF s) {q : V3 ℝ}
    (h : Clear tol s q) : locate tol s q ≠ .ok .onborder :=
  fun hb => h (locate_border h0 s hw q hb)

/-- membership does not change between two times with no crossing in between -/
theorem const_between {s : Shape} {p v : V3 ℝ} {ts : List ℝ} (hc : CatchesAll s p v ts) {a b : ℝ}
    (hno : ∀ t ∈ ts, ¬ (a < t ∧ t < b)) {u w : ℝ} (hu : a < u ∧ u < b) (hw : a < w ∧ w < b) :
    Mem s (at' p v u) ↔ Mem s (at' p v w) := by
  by_contra hch
  rcases le_total u w with h | h
  · obtain ⟨t, ht, h1, h2⟩ := hc u w h hch
    exact hno t ht ⟨by linarith, by linarith⟩
  · obtain ⟨t, ht, h1, h2⟩ := hc w u h (fun hh => hch hh.symm)
    exact hno t ht ⟨by linarith, by linarith⟩

theorem far_away {s : Shape} (hb : Bounded s) {p v : V3 ℝ} (hv : v ≠ 0) (a : ℝ) :
    ∃ t, a < t ∧ ¬ Mem s (at' p v t) := by
  obtain ⟨R, hR⟩ := hb
  have hcomp : ∀ x w : ℝ, w ≠ 0 → ∃ t, a < t ∧ R < |x + t * w| := by
    intro x w hw
    have hw' : 0 < |w| := abs_pos.2 hw
    refine ⟨max (a + 1) ((|R| + |x| + 1) / |w|), by
      have := le_max_left (a + 1) ((|R| + |x| + 1) / |w|); linarith, ?_⟩
    obtain ⟨T, hT⟩ : ∃ T, max (a + 1) ((|R| + |x| + 1) / |w|) = T := ⟨_, rfl⟩
    have h2 : (|R| + |x| + 1) / |w| ≤ T := hT ▸ le_max_right _ _
    rw [hT]
    rw [div_le_iff₀ hw'] at h2
    have h3 : |T * w| ≤ |x + T * w| + |x| := by
      have := abs_sub_le (x + T * w) x 0
      have h4 := abs_sub (x + T * w) x
      simpa using h4
    have h4 : T * |w| ≤ |T * w| := by
      rw [abs_mul]
      exact mul_le_mul_of_nonneg_right (le_abs_self T) hw'.le
    linarith [le_abs_self R, abs_nonneg x]
  have hne : v.x ≠ 0 ∨ v.y ≠ 0 ∨ v.z ≠ 0 := by
    by_contra h
    push Not at h
    exact hv (V3.ext h.1 h.2.1 h.2.2)
  rcases hne with h | h | h
  · obtain ⟨t, h1, h2⟩ := hcomp p.x v.x h
    exact ⟨t, h1, fun hm => absurd (hR _ hm).1 (not_le.2 (by simpa [at_x] using h2))⟩
  · obtain ⟨t, h1, h2⟩ := hcomp p.y v.y h
    exact ⟨t, h1, fun hm => absurd (hR _ hm).2.1 (not_le.2 (by simpa [at_y] using h2))⟩
  · obtain ⟨t, h1, h2⟩ := hcomp p.z v.z h
    exact ⟨t, h1, fun hm => absurd (hR _ hm).2.2 (not_le.2 (by simpa [at_z] using h2))⟩

/-- the times in `(a, b]` at which the path is in the shape -/
def seg (s : Shape) (p v : V3 ℝ) (a b : ℝ) : Set ℝ := {t | Mem s (at' p v t)} ∩ Set.Ioc a b

theorem seg_finite (s : Shape) (p v : V3 ℝ) (a b : ℝ) : volume (seg s p v a b) ≠ ⊤ := by
  refine ne_top_of_le_ne_top (b := volume (Set.Ioc a b)) ?_ (measure_mono Set.inter_subset_right)
  simp [Real.volume_Ioc]

theorem seg_add (s : Shape) (p v : V3 ℝ) {a b c : ℝ} (h1 : a ≤ b) (h2 : b ≤ c) :
    (volume (seg s p v a c)).toReal =
      (volume (seg s p v a b)).toReal + (volume (seg s p v b c)).toReal := by
  rw [← ENNReal.toReal_add (seg_finite s p v a b) (seg_finite s p v b c)]
  congr 1
  rw [← measure_inter_add_sdiff (seg s p v a c) (measurableSet_Ioc (a := a) (b := b))]
  congr 2
  · ext t
    simp only [seg, Set.mem_inter_iff, Set.mem_ofPred_eq, Set.mem_Ioc]
    constructor
    · rintro ⟨⟨h, _⟩, h3⟩; exact ⟨h, h3⟩
    · rintro ⟨h, h3, h4⟩; exact ⟨⟨h, h3, by linarith⟩, h3, h4⟩
  · ext t
    simp only [seg, Set.mem_inter_iff, Set.mem_sdiff, Set.mem_ofPred_eq, Set.mem_Ioc]
    constructor
    · rintro ⟨⟨h, h3, h4⟩, h5⟩
      exact ⟨h, by by_contra hc; exact h5 ⟨h3, by linarith⟩, h4⟩
    · rintro ⟨h, h3, h4⟩
      exact ⟨⟨h, by linarith, h4⟩, fun h5 => by linarith [h5.2]⟩

theorem seg_self (s : Shape) (p v : V3 ℝ) (a : ℝ) : (volume (seg s p v a a)).toReal = 0 := by
  simp [seg]

theorem seg_out {s : Shape} {p v : V3 ℝ} {a b : ℝ} (h : ∀ t, a < t → t < b → ¬ Mem s (at' p v t)) :
    (volume (seg s p v a b)).toReal = 0 := by
  have : volume (seg s p v a b) = 0 := by
    refine measure_mono_null (t := {b}) ?_ (by simp)
    rintro t ⟨h1, h2, h3⟩
    by_contra hc
    exact h t h2 (lt_of_le_of_ne h3 hc) h1
  rw [this]; rfl

theorem seg_in {s : Shape} {p v : V3 ℝ} {a b : ℝ} (hab : a ≤ b)
    (h : ∀ t, a < t → t < b → Mem s (at' p v t)) : (volume (seg s p v a b)).toReal = b - a := by
  have h1 : volume (seg s p v a b) = ENNReal.ofReal (b - a) := by
    apply le_antisymm
    · rw [← Real.volume_Ioc]; exact measure_mono Set.inter_subset_right
    · rw [← Real.volume_Ioo]
      exact measure_mono fun t ht => ⟨h t ht.1 ht.2, ht.1, ht.2.le⟩
  rw [h1, ENNReal.toReal_ofReal (by linarith)]

theorem pathLoop_eq {tol : ℝ} (h0 : 0 < tol) {s : Shape} (hw : WF s) (hb : Bounded s) {p v : V3 ℝ}
    (hv : v ≠ 0) {all : List ℝ} (hc : CatchesAll s p v all) {T spd : ℝ}
    (hcl : ClearMiddles tol s p v T all) (ts : List ℝ) (prev len : ℝ) (hm : Mark T all prev)
    (hpT : prev ≤ T) (h0p : 0 ≤ prev) (hs : (prev :: ts).Pairwise (· ≤ ·))
    (hsub : ∀ t ∈ ts, t ∈ all) (hcov : ∀ t ∈ all, prev < t → prev < T → t ∈ ts) :
    pathLoop tol s p v spd T prev len ts =
      .ok (len + spd * (volume (seg s p v prev T)).toReal) := by
  induction ts generalizing prev len with
  | nil =>
    rw [pathLoop]
    rcases eq_or_lt_of_le hpT with h | h
    · rw [h, seg_self]; simp
    · rw [seg_out]
      · simp
      · intro t h1 h2 hmem
        obtain ⟨u, hu, hnu⟩ := far_away hb hv (p := p) prev
        refine hnu ((const_between hc (a := prev) (b := max t u + 1) ?_ ⟨h1, ?_⟩ ⟨hu, ?_⟩).1 hmem)
        · rintro w hw' ⟨h3, -⟩
          exact absurd (hcov w hw' h3 h) (by simp)
        · have := le_max_left t u; linarith
        · have := le_max_right t u; linarith
  | cons t ts ih =>
    rw [pathLoop]
    obtain ⟨tof, htof⟩ : ∃ tof, (if t > T then T else t) = tof := ⟨_, rfl⟩
    have hall : t ∈ all := hsub t (by simp)
    rw [htof]
    -- the new mark
    have htT : tof ≤ T := by
      rw [← htof]; split
      · exact le_refl _
      · linarith
    have hpt : prev ≤ t := (List.pairwise_cons.1 hs).1 t (by simp)
    have htt : tof ≤ t := by
      rw [← htof]; split
      · linarith
      · exact le_refl _
    have hge : prev ≤ tof := by
      rw [← htof]; split
      · exact hpT
      · exact hpt
    have hmark : Mark T all tof := by
      by_cases h : t > T
      · rw [if_pos h] at htof; exact .inr (.inl htof.symm)
      · rw [if_neg h] at htof; subst htof
        exact .inr (.inr ⟨hall, by linarith, htT⟩)
    have hno : ∀ x ∈ all, ¬ (prev < x ∧ x < tof) := by
      rintro x hx ⟨h1, h2⟩
      have h3 : x ∈ t :: ts := hcov x hx h1 (by linarith)
      rcases List.mem_cons.1 h3 with rfl | h3
      · linarith
      · have := (List.pairwise_cons.1 (List.pairwise_cons.1 hs).2).1 x h3
        linarith
    obtain ⟨loc, hloc⟩ := locate_total tol s hw (p + ((tof + prev) / 2) • v)
    rw [hloc]
    simp only [bind, Except.bind]
    rw [ih tof _ hmark htT (by linarith) ?_ (fun x hx => hsub x (by simp [hx])) ?_]
    · rw [seg_add s p v hge htT]
      congr 1
      rcases eq_or_lt_of_le hge with h | h
      · rw [← h, seg_self]; split <;> simp
      · have hmid : at' p v ((prev + tof) / 2) = p + ((tof + prev) / 2) • v := by
          rw [add_comm prev tof]; rfl
        have hclear := hcl prev tof hm hmark h hno
        have hnb := locate_clear h0 hw hclear
        rw [hmid, hloc] at hnb
        have hin : prev < (prev + tof) / 2 ∧ (prev + tof) / 2 < tof := ⟨by linarith, by linarith⟩
        cases loc with
        | inside =>
          have hI := ((locate_sound h0 s hw _).1 hloc).self
          rw [← hmid] at hI
          rw [if_pos rfl, seg_in hge fun u h1 h2 => (const_between hc hno ⟨h1, h2⟩ hin).2 hI]
          ring
        | outside =>
          have hI := ((locate_sound h0 s hw _).2 hloc).self
          rw [← hmid] at hI
          rw [if_neg (by simp), seg_out fun u h1 h2 hmm =>
            hI ((const_between hc hno ⟨h1, h2⟩ hin).1 hmm)]
          ring
        | onborder => exact absurd rfl hnb
    · refine List.pairwise_cons.2 ⟨fun x hx => ?_, (List.pairwise_cons.1 (List.pairwise_cons.1 hs).2).2⟩
      have := (List.pairwise_cons.1 (List.pairwise_cons.1 hs).2).1 x hx
      linarith
    · intro x hx h1 h2
      have h3 : x ∈ t :: ts := hcov x hx (by linarith) (by linarith)
      rcases List.mem_cons.1 h3 with rfl | h3
      · exfalso
        by_cases h : x > T
        · rw [if_pos h] at htof; linarith
        · rw [if_neg h] at htof; linarith
      · exact h3

theorem timesIn_eq (s : Shape) (p v : V3 ℝ) (T : ℝ) : timesIn s p v T = seg s p v 0 T := by
  ext t
  simp only [timesIn, seg, Set.mem_ofPred_eq, Set.mem_inter_iff, Set.mem_Ioc]
  tauto

theorem length_eq (v : V3 ℝ) : length v = √(v.dot v) := rfl

theorem pathLength_eq {tol par : ℝ} (h0 : 0 < tol) (hpar : 0 < par) {s : Shape} (hw : WF s)
    (hb : Bounded s) {ev : Ev} (hv : ev.v ≠ 0) (hg : Generic tol par s ev.r ev.v) {T : ℝ}
    (hT : 0 ≤ T) {ts : List ℝ} (hts : intersect tol par s ev.r ev.v = .ok ts)
    (hcl : ClearMiddles tol s ev.r ev.v T ts) :
    pathLength tol par s ev (at' ev.r ev.v T) = .ok (lengthIn s ev.r ev.v T) := by
  have hlen : 0 < length ev.v := Real.sqrt_pos.2 (dot_self_pos hv)
  have hTm : length (at' ev.r ev.v T - ev.r) / length ev.v = T := by
    have : at' ev.r ev.v T - ev.r = T • ev.v := by
      apply V3.ext <;> simp [at']
    rw [this, div_eq_iff hlen.ne', length_eq, length_eq]
    have h2 : (T • ev.v).dot (T • ev.v) = T ^ 2 * ev.v.dot ev.v := by
      simp [V3.dot]; ring
    rw [h2, Real.sqrt_mul (sq_nonneg T), Real.sqrt_sq hT]
  unfold pathLength forwardIntersect
  rw [hts]
  simp only [bind, Except.bind]
  rw [hTm, pathLoop_eq h0 hw hb hv (intersect_catches h0 hpar s hw _ _ ts hg hts) hcl _ 0 0
    (.inl rfl) hT le_rfl]
  · rw [zero_add, lengthIn, timesIn_eq, length_eq]
  · refine List.pairwise_cons.2 ⟨fun x hx => ?_, (intersect_sorted s _ _ ts hts).filter _⟩
    simpa using (List.mem_filter.1 hx).2
  · exact fun t ht => (List.mem_filter.1 ht).1
  · intro t ht h1 _
    exact List.mem_filter.2 ⟨ht, by simpa using h1.le⟩

/-! ### bounds without general position -/

theorem pathLoop_bounds {tol : ℝ} {s : Shape} {p v : V3 ℝ} {T spd : ℝ} (hspd : 0 ≤ spd)
    (ts : List ℝ) (prev len r : ℝ) (hpT : prev ≤ T) (hs : (prev :: ts).Pairwise (· ≤ ·))
    (h : pathLoop tol s p v spd T prev len ts = .ok r) :
    len ≤ r ∧ r ≤ len + (T - prev) * spd := by
  induction ts generalizing prev len with
  | nil =>
    rw [pathLoop] at h
    cases h
    exact ⟨le_rfl, by nlinarith⟩
  | cons t ts ih =>
    rw [pathLoop] at h
    obtain ⟨tof, htof⟩ : ∃ tof, (if t > T then T else t) = tof := ⟨_, rfl⟩
    rw [htof] at h
    have hpt : prev ≤ t := (List.pairwise_cons.1 hs).1 t (by simp)
    have htT : tof ≤ T := by
      rw [← htof]; split
      · exact le_refl _
      · linarith
    have htt : tof ≤ t := by
      rw [← htof]; split
      · linarith
      · exact le_refl _
    have hge : prev ≤ tof := by
      rw [← htof]; split
      · exact hpT
      · exact hpt
    have hs' : (tof :: ts).Pairwise (· ≤ ·) := by
      refine List.pairwise_cons.2 ⟨fun x hx => ?_, (List.pairwise_cons.1 (List.pairwise_cons.1 hs).2).2⟩
      have := (List.pairwise_cons.1 (List.pairwise_cons.1 hs).2).1 x hx
      linarith
    cases hl : locate tol s (p + ((tof + prev) / 2) • v) with
    | error e => rw [hl] at h; cases h
    | ok loc =>
      rw [hl] at h
      simp only [bind, Except.bind] at h
      have := ih tof _ htT hs' h
      split at this <;> constructor <;> nlinarith [this.1, this.2]

theorem forward_sorted {tol par : ℝ} {s : Shape} {p v : V3 ℝ} {ds : List ℝ}
    (h : forwardIntersect tol par s p v = .ok ds) : (0 :: ds).Pairwise (· ≤ ·) := by
  obtain ⟨ts, hts, rfl⟩ := forwardIntersect_spec h
  refine List.pairwise_cons.2 ⟨fun x hx => ?_, (intersect_sorted s _ _ ts hts).filter _⟩
  simpa using (List.mem_filter.1 hx).2

theorem length_nonneg (v : V3 ℝ) : 0 ≤ length v := Real.sqrt_nonneg _

theorem pathLength_bounds {tol par : ℝ} {s : Shape} {ev : Ev} {endp : V3 ℝ} (hv : ev.v ≠ 0) {r : ℝ}
    (h : pathLength tol par s ev endp = .ok r) : 0 ≤ r ∧ r ≤ length (endp - ev.r) := by
  have hlen : 0 < length ev.v := Real.sqrt_pos.2 (dot_self_pos hv)
  unfold pathLength at h
  cases hf : forwardIntersect tol par s ev.r ev.v with
  | error e => rw [hf] at h; cases h
  | ok ds =>
    rw [hf] at h
    simp only [bind, Except.bind] at h
    have := pathLoop_bounds (length_nonneg _) ds 0 0 r (div_nonneg (length_nonneg _) (length_nonneg _))
      (forward_sorted hf) h
    rw [zero_add, sub_zero, div_mul_cancel₀ _ hlen.ne'] at this
    exact this

/-! ### cutting a path and changing the speed -/

theorem at_at (p v : V3 ℝ) (a b : ℝ) : at' (at' p v a) v b = at' p v (a + b) := by
  apply V3.ext <;> simp [at'] <;> ring

theorem lengthIn_cut (s : Shape) (p v : V3 ℝ) {a b : ℝ} (ha : 0 ≤ a) (hb : 0 ≤ b) :
    lengthIn s p v (a + b) = lengthIn s p v a + lengthIn s (at' p v a) v b := by
  unfold lengthIn
  rw [timesIn_eq, timesIn_eq, timesIn_eq, seg_add s p v ha (by linarith : a ≤ a + b), mul_add]
  congr 2
  have : seg s (at' p v a) v 0 b = (fun t => a + t) ⁻¹' seg s p v a (a + b) := by
    ext t
    simp only [seg, Set.mem_inter_iff, Set.mem_ofPred_eq, Set.mem_Ioc, Set.mem_preimage, at_at]
    constructor
    · rintro ⟨h, h1, h2⟩; exact ⟨h, by linarith, by linarith⟩
    · rintro ⟨h, h1, h2⟩; exact ⟨h, by linarith, by linarith⟩
  rw [this, measure_preimage_add]

theorem lengthIn_speed (s : Shape) (p v : V3 ℝ) {k : ℝ} (hk : 0 < k) (T : ℝ) :
    lengthIn s p (k • v) (T / k) = lengthIn s p v T := by
  unfold lengthIn
  have h1 : (k • v).dot (k • v) = k ^ 2 * v.dot v := by simp [V3.dot]; ring
  rw [h1, Real.sqrt_mul (sq_nonneg k), Real.sqrt_sq hk.le]
  have h2 : timesIn s p (k • v) (T / k) = (fun t => k * t) ⁻¹' timesIn s p v T := by
    ext t
    have h3 : at' p (k • v) t = at' p v (k * t) := by
      apply V3.ext <;> simp [at'] <;> ring
    simp only [timesIn, Set.mem_ofPred_eq, Set.mem_preimage, h3]
    constructor
    · rintro ⟨h, h4, h5⟩
      refine ⟨mul_pos hk h, ?_, h5⟩
      rw [le_div_iff₀ hk] at h4; linarith
    · rintro ⟨h, h4, h5⟩
      refine ⟨pos_of_mul_pos_right h hk.le, ?_, h5⟩
      rw [le_div_iff₀ hk]; linarith
  rw [h2, Real.volume_preimage_mul_left hk.ne', ENNReal.toReal_mul,
    ENNReal.toReal_ofReal (abs_nonneg _), abs_of_pos (inv_pos.2 hk)]
  field_simp

/-! ### propagation -/

theorem FliesFor.refl (ev : Ev) : FliesFor ev ev 0 := by
  refine ⟨?_, by simp, rfl, rfl, rfl, rfl⟩
  apply V3.ext <;> simp [at']

theorem FliesFor.trans {a b c : Ev} {t u : ℝ} (h1 : FliesFor a b t) (h2 : FliesFor b c u) :
    FliesFor a c (t + u) := by
  obtain ⟨r1, t1, v1, s1, s1', p1⟩ := h1
  obtain ⟨r2, t2, v2, s2, s2', p2⟩ := h2
  refine ⟨?_, by rw [t2, t1]; ring, v2.trans v1, s2.trans s1, s2'.trans s1', p2.trans p1⟩
  rw [r2, r1, v1, at_at]

theorem propagate_flies (ev : Ev) (t : ℝ) : FliesFor ev (propagate ev t) t :=
  ⟨rfl, rfl, rfl, rfl, rfl, rfl⟩

theorem borderLoop_mem {tol : ℝ} {stop go : Loc} {s : Shape} {ev : Ev} (ts : List ℝ) {t : ℝ}
    (h : borderLoop tol stop go s ev ts = .ok (some t)) :
    t ∈ ts ∧ locate tol s (ev.r + (t * (1 / 2)) • ev.v) = .ok go := by
  induction ts with
  | nil => cases h
  | cons a l ih =>
    rw [borderLoop] at h
    cases hl : locate tol s (ev.r + (a * (1 / 2)) • ev.v) with
    | error e => rw [hl] at h; cases h
    | ok loc =>
      rw [hl] at h
      simp only [bind, Except.bind] at h
      split at h
      · cases h
      · split at h
        · rename_i h2
          cases h
          exact ⟨by simp, by rw [hl, h2]⟩
        · obtain ⟨h3, h4⟩ := ih h
          exact ⟨by simp [h3], h4⟩

theorem forward_nonneg {tol par : ℝ} {s : Shape} {p v : V3 ℝ} {ds : List ℝ}
    (h : forwardIntersect tol par s p v = .ok ds) : ∀ t ∈ ds, 0 ≤ t :=
  (List.pairwise_cons.1 (forward_sorted h)).1

/-- the ways `propagate_to_next_incident_surface` can succeed -/
theorem toIncident_cases {tol par : ℝ} {s : Shape} {ev ev' : Ev}
    (h : toIncident tol par s ev = .ok ev') :
    ∃ ds, forwardIntersect tol par s ev.r ev.v = .ok ds ∧
      ((locate tol s ev.r = .ok .outside ∧ ds = [] ∧ ev' = ev) ∨
       (locate tol s ev.r = .ok .outside ∧ ∃ t l, ds = t :: l ∧ ev' = propagate ev t) ∨
       (locate tol s ev.r = .ok .onborder ∧ (ev' = ev ∨
          ∃ t, borderLoop tol .inside .outside s ev ds = .ok (some t) ∧ ev' = propagate ev t))) := by
  unfold toIncident at h
  cases hl : locate tol s ev.r with
  | error e => rw [hl] at h; cases h
  | ok loc =>
    rw [hl] at h
    simp only [bind, Except.bind] at h
    split at h
    · cases h
    · rename_i hni
      cases hf : forwardIntersect tol par s ev.r ev.v with
      | error e => rw [hf] at h; cases h
      | ok ds =>
        rw [hf] at h
        refine ⟨ds, rfl, ?_⟩
        cases ds with
        | nil =>
          simp only [Except.ok.injEq] at h
          cases loc with
          | inside => exact absurd rfl hni
          | outside => exact .inl ⟨rfl, rfl, h.symm⟩
          | onborder => exact .inr (.inr ⟨rfl, .inl h.symm⟩)
        | cons t0 l =>
          simp only at h
          split at h
          · rename_i ho
            subst ho
            exact .inr (.inl ⟨rfl, t0, l, rfl, (Except.ok.inj h).symm⟩)
          · rename_i hno
            have hb : loc = .onborder := by cases loc <;> simp_all
            subst hb
            refine .inr (.inr ⟨rfl, ?_⟩)
            cases hb : borderLoop tol .inside .outside s ev (t0 :: l) with
            | error e => rw [hb] at h; cases h
            | ok o =>
              rw [hb] at h
              cases o with
              | none => exact .inl (Except.ok.inj h).symm
              | some t => exact .inr ⟨t, rfl, (Except.ok.inj h).symm⟩

theorem toIncident_flies {tol par : ℝ} {s : Shape} {ev ev' : Ev}
    (h : toIncident tol par s ev = .ok ev') : ∃ τ, 0 ≤ τ ∧ FliesFor ev ev' τ := by
  obtain ⟨ds, hf, h⟩ := toIncident_cases h
  have hn := forward_nonneg hf
  rcases h with ⟨-, -, rfl⟩ | ⟨-, t, l, rfl, rfl⟩ | ⟨-, rfl | ⟨t, ht, rfl⟩⟩
  · exact ⟨0, le_rfl, .refl _⟩
  · exact ⟨t, hn t (by simp), propagate_flies _ _⟩
  · exact ⟨0, le_rfl, .refl _⟩
  · exact ⟨t, hn t (borderLoop_mem ds ht).1, propagate_flies _ _⟩

theorem exitFromFront_cases {tol par : ℝ} {s : Shape} {ev1 ev' : Ev}
    (h : exitFromFront tol par s ev1 = .ok ev') :
    locate tol s ev1.r = .ok .onborder ∧ ∃ ds, forwardIntersect tol par s ev1.r ev1.v = .ok ds ∧
      ((borderLoop tol .outside .inside s ev1 ds = .ok none ∧ ev' = ev1) ∨
        ∃ t, borderLoop tol .outside .inside s ev1 ds = .ok (some t) ∧ ev' = propagate ev1 t) := by
  unfold exitFromFront at h
  cases hf : forwardIntersect tol par s ev1.r ev1.v with
  | error e => rw [hf] at h; cases h
  | ok ds =>
    rw [hf] at h
    simp only [bind, Except.bind] at h
    cases hl1 : locate tol s ev1.r with
    | error e => rw [hl1] at h; cases h
    | ok loc1 =>
      rw [hl1] at h
      simp only at h
      split at h
      · cases h
      · rename_i hb
        have hb : loc1 = .onborder := by simpa using hb
        subst hb
        refine ⟨rfl, ds, rfl, ?_⟩
        cases hb : borderLoop tol .outside .inside s ev1 ds with
        | error e => rw [hb] at h; cases h
        | ok o =>
          rw [hb] at h
          cases o with
          | none => exact .inl ⟨rfl, (Except.ok.inj h).symm⟩
          | some t => exact .inr ⟨t, rfl, (Except.ok.inj h).symm⟩

/-- the ways `propagate_to_next_exiting_surface` can succeed -/
theorem toExit_cases {tol par : ℝ} {s : Shape} {ev ev' : Ev} (h : toExit tol par s ev = .ok ev') :
    (locate tol s ev.r = .ok .inside ∧ ∃ t l,
      forwardIntersect tol par s ev.r ev.v = .ok (t :: l) ∧ ev' = propagate ev t) ∨
    ∃ ev1, ((locate tol s ev.r = .ok .outside ∧ toIncident tol par s ev = .ok ev1) ∨
        (locate tol s ev.r = .ok .onborder ∧ ev1 = ev)) ∧
      locate tol s ev1.r = .ok .onborder ∧ ∃ ds, forwardIntersect tol par s ev1.r ev1.v = .ok ds ∧
      ((borderLoop tol .outside .inside s ev1 ds = .ok none ∧ ev' = ev1) ∨
        ∃ t, borderLoop tol .outside .inside s ev1 ds = .ok (some t) ∧ ev' = propagate ev1 t) := by
  unfold toExit at h
  cases hl : locate tol s ev.r with
  | error e => rw [hl] at h; cases h
  | ok loc =>
    rw [hl] at h
    simp only [bind, Except.bind] at h
    split at h
    · rename_i hi
      subst hi
      left
      cases hf : forwardIntersect tol par s ev.r ev.v with
      | error e => rw [hf] at h; cases h
      | ok ds =>
        rw [hf] at h
        cases ds with
        | nil => cases h
        | cons t l => exact ⟨rfl, t, l, rfl, (Except.ok.inj h).symm⟩
    · rename_i hni
      right
      split at h
      · rename_i ho
        subst ho
        cases h1 : toIncident tol par s ev with
        | error e => rw [h1] at h; cases h
        | ok ev1 =>
          rw [h1] at h
          exact ⟨ev1, .inl ⟨rfl, rfl⟩, exitFromFront_cases h⟩
      · refine ⟨ev, .inr ⟨?_, rfl⟩, exitFromFront_cases h⟩
        cases loc <;> simp_all

theorem toExit_flies {tol par : ℝ} {s : Shape} {ev ev' : Ev} (h : toExit tol par s ev = .ok ev') :
    ∃ τ, 0 ≤ τ ∧ FliesFor ev ev' τ := by
  rcases toExit_cases h with ⟨-, t, l, hf, rfl⟩ | ⟨ev1, h1, -, ds, hf, h2⟩
  · exact ⟨t, forward_nonneg hf t (by simp), propagate_flies _ _⟩
  · obtain ⟨τ, h0, hτ⟩ : ∃ τ, 0 ≤ τ ∧ FliesFor ev ev1 τ := by
      rcases h1 with ⟨-, h1⟩ | ⟨-, rfl⟩
      · exact toIncident_flies h1
      · exact ⟨0, le_rfl, .refl _⟩
    rcases h2 with ⟨-, rfl⟩ | ⟨t, ht, rfl⟩
    · exact ⟨τ, h0, hτ⟩
    · exact ⟨τ + t, add_nonneg h0 (forward_nonneg hf t (borderLoop_mem ds ht).1),
        hτ.trans (propagate_flies _ _)⟩

theorem forward_mem {tol par : ℝ} {s : Shape} {p v : V3 ℝ} {ts ds : List ℝ}
    (hts : intersect tol par s p v = .ok ts) (h : forwardIntersect tol par s p v = .ok ds) (t : ℝ) :
    t ∈ ds ↔ t ∈ ts ∧ 0 ≤ t := by
  obtain ⟨ts', hts', rfl⟩ := forwardIntersect_spec h
  rw [hts] at hts'
  cases hts'
  simp [List.mem_filter]

theorem forward_intersect_ok {tol par : ℝ} {s : Shape} {p v : V3 ℝ} {ds : List ℝ}
    (h : forwardIntersect tol par s p v = .ok ds) : ∃ ts, intersect tol par s p v = .ok ts := by
  obtain ⟨ts', hts', rfl⟩ := forwardIntersect_spec h
  exact ⟨ts', hts'⟩

/-- a path in no neighbourhood of a crossing keeps its membership -/
theorem const_closed {s : Shape} {p v : V3 ℝ} {ts : List ℝ} (hc : CatchesAll s p v ts) {a b : ℝ}
    (hab : a ≤ b) (hno : ∀ t ∈ ts, ¬ (a ≤ t ∧ t ≤ b)) :
    Mem s (at' p v a) ↔ Mem s (at' p v b) := by
  by_contra hch
  obtain ⟨t, ht, h⟩ := hc a b hab hch
  exact hno t ht h

theorem at_zero_eq (p v : V3 ℝ) : at' p v 0 = p := by apply V3.ext <;> simp [at']

/-- from outside nothing is met before the first forward crossing -/
theorem outside_until {tol par : ℝ} (h0 : 0 < tol) {s : Shape}
    (hw : WF s) {p v : V3 ℝ} {ts ds : List ℝ} (hts : intersect tol par s p v = .ok ts)
    (hc : CatchesAll s p v ts) (hf : forwardIntersect tol par s p v = .ok ds)
    (hl : locate tol s p = .ok .outside) {u : ℝ} (hu : 0 ≤ u) (hlt : ∀ t ∈ ds, u < t) :
    ¬ Mem s (at' p v u) := by
  have h1 : ¬ Mem s (at' p v 0) := by
    rw [at_zero_eq]; exact ((locate_sound h0 s hw p).2 hl).self
  intro hm
  refine h1 ((const_closed hc hu ?_).2 hm)
  rintro t ht ⟨h2, h3⟩
  have := hlt t ((forward_mem hts hf t).2 ⟨ht, h2⟩)
  linarith

/-- from inside the path stays in the shape until the first forward crossing -/
theorem inside_until {tol par : ℝ} (h0 : 0 < tol) {s : Shape}
    (hw : WF s) {p v : V3 ℝ} {ts ds : List ℝ} (hts : intersect tol par s p v = .ok ts)
    (hc : CatchesAll s p v ts) (hf : forwardIntersect tol par s p v = .ok ds)
    (hl : locate tol s p = .ok .inside) {u : ℝ} (hu : 0 ≤ u) (hlt : ∀ t ∈ ds, u < t) :
    Mem s (at' p v u) := by
  have h1 : Mem s (at' p v 0) := by
    rw [at_zero_eq]; exact ((locate_sound h0 s hw p).1 hl).self
  refine (const_closed hc hu ?_).1 h1
  rintro t ht ⟨h2, h3⟩
  have := hlt t ((forward_mem hts hf t).2 ⟨ht, h2⟩)
  linarith

theorem borderLoop_clear {tol : ℝ} (h0 : 0 < tol) {stop go : Loc} {s : Shape} (hw : WF s) {ev : Ev}
    (hstart : locate tol s ev.r = .ok .onborder) (hso : stop ≠ .onborder) (hgo : go ≠ .onborder)
    (hcov : ∀ l, l = stop ∨ l = go ∨ l = .onborder)
    (ds : List ℝ) (all : List ℝ) (hsub : ∀ t ∈ ds, t ∈ all ∧ 0 ≤ t)
    (hall : ∀ t ∈ all, 0 < t → t ∈ ds) (hs : ds.Pairwise (· ≤ ·))
    (hcl : ClearAhead tol s ev.r ev.v all) (o : Option ℝ)
    (h : borderLoop tol stop go s ev ds = .ok o) :
    match (generalizing := false) o with
    | some t => 0 < t ∧ t ∈ all ∧ (∀ u ∈ all, ¬ (0 < u ∧ u < t)) ∧
        locate tol s (at' ev.r ev.v (t / 2)) = .ok go
    | none => (∀ u ∈ all, u ≤ 0) ∨ ∃ t ∈ all, 0 < t ∧ (∀ u ∈ all, ¬ (0 < u ∧ u < t)) ∧
        locate tol s (at' ev.r ev.v (t / 2)) = .ok stop := by
  induction ds with
  | nil =>
    cases h
    left
    intro u hu
    by_contra hc
    exact absurd (hall u hu (by linarith)) (by simp)
  | cons a l ih =>
    rw [borderLoop] at h
    have he : ev.r + (a * (1 / 2)) • ev.v = at' ev.r ev.v (a / 2) := by
      unfold at'; congr 2; ring
    rw [he] at h
    obtain ⟨loc, hl⟩ := locate_total tol s hw (at' ev.r ev.v (a / 2))
    rw [hl] at h
    simp only [bind, Except.bind] at h
    obtain ⟨ha, ha0⟩ := hsub a (by simp)
    rcases eq_or_lt_of_le ha0 with hz | hpos
    · -- a crossing at the start
      have hb : loc = .onborder := by
        rw [← hz, zero_div, at_zero_eq, hstart] at hl
        exact (Except.ok.inj hl).symm
      subst hb
      rw [if_neg (Ne.symm hso), if_neg (Ne.symm hgo)] at h
      refine ih (fun t ht => hsub t (by simp [ht])) (fun t ht h1 => ?_)
        (List.pairwise_cons.1 hs).2 h
      rcases List.mem_cons.1 (hall t ht h1) with h2 | h2
      · rw [h2, ← hz] at h1; exact absurd h1 (lt_irrefl _)
      · exact h2
    · have hfirst : ∀ u ∈ all, ¬ (0 < u ∧ u < a) := by
        rintro u hu ⟨h1, h2⟩
        rcases List.mem_cons.1 (hall u hu h1) with h3 | h3
        · linarith
        · have := (List.pairwise_cons.1 hs).1 u h3
          linarith
      have hnb : loc ≠ .onborder := by
        intro hb
        exact locate_clear h0 hw (hcl a ha hpos hfirst) (by rw [hl, hb])
      split at h
      · rename_i h1
        cases h
        exact .inr ⟨a, ha, hpos, hfirst, by rw [hl, h1]⟩
      · split at h
        · rename_i h1 h2
          cases h
          exact ⟨hpos, ha, hfirst, by rw [hl, h2]⟩
        · rename_i h1 h2
          rcases hcov loc with h3 | h3 | h3
          · exact absurd h3 h1
          · exact absurd h3 h2
          · exact absurd h3 hnb

theorem borderLoop_clear' {tol par : ℝ} (h0 : 0 < tol) {stop go : Loc} {s : Shape} (hw : WF s)
    {ev : Ev} (hstart : locate tol s ev.r = .ok .onborder) (hso : stop ≠ .onborder)
    (hgo : go ≠ .onborder) (hcov : ∀ l, l = stop ∨ l = go ∨ l = .onborder) {ts ds : List ℝ}
    (hts : intersect tol par s ev.r ev.v = .ok ts)
    (hf : forwardIntersect tol par s ev.r ev.v = .ok ds) (hcl : ClearAhead tol s ev.r ev.v ts)
    {o : Option ℝ} (h : borderLoop tol stop go s ev ds = .ok o) :
    match (generalizing := false) o with
    | some t => 0 < t ∧ t ∈ ts ∧ (∀ u ∈ ts, ¬ (0 < u ∧ u < t)) ∧
        locate tol s (at' ev.r ev.v (t / 2)) = .ok go
    | none => (∀ u ∈ ts, u ≤ 0) ∨ ∃ t ∈ ts, 0 < t ∧ (∀ u ∈ ts, ¬ (0 < u ∧ u < t)) ∧
        locate tol s (at' ev.r ev.v (t / 2)) = .ok stop := by
  refine borderLoop_clear h0 hw hstart hso hgo hcov ds ts (fun t ht => (forward_mem hts hf t).1 ht)
    (fun t ht h1 => (forward_mem hts hf t).2 ⟨ht, h1.le⟩) ?_ hcl o h
  exact (List.pairwise_cons.1 (forward_sorted hf)).2

theorem mem_between {tol : ℝ} (h0 : 0 < tol) {s : Shape} (hw : WF s) {p v : V3 ℝ} {ts : List ℝ}
    (hc : CatchesAll s p v ts) {t : ℝ} (hno : ∀ u ∈ ts, ¬ (0 < u ∧ u < t))
    (hl : locate tol s (at' p v (t / 2)) = .ok .inside) {u : ℝ} (h1 : 0 < u) (h2 : u < t) :
    Mem s (at' p v u) :=
  (const_between hc hno ⟨h1, h2⟩ ⟨by linarith, by linarith⟩).2 ((locate_sound h0 s hw _).1 hl).self

theorem not_mem_between {tol : ℝ} (h0 : 0 < tol) {s : Shape} (hw : WF s) {p v : V3 ℝ} {ts : List ℝ}
    (hc : CatchesAll s p v ts) {t : ℝ} (hno : ∀ u ∈ ts, ¬ (0 < u ∧ u < t))
    (hl : locate tol s (at' p v (t / 2)) = .ok .outside) {u : ℝ} (h1 : 0 < u) (h2 : u < t) :
    ¬ Mem s (at' p v u) := fun hm =>
  ((locate_sound h0 s hw _).2 hl).self
    ((const_between hc hno ⟨h1, h2⟩ ⟨by linarith, by linarith⟩).1 hm)

theorem never_after {s : Shape} (hb : Bounded s) {p v : V3 ℝ} (hv : v ≠ 0) {ts : List ℝ}
    (hc : CatchesAll s p v ts) {a : ℝ} (hno : ∀ u ∈ ts, u ≤ a) {u : ℝ} (h1 : a < u) :
    ¬ Mem s (at' p v u) := by
  intro hm
  obtain ⟨w, hw, hnw⟩ := far_away hb hv (p := p) a
  refine hnw ((const_between hc (a := a) (b := max u w + 1) ?_ ⟨h1, ?_⟩ ⟨hw, ?_⟩).1 hm)
  · rintro x hx ⟨h3, -⟩
    have := hno x hx
    linarith
  · have := le_max_left u w; linarith
  · have := le_max_right u w; linarith

/-- leaving from the front surface: the path is in the shape on the whole way, or it is already
at its exit -/
theorem exit_from_border {tol par : ℝ} (h0 : 0 < tol) {s : Shape} (hw : WF s) (hb : Bounded s)
    {ev ev' : Ev} (hv : ev.v ≠ 0) {ts : List ℝ} (hts : intersect tol par s ev.r ev.v = .ok ts)
    (hc : CatchesAll s ev.r ev.v ts) (hcl : ClearAhead tol s ev.r ev.v ts)
    (hl : locate tol s ev.r = .ok .onborder) (h : toExit tol par s ev = .ok ev') :
    (∃ τ, 0 < τ ∧ τ ∈ ts ∧ FliesFor ev ev' τ ∧ ∀ u, 0 < u → u < τ → Mem s (at' ev.r ev.v u)) ∨
    (ev' = ev ∧ ∃ ε > 0, ∀ u, 0 < u → u < ε → ¬ Mem s (at' ev.r ev.v u)) := by
  rcases toExit_cases h with ⟨h1, -⟩ | ⟨ev1, h1, -, ds, hf, h2⟩
  · rw [hl] at h1; cases h1
  · rcases h1 with ⟨h1, -⟩ | ⟨-, rfl⟩
    · rw [hl] at h1; cases h1
    · rcases h2 with ⟨hbl, rfl⟩ | ⟨t, hbl, rfl⟩
      · have := borderLoop_clear' h0 hw hl (by simp) (by simp) (by intro l; cases l <;> simp)
          hts hf hcl hbl
        refine .inr ⟨rfl, ?_⟩
        rcases this with hno | ⟨t, ht, hpos, hno, hmid⟩
        · exact ⟨1, one_pos, fun u h3 _ => never_after hb hv hc hno h3⟩
        · exact ⟨t, hpos, fun u h3 h4 => not_mem_between h0 hw hc hno hmid h3 h4⟩
      · obtain ⟨hpos, ht, hno, hmid⟩ := borderLoop_clear' h0 hw hl (by simp) (by simp)
          (by intro l; cases l <;> simp) hts hf hcl hbl
        exact .inl ⟨t, hpos, ht, propagate_flies _ _, fun u h3 h4 =>
          mem_between h0 hw hc hno hmid h3 h4⟩

theorem tofBeforeExit_toExit {tol par : ℝ} {s : Shape} {ev : Ev} {τ : ℝ}
    (h : tofBeforeExit tol par s ev = .ok τ) : 0 ≤ τ ∧ toExit tol par s ev = .ok (propagate ev τ) := by
  unfold tofBeforeExit at h
  cases hl : locate tol s ev.r with
  | error e => rw [hl] at h; cases h
  | ok loc =>
    rw [hl] at h
    simp only [bind, Except.bind] at h
    split at h
    · cases h
    · rename_i hno
      cases hf : forwardIntersect tol par s ev.r ev.v with
      | error e => rw [hf] at h; cases h
      | ok ds =>
        rw [hf] at h
        cases ds with
        | nil => cases h
        | cons t0 l =>
          simp only at h
          have hn := forward_nonneg hf
          split at h
          · rename_i hi
            cases h
            refine ⟨hn _ (by simp), ?_⟩
            unfold toExit
            rw [hl]
            simp only [bind, Except.bind]
            rw [if_pos hi, hf]
          · rename_i hi
            have hb : loc = .onborder := by cases loc <;> simp_all
            subst hb
            have hE : toExit tol par s ev = exitFromFront tol par s ev := by
              unfold toExit
              rw [hl]
              simp [bind, Except.bind]
            rw [hE]
            unfold exitFromFront
            rw [hf, hl]
            simp only [bind, Except.bind]
            rw [if_neg (by simp)]
            cases hb : borderLoop tol .outside .inside s ev (t0 :: l) with
            | error e => rw [hb] at h; cases h
            | ok o =>
              rw [hb] at h
              cases o with
              | none =>
                cases h
                refine ⟨le_rfl, ?_⟩
                have : propagate ev 0 = ev := by
                  unfold propagate
                  have h1 : ev.r + (0 : ℝ) • ev.v = ev.r := by apply V3.ext <;> simp
                  rw [h1, add_zero]
                rw [this]
              | some t =>
                cases h
                exact ⟨hn _ (borderLoop_mem _ hb).1, rfl⟩

theorem exitLoop_true {tol : ℝ} {s : Shape} {ev : Ev} (ds : List ℝ) (prev : ℝ)
    (h : exitLoop tol s ev prev ds = .ok true) (hs : (prev :: ds).Pairwise (· ≤ ·))
    (hcl : ∀ t ∈ ds, prev < t → (∀ u ∈ ds, ¬ (prev < u ∧ u < t)) →
      locate tol s (ev.r + ((prev + t) / 2) • ev.v) ≠ .ok .onborder) : ∀ t ∈ ds, t = prev := by
  induction ds generalizing prev with
  | nil => simp
  | cons a l ih =>
    rw [exitLoop] at h
    cases hl : locate tol s (ev.r + ((prev + a) / 2) • ev.v) with
    | error e => rw [hl] at h; cases h
    | ok loc =>
      rw [hl] at h
      simp only [bind, Except.bind] at h
      split at h
      · cases h
      · rename_i hb
        have hb : loc = .onborder := by simpa using hb
        subst hb
        have hle : prev ≤ a := (List.pairwise_cons.1 hs).1 a (by simp)
        have hs2 := (List.pairwise_cons.1 hs).2
        have ha : a = prev := by
          by_contra hne
          have hlt : prev < a := lt_of_le_of_ne hle (Ne.symm hne)
          refine hcl a (by simp) hlt ?_ hl
          rintro u hu ⟨h1, h2⟩
          rcases List.mem_cons.1 hu with rfl | hu
          · linarith
          · have := (List.pairwise_cons.1 hs2).1 u hu
            linarith
        subst ha
        intro t ht
        rcases List.mem_cons.1 ht with rfl | ht
        · rfl
        · refine ih a h hs2 ?_ t ht
          intro x hx h1 h2
          refine hcl x (by simp [hx]) h1 ?_
          rintro u hu ⟨h3, h4⟩
          rcases List.mem_cons.1 hu with rfl | hu
          · linarith
          · exact h2 u hu ⟨h3, h4⟩

theorem isExiting_never {tol par : ℝ} (h0 : 0 < tol) {s : Shape} (hw : WF s) (hb : Bounded s)
    {ev : Ev} (hv : ev.v ≠ 0) {ts : List ℝ} (hts : intersect tol par s ev.r ev.v = .ok ts)
    (hc : CatchesAll s ev.r ev.v ts) (hcl : ClearAhead tol s ev.r ev.v ts)
    (h : isExiting tol par s ev = .ok true) {u : ℝ} (hu : 0 < u) : ¬ Mem s (at' ev.r ev.v u) := by
  unfold isExiting at h
  cases hl : locate tol s ev.r with
  | error e => rw [hl] at h; cases h
  | ok loc =>
    rw [hl] at h
    simp only [bind, Except.bind] at h
    split at h
    · cases h
    · cases hf : forwardIntersect tol par s ev.r ev.v with
      | error e => rw [hf] at h; cases h
      | ok ds =>
        rw [hf] at h
        have hfm := forward_mem hts hf
        cases ds with
        | nil =>
          refine never_after hb hv hc (a := 0) (fun x hx => ?_) hu
          by_contra hc'
          exact absurd ((hfm x).2 ⟨hx, by linarith⟩) (by simp)
        | cons t0 l =>
          simp only at h
          split at h
          · cases h
          · have h3 := exitLoop_true _ 0 h (forward_sorted hf) (by
              intro t ht h1 h2
              have := locate_clear h0 hw (hcl t ((hfm t).1 ht).1 h1 (fun x hx hxx =>
                h2 x ((hfm x).2 ⟨hx, hxx.1.le⟩) hxx))
              have he : ev.r + ((0 + t) / 2) • ev.v = at' ev.r ev.v (t / 2) := by
                rw [zero_add]; rfl
              rw [he]
              exact this)
            refine never_after hb hv hc (a := 0) (fun x hx => ?_) hu
            by_contra hc'
            have := h3 x ((hfm x).2 ⟨hx, by linarith⟩)
            linarith

theorem isExiting_of_inside {tol par : ℝ} {s : Shape} {ev : Ev}
    (hl : locate tol s ev.r = .ok .inside) : isExiting tol par s ev = .ok false := by
  unfold isExiting
  rw [hl]
  rfl

theorem propagateOut_cases {tol par : ℝ} {s : Shape} {ev ev' : Ev}
    (h : propagateOut tol par s ev = .ok ev') :
    ∃ ts, intersect tol par s ev.r ev.v = .ok ts ∧
      ((ts = [] ∧ ev' = ev) ∨ ∃ t, ts.getLast? = some t ∧ ev' = propagate ev t) := by
  unfold propagateOut at h
  cases hi : intersect tol par s ev.r ev.v with
  | error e => rw [hi] at h; cases h
  | ok ts =>
    rw [hi] at h
    simp only [bind, Except.bind] at h
    refine ⟨ts, rfl, ?_⟩
    split at h
    · rename_i hn
      exact .inl ⟨List.getLast?_eq_none_iff.1 hn, (Except.ok.inj h).symm⟩
    · rename_i t ht
      exact .inr ⟨t, ht, (Except.ok.inj h).symm⟩

theorem getLast_max {l : List ℝ} (hs : l.Pairwise (· ≤ ·)) {t : ℝ} (h : l.getLast? = some t) :
    ∀ x ∈ l, x ≤ t := by
  obtain ⟨l', rfl⟩ := List.getLast?_eq_some_iff.1 h
  intro x hx
  rcases List.mem_append.1 hx with hx | hx
  · exact (List.pairwise_append.1 hs).2.2 x hx t (by simp)
  · simp at hx; exact hx.le

end Verif.Flight
