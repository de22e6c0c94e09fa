import Verif.Lemmas.McStas
import Mathlib.Topology.Order.Compact
import Mathlib.Data.List.Perm.Basic
/-!
Helper lemmas for the intersection of a ray with a box.
-/

namespace Verif.McStas
open Solid Flight Homog Kinem Filter Topology

theorem near_strict {q w d a : ℝ} (h : |q + a * w| < d / 2) : ∀ᶠ s in 𝓝 a, |q + s * w| ≤ d / 2 := by
  have hc : ContinuousAt (fun s : ℝ => |q + s * w|) a := by fun_prop
  filter_upwards [hc.eventually (gt_mem_nhds h)] with s hs using hs.le

theorem near_edge {q w d a : ℝ} (hd : 0 < d) (h : |q + a * w| = d / 2) (hw : w ≠ 0) :
    ((∀ᶠ s in 𝓝[<] a, |q + s * w| ≤ d / 2) ∧ ∀ s, a < s → ¬ |q + s * w| ≤ d / 2) ∨
    ((∀ᶠ s in 𝓝[>] a, |q + s * w| ≤ d / 2) ∧ ∀ s, s < a → ¬ |q + s * w| ≤ d / 2) := by
  have hc : ContinuousAt (fun s : ℝ => q + s * w) a := by fun_prop
  rcases (abs_eq (by linarith)).1 h with h | h
  · have h1 : ∀ᶠ s in 𝓝 a, -(d / 2) < q + s * w := hc.eventually (lt_mem_nhds (by simp only [h]; linarith))
    rcases lt_or_gt_of_ne hw with hw | hw
    · right
      refine ⟨?_, fun s hs hc => ?_⟩
      · filter_upwards [h1.filter_mono nhdsWithin_le_nhds, self_mem_nhdsWithin] with s h2 h3
        rw [abs_le]
        have : a < s := h3
        exact ⟨h2.le, by nlinarith⟩
      · rw [abs_le] at hc; nlinarith [hc.2]
    · left
      refine ⟨?_, fun s hs hc => ?_⟩
      · filter_upwards [h1.filter_mono nhdsWithin_le_nhds, self_mem_nhdsWithin] with s h2 h3
        rw [abs_le]
        have : s < a := h3
        exact ⟨h2.le, by nlinarith⟩
      · rw [abs_le] at hc; nlinarith [hc.2]
  · have h1 : ∀ᶠ s in 𝓝 a, q + s * w < d / 2 := hc.eventually (gt_mem_nhds (by simp only [h]; linarith))
    rcases lt_or_gt_of_ne hw with hw | hw
    · left
      refine ⟨?_, fun s hs hc => ?_⟩
      · filter_upwards [h1.filter_mono nhdsWithin_le_nhds, self_mem_nhdsWithin] with s h2 h3
        rw [abs_le]
        have : s < a := h3
        exact ⟨by nlinarith, h2.le⟩
      · rw [abs_le] at hc; nlinarith [hc.1]
    · right
      refine ⟨?_, fun s hs hc => ?_⟩
      · filter_upwards [h1.filter_mono nhdsWithin_le_nhds, self_mem_nhdsWithin] with s h2 h3
        rw [abs_le]
        have : a < s := h3
        exact ⟨by nlinarith, h2.le⟩
      · rw [abs_le] at hc; nlinarith [hc.1]

theorem left_exists {P : ℝ → Prop} {t : ℝ} (h : ∀ᶠ s in 𝓝[<] t, P s) : ∃ s, s < t ∧ P s := by
  obtain ⟨s, h1, h2⟩ := (h.and self_mem_nhdsWithin).exists
  exact ⟨s, h2, h1⟩

theorem right_exists {P : ℝ → Prop} {t : ℝ} (h : ∀ᶠ s in 𝓝[>] t, P s) : ∃ s, t < s ∧ P s := by
  obtain ⟨s, h1, h2⟩ := (h.and self_mem_nhdsWithin).exists
  exact ⟨s, h2, h1⟩

/-- the ray crosses a face of one pair of faces at the time `s` -/
def Cross (q w d q1 w1 d1 q2 w2 d2 s : ℝ) : Prop :=
  w ≠ 0 ∧ |q + s * w| = d / 2 ∧ |q1 + s * w1| < d1 / 2 ∧ |q2 + s * w2| < d2 / 2

/-- the ray crosses a face at the time `s` -/
def Hit (r v d : V3 ℝ) (s : ℝ) : Prop :=
  Cross r.x v.x d.x r.y v.y d.y r.z v.z d.z s ∨ Cross r.y v.y d.y r.x v.x d.x r.z v.z d.z s ∨
  Cross r.z v.z d.z r.x v.x d.x r.y v.y d.y s

theorem face_ne {tt q1 w1 d1 q2 w2 d2 t : ℝ} (ht : t ≠ 0) : face tt q1 w1 d1 q2 w2 d2 = t ↔
    t = tt ∧ |q1 + tt * w1| < d1 / 2 ∧ |q2 + tt * w2| < d2 / 2 := by
  unfold face
  simp only [abs_lt]
  split
  · next h =>
    constructor
    · rintro rfl; exact ⟨rfl, ⟨by linarith [h.1], by linarith [h.2.1]⟩, by linarith [h.2.2.1], by linarith [h.2.2.2]⟩
    · rintro ⟨rfl, _⟩; rfl
  · next h =>
    constructor
    · intro h0; exact absurd h0.symm ht
    · rintro ⟨rfl, ⟨h1, h2⟩, h3, h4⟩
      exact absurd ⟨by linarith, by linarith, by linarith, by linarith⟩ h

theorem mem_faces {q w d q1 w1 d1 q2 w2 d2 t : ℝ} (hd : 0 < d) (ht : t ≠ 0) :
    t ∈ faces q w d q1 w1 d1 q2 w2 d2 ↔ Cross q w d q1 w1 d1 q2 w2 d2 t := by
  unfold faces Cross
  split
  · next hw =>
    simp only [List.mem_cons, List.not_mem_nil, or_false]
    rw [eq_comm, face_ne ht, eq_comm (b := face _ _ _ _ _ _ _), face_ne ht]
    constructor
    · rintro (⟨rfl, h1, h2⟩ | ⟨rfl, h1, h2⟩)
      · refine ⟨hw, ?_, h1, h2⟩
        rw [show q + -(d / 2 + q) / w * w = -(d / 2) by field_simp; ring, abs_neg, abs_of_pos (by linarith)]
      · refine ⟨hw, ?_, h1, h2⟩
        rw [show q + (d / 2 - q) / w * w = d / 2 by field_simp; ring, abs_of_pos (by linarith)]
    · rintro ⟨_, h, h1, h2⟩
      rcases (abs_eq (by linarith)).1 h with h | h
      · right
        have : t = (d / 2 - q) / w := by rw [eq_div_iff hw]; linarith
        exact ⟨this, this ▸ h1, this ▸ h2⟩
      · left
        have : t = -(d / 2 + q) / w := by rw [eq_div_iff hw]; linarith
        exact ⟨this, this ▸ h1, this ▸ h2⟩
  · next hw =>
    simp only [List.mem_cons, List.not_mem_nil, or_false, or_self]
    constructor
    · intro h; exact absurd h ht
    · rintro ⟨h, _⟩; exact absurd h hw

theorem faces_nodup {q w d q1 w1 d1 q2 w2 d2 : ℝ} (hd : 0 < d) :
    ((faces q w d q1 w1 d1 q2 w2 d2).filter (fun t => decide (t ≠ 0))).Nodup := by
  unfold faces
  split
  · next hw =>
    have hne : -(d / 2 + q) / w ≠ (d / 2 - q) / w := by
      intro h
      rw [div_left_inj' hw] at h
      linarith
    generalize hx : face (-(d / 2 + q) / w) q1 w1 d1 q2 w2 d2 = x
    generalize hy : face ((d / 2 - q) / w) q1 w1 d1 q2 w2 d2 = y
    by_cases hx0 : x = 0
    · by_cases hy0 : y = 0 <;> simp [hx0, hy0]
    · by_cases hy0 : y = 0
      · simp [hx0, hy0]
      · have := ((face_ne hx0).1 hx).1
        have h2 := ((face_ne hy0).1 hy).1
        have hxy : x ≠ y := by intro h; apply hne; rw [← this, ← h2, h]
        simp [hx0, hy0, hxy]
  · simp

theorem collect_filter (ts : List ℝ) : ∀ st, collect ts st = collect (ts.filter (fun t => decide (t ≠ 0))) st := by
  induction ts with
  | nil => intro st; rfl
  | cons t ts ih =>
    rintro ⟨a, b, n⟩
    by_cases h : t = 0
    · rw [List.filter_cons_of_neg (by simp [h]), collect, if_pos h]; exact ih _
    · rw [List.filter_cons_of_pos (by simp [h]), collect, collect, if_neg h]; exact ih _

/-- all times of `box_intersect` -/
noncomputable def times (r v d : V3 ℝ) : List ℝ :=
  faces r.x v.x d.x r.y v.y d.y r.z v.z d.z ++ faces r.y v.y d.y r.x v.x d.x r.z v.z d.z ++
    faces r.z v.z d.z r.x v.x d.x r.y v.y d.y

theorem times_mem {r v d : V3 ℝ} (hx : 0 < d.x) (hy : 0 < d.y) (hz : 0 < d.z) (t : ℝ) :
    t ∈ (times r v d).filter (fun t => decide (t ≠ 0)) ↔ t ≠ 0 ∧ Hit r v d t := by
  rw [List.mem_filter, decide_eq_true_iff, and_comm]
  refine and_congr_right fun ht => ?_
  unfold times Hit
  rw [List.mem_append, List.mem_append, mem_faces hx ht, mem_faces hy ht, mem_faces hz ht, or_assoc]

theorem times_nodup {r v d : V3 ℝ} (hx : 0 < d.x) (hy : 0 < d.y) (hz : 0 < d.z) :
    ((times r v d).filter (fun t => decide (t ≠ 0))).Nodup := by
  unfold times
  rw [List.filter_append, List.filter_append, List.nodup_append, List.nodup_append]
  refine ⟨⟨faces_nodup hx, faces_nodup hy, ?_⟩, faces_nodup hz, ?_⟩
  · rintro a ha b hb rfl
    rw [List.mem_filter, decide_eq_true_iff] at ha hb
    have h1 := (mem_faces hx ha.2).1 ha.1
    have h2 := (mem_faces hy ha.2).1 hb.1
    exact absurd h1.2.1 h2.2.2.1.ne
  · rintro a ha b hb rfl
    rw [List.mem_append] at ha
    rw [List.mem_filter, decide_eq_true_iff] at hb
    have h2 := (mem_faces hz hb.2).1 hb.1
    rcases ha with ha | ha <;> rw [List.mem_filter, decide_eq_true_iff] at ha
    · have h1 := (mem_faces hx ha.2).1 ha.1
      exact absurd h1.2.1 h2.2.2.1.ne
    · have h1 := (mem_faces hy ha.2).1 ha.1
      exact absurd h1.2.1 h2.2.2.2.ne

/-- a time at which the ray crosses a face is an end of the flight through the box, and the flight takes some time -/
theorem cross_end {q w d q1 w1 d1 q2 w2 d2 t : ℝ} (hd : 0 < d) (h : Cross q w d q1 w1 d1 q2 w2 d2 t) :
    (|q + t * w| ≤ d / 2 ∧ |q1 + t * w1| ≤ d1 / 2 ∧ |q2 + t * w2| ≤ d2 / 2) ∧
    (((∃ s, s < t ∧ |q + s * w| ≤ d / 2 ∧ |q1 + s * w1| ≤ d1 / 2 ∧ |q2 + s * w2| ≤ d2 / 2) ∧
        ∀ s, t < s → ¬ |q + s * w| ≤ d / 2) ∨
      ((∃ s, t < s ∧ |q + s * w| ≤ d / 2 ∧ |q1 + s * w1| ≤ d1 / 2 ∧ |q2 + s * w2| ≤ d2 / 2) ∧
        ∀ s, s < t → ¬ |q + s * w| ≤ d / 2)) := by
  obtain ⟨hw, h0, h1, h2⟩ := h
  refine ⟨⟨h0.le, h1.le, h2.le⟩, ?_⟩
  have n := (near_strict h1).and (near_strict h2)
  refine (near_edge hd h0 hw).imp (fun ⟨g1, g2⟩ => ⟨?_, g2⟩) (fun ⟨g1, g2⟩ => ⟨?_, g2⟩)
  · exact left_exists (g1.and (n.filter_mono nhdsWithin_le_nhds))
  · exact right_exists (g1.and (n.filter_mono nhdsWithin_le_nhds))

theorem hit_end {r v d : V3 ℝ} (hx : 0 < d.x) (hy : 0 < d.y) (hz : 0 < d.z) {t : ℝ} (h : Hit r v d t) :
    InBox r v d t ∧ (((∃ s, s < t ∧ InBox r v d s) ∧ ∀ s, t < s → ¬ InBox r v d s) ∨
      ((∃ s, t < s ∧ InBox r v d s) ∧ ∀ s, s < t → ¬ InBox r v d s)) := by
  unfold InBox
  rcases h with h | h | h
  · obtain ⟨h1, h2⟩ := cross_end hx h
    exact ⟨h1, h2.imp (fun ⟨g1, g2⟩ => ⟨g1, fun s hs hc => g2 s hs hc.1⟩) fun ⟨g1, g2⟩ => ⟨g1, fun s hs hc => g2 s hs hc.1⟩⟩
  · obtain ⟨h1, h2⟩ := cross_end hy h
    exact ⟨⟨h1.2.1, h1.1, h1.2.2⟩,
      h2.imp (fun ⟨⟨s, g0, g1⟩, g2⟩ => ⟨⟨s, g0, g1.2.1, g1.1, g1.2.2⟩, fun s hs hc => g2 s hs hc.2.1⟩)
        fun ⟨⟨s, g0, g1⟩, g2⟩ => ⟨⟨s, g0, g1.2.1, g1.1, g1.2.2⟩, fun s hs hc => g2 s hs hc.2.1⟩⟩
  · obtain ⟨h1, h2⟩ := cross_end hz h
    exact ⟨⟨h1.2.1, h1.2.2, h1.1⟩,
      h2.imp (fun ⟨⟨s, g0, g1⟩, g2⟩ => ⟨⟨s, g0, g1.2.1, g1.2.2, g1.1⟩, fun s hs hc => g2 s hs hc.2.2⟩)
        fun ⟨⟨s, g0, g1⟩, g2⟩ => ⟨⟨s, g0, g1.2.1, g1.2.2, g1.1⟩, fun s hs hc => g2 s hs hc.2.2⟩⟩

theorem near_const {q w d a : ℝ} (h : |q + a * w| ≤ d / 2) (hw : ¬ (w ≠ 0 ∧ |q + a * w| = d / 2)) :
    ∀ᶠ s in 𝓝 a, |q + s * w| ≤ d / 2 := by
  by_cases h0 : w = 0
  · subst h0; simpa using h
  · exact near_strict (lt_of_le_of_ne h fun hc => hw ⟨h0, hc⟩)

/-- a point of the flight through the box where it cannot go on in both directions is a crossing -/
theorem end_hit {r v d : V3 ℝ} (he : NoEdge r v d) {t : ℝ} (ht : InBox r v d t) :
    Hit r v d t ∨ ∀ᶠ s in 𝓝 t, InBox r v d s := by
  obtain ⟨e1, e2, e3⟩ := he t ht
  have ht' := ht
  obtain ⟨hx, hy, hz⟩ := ht
  by_cases cx : v.x ≠ 0 ∧ |r.x + t * v.x| = d.x / 2
  · exact .inl (.inl ⟨cx.1, cx.2, lt_of_le_of_ne hy fun h => e1 ⟨cx.2, h⟩, lt_of_le_of_ne hz fun h => e2 ⟨cx.2, h⟩⟩)
  by_cases cy : v.y ≠ 0 ∧ |r.y + t * v.y| = d.y / 2
  · exact .inl (.inr (.inl ⟨cy.1, cy.2, lt_of_le_of_ne hx fun h => e1 ⟨h, cy.2⟩, lt_of_le_of_ne hz fun h => e3 ⟨cy.2, h⟩⟩))
  by_cases cz : v.z ≠ 0 ∧ |r.z + t * v.z| = d.z / 2
  · exact .inl (.inr (.inr ⟨cz.1, cz.2, lt_of_le_of_ne hx fun h => e2 ⟨h, cz.2⟩, lt_of_le_of_ne hy fun h => e3 ⟨h, cz.2⟩⟩))
  · right
    filter_upwards [near_const hx cx, near_const hy cy, near_const hz cz] with s h1 h2 h3 using ⟨h1, h2, h3⟩

theorem slab_bound {q w d s : ℝ} (hw : w ≠ 0) (h : |q + s * w| ≤ d / 2) : |s| ≤ (d / 2 + |q|) / |w| := by
  rw [le_div_iff₀ (abs_pos.2 hw), ← abs_mul]
  calc |s * w| = |(q + s * w) - q| := by ring_nf
    _ ≤ |q + s * w| + |q| := abs_sub _ _
    _ ≤ _ := by linarith

theorem box_interval {r v d : V3 ℝ} (hx : 0 < d.x) (hy : 0 < d.y) (hz : 0 < d.z) (hv : v ≠ 0) (he : NoEdge r v d)
    {t : ℝ} (ht : InBox r v d t) : ∃ a b, a < b ∧ Hit r v d a ∧ Hit r v d b ∧ ∀ s, InBox r v d s ↔ a ≤ s ∧ s ≤ b := by
  have hclosed : IsClosed {s | InBox r v d s} := by
    have hc : ∀ q w e : ℝ, IsClosed {s : ℝ | |q + s * w| ≤ e} := fun q w e =>
      isClosed_le (by fun_prop) continuous_const
    exact (hc _ _ _).inter ((hc _ _ _).inter (hc _ _ _))
  have hbound : ∃ M, ∀ s, InBox r v d s → |s| ≤ M := by
    by_cases h1 : v.x = 0
    · by_cases h2 : v.y = 0
      · by_cases h3 : v.z = 0
        · exact absurd (by ext <;> simpa) hv
        · exact ⟨_, fun s h => slab_bound h3 h.2.2⟩
      · exact ⟨_, fun s h => slab_bound h2 h.2.1⟩
    · exact ⟨_, fun s h => slab_bound h1 h.1⟩
  obtain ⟨M, hM⟩ := hbound
  have hcomp : IsCompact {s | InBox r v d s} := by
    apply (isCompact_Icc (a := -M) (b := M)).of_isClosed_subset hclosed
    intro s hs
    exact abs_le.1 (hM s hs)
  have hne : {s | InBox r v d s}.Nonempty := ⟨t, ht⟩
  obtain ⟨a, ha, hamin⟩ := hcomp.exists_isLeast hne
  obtain ⟨b, hb, hbmax⟩ := hcomp.exists_isGreatest hne
  have hita : Hit r v d a := by
    refine (end_hit he ha).resolve_right fun h => ?_
    obtain ⟨s, h1, h2⟩ := left_exists (h.filter_mono nhdsWithin_le_nhds)
    exact absurd (hamin h2) (not_le.2 h1)
  have hitb : Hit r v d b := by
    refine (end_hit he hb).resolve_right fun h => ?_
    obtain ⟨s, h1, h2⟩ := right_exists (h.filter_mono nhdsWithin_le_nhds)
    exact absurd (hbmax h2) (not_le.2 h1)
  have hab : a < b := by
    rcases (hit_end hx hy hz hita).2 with ⟨⟨s, h1, h2⟩, _⟩ | ⟨⟨s, h1, h2⟩, _⟩
    · exact absurd (hamin h2) (not_le.2 h1)
    · exact lt_of_lt_of_le h1 (hbmax h2)
  refine ⟨a, b, hab, hita, hitb, fun s => ⟨fun h => ⟨hamin h, hbmax h⟩, fun ⟨h1, h2⟩ => ?_⟩⟩
  have conv : ∀ {q w e : ℝ}, |q + a * w| ≤ e → |q + b * w| ≤ e → |q + s * w| ≤ e := by
    intro q w e g1 g2
    rw [abs_le] at g1 g2 ⊢
    rcases le_total 0 w with hw | hw
    · constructor <;> nlinarith
    · constructor <;> nlinarith
  exact ⟨conv ha.1 hb.1, conv ha.2.1 hb.2.1, conv ha.2.2 hb.2.2⟩

/-- the end of `box_intersect` for the times that are not 0 -/
noncomputable def boxEnd (l : List ℝ) : Option (ℝ × ℝ) :=
  let (a, b, _) := collect l (0, 0, 0)
  if a = 0 ∧ b = 0 then none
  else if a < b then some (a, b) else some (b, a)

theorem box_eq (r v d : V3 ℝ) : boxIntersect r v d = boxEnd ((times r v d).filter (fun t => decide (t ≠ 0))) := by
  unfold boxIntersect boxEnd
  rw [← collect_filter]
  rfl

theorem boxEnd_two {a b : ℝ} (hab : a < b) {l : List ℝ} (hl : l.Nodup) (h : ∀ t, t ∈ l ↔ t ≠ 0 ∧ (t = a ∨ t = b)) :
    boxEnd l = some (a, b) := by
  by_cases ha : a = 0
  · subst ha
    have hb : b ≠ 0 := hab.ne'
    have : l.Perm [b] := by
      rw [List.perm_ext_iff_of_nodup hl (by simp)]
      intro t
      rw [h, List.mem_singleton]
      constructor
      · rintro ⟨h1, h2 | h2⟩
        · exact absurd h2 h1
        · exact h2
      · rintro rfl; exact ⟨hb, .inr rfl⟩
    rw [List.perm_singleton.1 this]
    simp only [boxEnd, collect, if_true, hb, false_and, if_false]
    rw [if_neg (not_lt.2 hab.le)]
  · by_cases hb : b = 0
    · subst hb
      have : l.Perm [a] := by
        rw [List.perm_ext_iff_of_nodup hl (by simp)]
        intro t
        rw [h, List.mem_singleton]
        constructor
        · rintro ⟨h1, h2 | h2⟩
          · exact h2
          · exact absurd h2 h1
        · rintro rfl; exact ⟨ha, .inl rfl⟩
      rw [List.perm_singleton.1 this]
      simp only [boxEnd, collect, if_true, ha, false_and, if_false]
      rw [if_pos hab]
    · have : l.Perm [a, b] := by
        rw [List.perm_ext_iff_of_nodup hl (by simp [hab.ne])]
        intro t
        rw [h, List.mem_cons, List.mem_singleton]
        constructor
        · exact fun h => h.2
        · rintro (rfl | rfl)
          · exact ⟨ha, .inl rfl⟩
          · exact ⟨hb, .inr rfl⟩
      have h' : l = [a, b] ∨ l = [b, a] := by
        obtain ⟨x, y, rfl⟩ := List.length_eq_two.1 this.length_eq
        have hx := ((h x).1 (by simp)).2
        have hy := ((h y).1 (by simp)).2
        simp only [List.nodup_cons, List.mem_singleton] at hl
        rcases hx with rfl | rfl <;> rcases hy with rfl | rfl
        · exact absurd rfl hl.1
        · exact .inl rfl
        · exact .inr rfl
        · exact absurd rfl hl.1
      rcases h' with h' | h' <;> rw [h']
      · simp only [boxEnd, collect, if_neg ha, if_neg hb, if_true, one_ne_zero, ha, false_and, if_false]
        rw [if_pos hab]
      · simp only [boxEnd, collect, if_neg ha, if_neg hb, if_true, one_ne_zero, hb, false_and, if_false]
        rw [if_neg (not_lt.2 hab.le)]

theorem boxEnd_none {l : List ℝ} (h : ∀ t, t ∉ l) : boxEnd l = none := by
  rw [List.eq_nil_iff_forall_not_mem.2 h]
  simp [boxEnd, collect]

end Verif.McStas
