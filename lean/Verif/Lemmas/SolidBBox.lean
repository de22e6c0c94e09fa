import Verif.Lemmas.Solid
/-!
Helper lemmas: bounding boxes.
-/

namespace Verif.Solid

theorem uprightAll_iff (l : List Shape) : UprightAll l ↔ ∀ s ∈ l, Upright s := by
  induction l with
  | nil => simp [UprightAll]
  | cons a l ih => simp [UprightAll, ih]

private theorem iv {c s x : ℝ} : |x - c| ≤ s / 2 ↔ c - s / 2 ≤ x ∧ x ≤ c + s / 2 := by
  rw [abs_le]; constructor <;> rintro ⟨h1, h2⟩ <;> constructor <;> linarith

theorem inBB_iff {b : BB} {p : V3 ℝ} : InBB b p ↔
    (b.cx - b.sx / 2 ≤ p.x ∧ p.x ≤ b.cx + b.sx / 2) ∧
    (b.cy - b.sy / 2 ≤ p.y ∧ p.y ≤ b.cy + b.sy / 2) ∧
    (b.cz - b.sz / 2 ≤ p.z ∧ p.z ≤ b.cz + b.sz / 2) := by
  rw [InBB, iv, iv, iv]

private theorem mid_iv {lo hi x : ℝ} : (lo + hi) / 2 - (hi - lo) / 2 ≤ x ∧
    x ≤ (lo + hi) / 2 + (hi - lo) / 2 ↔ lo ≤ x ∧ x ≤ hi := by
  constructor <;> rintro ⟨h1, h2⟩ <;> constructor <;> linarith

theorem inBB_unite {a b : BB} {p : V3 ℝ} (h : InBB a p ∨ InBB b p) : InBB (uniteBB a b) p := by
  rw [inBB_iff]
  simp only [uniteBB, mid_iv, min_le_iff, le_max_iff]
  rcases h with h | h <;> rw [inBB_iff] at h
  · exact ⟨⟨.inl h.1.1, .inl h.1.2⟩, ⟨.inl h.2.1.1, .inl h.2.1.2⟩, ⟨.inl h.2.2.1, .inl h.2.2.2⟩⟩
  · exact ⟨⟨.inr h.1.1, .inr h.1.2⟩, ⟨.inr h.2.1.1, .inr h.2.1.2⟩, ⟨.inr h.2.2.1, .inr h.2.2.2⟩⟩

private theorem inter_iv {lo hi x : ℝ} (h1 : lo ≤ x) (h2 : x ≤ hi) :
    (lo + hi) / 2 - max (hi - lo) 0 / 2 ≤ x ∧ x ≤ (lo + hi) / 2 + max (hi - lo) 0 / 2 := by
  rw [max_eq_left (by linarith)]
  constructor <;> linarith

theorem inBB_intersect {a b : BB} {p : V3 ℝ} (h : InBB a p) (h' : InBB b p) :
    InBB (intersectBB a b) p := by
  rw [inBB_iff] at h h' ⊢
  simp only [intersectBB]
  exact ⟨inter_iv (max_le h.1.1 h'.1.1) (le_min h.1.2 h'.1.2),
    inter_iv (max_le h.2.1.1 h'.2.1.1) (le_min h.2.1.2 h'.2.1.2),
    inter_iv (max_le h.2.2.1 h'.2.2.1) (le_min h.2.2.2 h'.2.2.2)⟩

theorem bboxIntersection_spec (l : List Shape) (r b : BB) (p : V3 ℝ)
    (ih : ∀ s ∈ l, ∀ b, bbox s = .ok b → InBB b p) (hr : InBB r p)
    (h : bboxIntersection l r = .ok b) : InBB b p := by
  induction l generalizing r with
  | nil => simp only [bboxIntersection, Except.ok.injEq] at h; exact h ▸ hr
  | cons s l IH =>
    rw [bboxIntersection] at h
    cases hs : bbox s with
    | error e => rw [hs] at h; simp [bind, Except.bind] at h
    | ok bs =>
      rw [hs] at h
      simp only [bind, Except.bind] at h
      exact IH _ (fun s hs => ih s (by simp [hs])) (inBB_intersect hr (ih s (by simp) _ hs)) h

theorem bboxUnion_spec (l : List Shape) (r b : BB) (p : V3 ℝ)
    (h : bboxUnion l r = .ok b)
    (ih : InBB r p ∨ ∃ s ∈ l, ∀ b, bbox s = .ok b → InBB b p) : InBB b p := by
  induction l generalizing r with
  | nil =>
    simp only [bboxUnion, Except.ok.injEq] at h
    rcases ih with h' | ⟨s, hs, _⟩
    · exact h ▸ h'
    · cases hs
  | cons s l IH =>
    rw [bboxUnion] at h
    cases hs : bbox s with
    | error e => rw [hs] at h; simp [bind, Except.bind] at h
    | ok bs =>
      rw [hs] at h
      simp only [bind, Except.bind] at h
      refine IH _ h ?_
      rcases ih with h' | ⟨s', hs', h'⟩
      · exact .inl (inBB_unite (.inl h'))
      · rcases List.mem_cons.1 hs' with rfl | hm
        · exact .inl (inBB_unite (.inr (h' _ hs)))
        · exact .inr ⟨s', hm, h'⟩

private theorem aligned_row {a b c x y z s : ℝ} (h : |a| + |b| + |c| ≤ 1) (hx : |x| ≤ s)
    (hy : |y| ≤ s) (hz : |z| ≤ s) : |a * x + b * y + c * z| ≤ s := by
  have hs : 0 ≤ s := (abs_nonneg x).trans hx
  have h1 : |a * x| ≤ |a| * s := by rw [abs_mul]; exact mul_le_mul_of_nonneg_left hx (abs_nonneg _)
  have h2 : |b * y| ≤ |b| * s := by rw [abs_mul]; exact mul_le_mul_of_nonneg_left hy (abs_nonneg _)
  have h3 : |c * z| ≤ |c| * s := by rw [abs_mul]; exact mul_le_mul_of_nonneg_left hz (abs_nonneg _)
  have h4 := abs_add_le (a * x + b * y) (c * z)
  have h5 := abs_add_le (a * x) (b * y)
  nlinarith

theorem abs_le_radius {x y R : ℝ} (hR : 0 < R) (h : x * x + y * y ≤ R * R) : |x| ≤ R :=
  abs_le_of_sq_le_sq (by nlinarith [mul_self_nonneg y]) hR.le

theorem bbox_encloses (s : Shape) : WF s → Upright s → ∀ b, bbox s = .ok b →
    ∀ p, Mem s p → InBB b p := by
  induction s using Shape.ind with
  | box X Y Z =>
    intro _ _ b h p hm
    simp only [bbox, Except.ok.injEq] at h
    subst h
    simpa [InBB, Mem] using hm
  | cyl R h =>
    intro hw _ b hb p hm
    simp only [bbox, Except.ok.injEq] at hb
    subst hb
    simp only [Mem] at hm
    simp only [WF] at hw
    have h1 := abs_le_radius hw.1 hm.1
    have h2 := abs_le_radius (x := p.y) (y := p.x) hw.1 (by linarith [hm.1])
    simp only [InBB, sub_zero]
    exact ⟨by linarith, by linarith, hm.2⟩
  | pyr X Y h =>
    intro hw _ b hb p hm
    simp only [bbox, Except.ok.injEq] at hb
    subst hb
    simp only [Mem] at hm
    simp only [WF] at hw
    simp only [InBB, sub_zero]
    obtain ⟨h1, h2, h3, h4⟩ := hm
    refine ⟨?_, ?_, ?_⟩
    · have : 2 * h * |p.x| ≤ 2 * h * (X / 2) := by nlinarith
      exact le_of_mul_le_mul_left this (by linarith)
    · have : 2 * h * |p.y| ≤ 2 * h * (Y / 2) := by nlinarith
      exact le_of_mul_le_mul_left this (by linarith)
    · rw [abs_le]; constructor <;> linarith
  | cone R h =>
    intro hw _ b hb p hm
    simp only [bbox, Except.ok.injEq] at hb
    subst hb
    simp only [Mem] at hm
    simp only [WF] at hw
    obtain ⟨h1, h2, h3⟩ := hm
    have hz : p.z * p.z ≤ h * h := by nlinarith
    have key : p.x * p.x + p.y * p.y ≤ R * R := by
      have e : h * h * (p.x * p.x + p.y * p.y) ≤ h * h * (R * R) :=
        h3.trans (mul_le_mul_of_nonneg_right hz (mul_self_nonneg R))
      exact le_of_mul_le_mul_left e (by nlinarith)
    have e1 := abs_le_radius hw.1 key
    have e2 := abs_le_radius (x := p.y) (y := p.x) hw.1 (by linarith)
    simp only [InBB, sub_zero]
    refine ⟨by linarith, by linarith, ?_⟩
    rw [abs_le]; constructor <;> linarith
  | sph R =>
    intro hw _ b hb p hm
    simp only [bbox, Except.ok.injEq] at hb
    subst hb
    simp only [Mem] at hm
    simp only [WF] at hw
    simp only [InBB, sub_zero]
    have e1 := abs_le_radius (x := p.x) (y := p.y) hw (by nlinarith [mul_self_nonneg p.z])
    have e2 := abs_le_radius (x := p.y) (y := p.x) hw (by nlinarith [mul_self_nonneg p.z])
    have e3 := abs_le_radius (x := p.z) (y := p.x) hw (by nlinarith [mul_self_nonneg p.y])
    exact ⟨by linarith, by linarith, by linarith⟩
  | diff a b iha _ =>
    intro hw hu bb h p hm
    simp only [WF] at hw
    simp only [Upright] at hu
    simp only [Mem] at hm
    rw [bbox] at h
    exact iha hw.1 hu bb h p hm.1
  | inter l ih =>
    intro hw hu bb h p hm
    simp only [WF, wfAll_iff] at hw
    simp only [Upright, uprightAll_iff] at hu
    simp only [Mem, memAll_iff] at hm
    cases l with
    | nil => simp [bbox] at h
    | cons s l =>
      rw [bbox] at h
      cases hs : bbox s with
      | error e => rw [hs] at h; simp [bind, Except.bind] at h
      | ok bs =>
        rw [hs] at h
        simp only [bind, Except.bind] at h
        refine bboxIntersection_spec l bs bb p ?_ ?_ h
        · intro s' hs' b' hb'
          have hin : s' ∈ s :: l := List.mem_cons_of_mem _ hs'
          exact ih s' hin (hw s' hin) (hu s' hin) b' hb' p (hm s' hin)
        · exact ih s (by simp) (hw s (by simp)) (hu s (by simp)) bs hs p (hm s (by simp))
  | union l ih =>
    intro hw hu bb h p hm
    simp only [WF, wfAll_iff] at hw
    simp only [Upright, uprightAll_iff] at hu
    simp only [Mem, memAny_iff] at hm
    obtain ⟨s0, hs0, hm0⟩ := hm
    cases l with
    | nil => simp [bbox] at h
    | cons s l =>
      rw [bbox] at h
      cases hs : bbox s with
      | error e => rw [hs] at h; simp [bind, Except.bind] at h
      | ok bs =>
        rw [hs] at h
        simp only [bind, Except.bind] at h
        refine bboxUnion_spec l _ bb p h ?_
        have h0 := fun b hb => ih s0 hs0 (hw s0 hs0) (hu s0 hs0) b hb p hm0
        rcases List.mem_cons.1 hs0 with rfl | hin
        · exact .inl (inBB_unite (.inl (h0 _ hs)))
        · exact .inr ⟨s0, hin, h0⟩
  | dil b k ih =>
    intro hw hu bb h p hm
    simp only [WF] at hw
    simp only [Upright] at hu
    rw [bbox] at h
    cases hs : bbox b with
    | error e => rw [hs] at h; simp [bind, Except.bind] at h
    | ok bs =>
      rw [hs] at h
      simp only [bind, Except.bind, Except.ok.injEq] at h
      subst h
      rw [Mem] at hm
      obtain ⟨q, hq, rfl⟩ := hm
      obtain ⟨h1, h2, h3⟩ := ih hw.1 hu.1 bs hs q hq
      have key : ∀ c x t : ℝ, |x - c| ≤ t / 2 → |k * x - c * k| ≤ t * k / 2 := by
        intro c x t ht
        rw [show k * x - c * k = k * (x - c) by ring, abs_mul, abs_of_pos hu.2]
        nlinarith [mul_le_mul_of_nonneg_left ht hu.2.le]
      exact ⟨key _ _ _ h1, key _ _ _ h2, key _ _ _ h3⟩
  | refl b _ => intro hw; simp [WF] at hw
  | trans b v ih =>
    intro hw hu bb h p hm
    simp only [WF] at hw
    simp only [Upright] at hu
    rw [bbox] at h
    cases hs : bbox b with
    | error e => rw [hs] at h; simp [bind, Except.bind] at h
    | ok bs =>
      rw [hs] at h
      simp only [bind, Except.bind, Except.ok.injEq] at h
      subst h
      rw [Mem] at hm
      obtain ⟨q, hq, rfl⟩ := hm
      have := ih hw hu bs hs q hq
      simpa [InBB] using this
  | rot b m ih =>
    intro hw hu bb h p hm
    simp only [WF] at hw
    simp only [Upright] at hu
    rw [bbox] at h
    cases hs : bbox b with
    | error e => rw [hs] at h; simp [bind, Except.bind] at h
    | ok bs =>
      rw [hs] at h
      simp only [bind, Except.bind, Except.ok.injEq] at h
      subst h
      rw [Mem] at hm
      obtain ⟨q, hq, rfl⟩ := hm
      obtain ⟨h1, h2, h3⟩ := ih hw.1 hu.1 bs hs q hq
      obtain ⟨a0, a1, a2⟩ := hu.2
      have m1 : bs.sx ≤ max bs.sx (max bs.sy bs.sz) := le_max_left _ _
      have m2 : bs.sy ≤ max bs.sx (max bs.sy bs.sz) := (le_max_left _ _).trans (le_max_right _ _)
      have m3 : bs.sz ≤ max bs.sx (max bs.sy bs.sz) := (le_max_right _ _).trans (le_max_right _ _)
      have g1 : |q.x - bs.cx| ≤ max bs.sx (max bs.sy bs.sz) / 2 := by linarith
      have g2 : |q.y - bs.cy| ≤ max bs.sx (max bs.sy bs.sz) / 2 := by linarith
      have g3 : |q.z - bs.cz| ≤ max bs.sx (max bs.sy bs.sz) / 2 := by linarith
      refine ⟨?_, ?_, ?_⟩ <;> simp only [M3.mulVec]
      · have := aligned_row a0 g1 g2 g3
        rwa [show m.r0.x * (q.x - bs.cx) + m.r0.y * (q.y - bs.cy) + m.r0.z * (q.z - bs.cz) =
          m.r0.x * q.x + m.r0.y * q.y + m.r0.z * q.z -
          (m.r0.x * bs.cx + m.r0.y * bs.cy + m.r0.z * bs.cz) by ring] at this
      · have := aligned_row a1 g1 g2 g3
        rwa [show m.r1.x * (q.x - bs.cx) + m.r1.y * (q.y - bs.cy) + m.r1.z * (q.z - bs.cz) =
          m.r1.x * q.x + m.r1.y * q.y + m.r1.z * q.z -
          (m.r1.x * bs.cx + m.r1.y * bs.cy + m.r1.z * bs.cz) by ring] at this
      · have := aligned_row a2 g1 g2 g3
        rwa [show m.r2.x * (q.x - bs.cx) + m.r2.y * (q.y - bs.cy) + m.r2.z * (q.z - bs.cz) =
          m.r2.x * q.x + m.r2.y * q.y + m.r2.z * q.z -
          (m.r2.x * bs.cx + m.r2.y * bs.cy + m.r2.z * bs.cz) by ring] at this

end Verif.Solid
