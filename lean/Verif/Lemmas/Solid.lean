import Mathlib.Tactic.Linarith
import Mathlib.Tactic.Ring
import Mathlib.Tactic.FieldSimp
import Mathlib.Tactic.LinearCombination
import Mathlib.Tactic.Positivity
import Verif.Spec.Solid
import Verif.Lemmas.Frames
/-!
Helper lemmas for the solids: induction over shape trees and the locator.
-/

namespace Verif.Solid

/-- induction over shape trees with a hypothesis for every member of a list -/
theorem Shape.ind {P : Shape → Prop}
    (box : ∀ X Y Z, P (.box X Y Z)) (cyl : ∀ R h, P (.cylinder R h))
    (pyr : ∀ X Y h, P (.pyramid X Y h)) (cone : ∀ R h, P (.cone R h))
    (sph : ∀ R, P (.sphere R))
    (diff : ∀ a b, P a → P b → P (.difference a b))
    (inter : ∀ l, (∀ s ∈ l, P s) → P (.intersection l))
    (union : ∀ l, (∀ s ∈ l, P s) → P (.union l))
    (dil : ∀ b k, P b → P (.dilation b k)) (refl : ∀ b, P b → P (.reflection b))
    (trans : ∀ b v, P b → P (.translation b v)) (rot : ∀ b m, P b → P (.rotation b m)) :
    ∀ s, P s := by
  intro s
  refine Shape.rec (motive_1 := P) (motive_2 := fun l => ∀ s ∈ l, P s) box cyl pyr cone sph diff
    inter union dil refl trans rot ?_ ?_ s
  · intro s hs; cases hs
  · intro a l ha hl s hs
    rcases List.mem_cons.1 hs with rfl | h
    · exact ha
    · exact hl s h

theorem memAll_iff (l : List Shape) (p : V3 ℝ) : MemAll l p ↔ ∀ s ∈ l, Mem s p := by
  induction l with
  | nil => simp [MemAll]
  | cons a l ih => simp [MemAll, ih]

theorem memAny_iff (l : List Shape) (p : V3 ℝ) : MemAny l p ↔ ∃ s ∈ l, Mem s p := by
  induction l with
  | nil => simp [MemAny]
  | cons a l ih => simp [MemAny, ih]

theorem wfAll_iff (l : List Shape) : WFAll l ↔ ∀ s ∈ l, WF s := by
  induction l with
  | nil => simp [WFAll]
  | cons a l ih => simp [WFAll, ih]

/-! ### neighbourhoods -/

theorem Interior.self {S : V3 ℝ → Prop} {p : V3 ℝ} (h : Interior S p) : S p := by
  obtain ⟨δ, hδ, h⟩ := h
  exact h p (by simp [Near, hδ])

theorem Interior.mono {S T : V3 ℝ → Prop} {p : V3 ℝ} (h : Interior S p) (hst : ∀ q, S q → T q) :
    Interior T p := by
  obtain ⟨δ, hδ, h⟩ := h
  exact ⟨δ, hδ, fun q hq => hst q (h q hq)⟩

theorem Near.le {δ ε : ℝ} {p q : V3 ℝ} (h : Near δ p q) (hle : δ ≤ ε) : Near ε p q :=
  ⟨h.1.trans_le hle, h.2.1.trans_le hle, h.2.2.trans_le hle⟩

theorem Interior.and {S T : V3 ℝ → Prop} {p : V3 ℝ} (h : Interior S p) (h' : Interior T p) :
    Interior (fun q => S q ∧ T q) p := by
  obtain ⟨δ, hδ, h⟩ := h
  obtain ⟨ε, hε, h'⟩ := h'
  exact ⟨min δ ε, lt_min hδ hε,
    fun q hq => ⟨h q (hq.le (min_le_left _ _)), h' q (hq.le (min_le_right _ _))⟩⟩

theorem Interior.all {ι : Type} (l : List ι) (S : ι → V3 ℝ → Prop) {p : V3 ℝ}
    (h : ∀ i ∈ l, Interior (S i) p) : Interior (fun q => ∀ i ∈ l, S i q) p := by
  induction l with
  | nil => exact ⟨1, one_pos, by simp⟩
  | cons a l ih =>
    refine (Interior.and (h a (by simp)) (ih fun i hi => h i (by simp [hi]))).mono ?_
    intro q hq i hi
    rcases List.mem_cons.1 hi with rfl | hi
    · exact hq.1
    · exact hq.2 i hi

/-- pull back along a map that is Lipschitz at `p` -/
theorem Interior.pullback {S : V3 ℝ → Prop} (f : V3 ℝ → V3 ℝ) (C : ℝ) (hC : 0 < C) {p : V3 ℝ}
    (hf : ∀ δ q, 0 < δ → Near δ p q → Near (C * δ) (f p) (f q)) (h : Interior S (f p)) :
    Interior (fun q => S (f q)) p := by
  obtain ⟨δ, hδ, h⟩ := h
  refine ⟨δ / C, by positivity, fun q hq => h _ ?_⟩
  have := hf (δ / C) q (by positivity) hq
  rwa [mul_div_cancel₀ _ hC.ne'] at this

theorem near_smul {k δ : ℝ} (hk : k ≠ 0) {p q : V3 ℝ} (h : Near δ p q) :
    Near (|k| * δ) (k • p) (k • q) := by
  have hk' := abs_pos.2 hk
  refine ⟨?_, ?_, ?_⟩
  · simpa [← mul_sub, abs_mul] using mul_lt_mul_of_pos_left h.1 hk'
  · simpa [← mul_sub, abs_mul] using mul_lt_mul_of_pos_left h.2.1 hk'
  · simpa [← mul_sub, abs_mul] using mul_lt_mul_of_pos_left h.2.2 hk'

theorem near_sub {δ : ℝ} {p q v : V3 ℝ} (h : Near δ p q) : Near δ (p - v) (q - v) := by
  simpa [Near] using h

private theorem row_bound {a b c x y z δ : ℝ} (hδ : 0 < δ) (hx : |x| < δ) (hy : |y| < δ)
    (hz : |z| < δ) : |a * x + b * y + c * z| < (|a| + |b| + |c| + 1) * δ := by
  have h1 : |a * x| ≤ |a| * δ := by rw [abs_mul]; exact mul_le_mul_of_nonneg_left hx.le (abs_nonneg _)
  have h2 : |b * y| ≤ |b| * δ := by rw [abs_mul]; exact mul_le_mul_of_nonneg_left hy.le (abs_nonneg _)
  have h3 : |c * z| ≤ |c| * δ := by rw [abs_mul]; exact mul_le_mul_of_nonneg_left hz.le (abs_nonneg _)
  have h4 := abs_add_le (a * x + b * y) (c * z)
  have h5 := abs_add_le (a * x) (b * y)
  nlinarith

theorem near_mulVec (m : M3 ℝ) : ∃ C > 0, ∀ (p q : V3 ℝ) (δ : ℝ), 0 < δ → Near δ p q →
    Near (C * δ) (m.mulVec p) (m.mulVec q) := by
  refine ⟨(|m.r0.x| + |m.r0.y| + |m.r0.z| + 1) + (|m.r1.x| + |m.r1.y| + |m.r1.z| + 1) +
    (|m.r2.x| + |m.r2.y| + |m.r2.z| + 1), by positivity, ?_⟩
  intro p q δ hδ h
  have e0 := row_bound (a := m.r0.x) (b := m.r0.y) (c := m.r0.z) hδ h.1 h.2.1 h.2.2
  have e1 := row_bound (a := m.r1.x) (b := m.r1.y) (c := m.r1.z) hδ h.1 h.2.1 h.2.2
  have e2 := row_bound (a := m.r2.x) (b := m.r2.y) (c := m.r2.z) hδ h.1 h.2.1 h.2.2
  have p0 : 0 ≤ (|m.r0.x| + |m.r0.y| + |m.r0.z| + 1) * δ := by positivity
  have p1 : 0 ≤ (|m.r1.x| + |m.r1.y| + |m.r1.z| + 1) * δ := by positivity
  have p2 : 0 ≤ (|m.r2.x| + |m.r2.y| + |m.r2.z| + 1) * δ := by positivity
  refine ⟨?_, ?_, ?_⟩ <;> simp only [M3.mulVec]
  · rw [show m.r0.x * q.x + m.r0.y * q.y + m.r0.z * q.z -
      (m.r0.x * p.x + m.r0.y * p.y + m.r0.z * p.z) =
      m.r0.x * (q.x - p.x) + m.r0.y * (q.y - p.y) + m.r0.z * (q.z - p.z) by ring]
    linarith
  · rw [show m.r1.x * q.x + m.r1.y * q.y + m.r1.z * q.z -
      (m.r1.x * p.x + m.r1.y * p.y + m.r1.z * p.z) =
      m.r1.x * (q.x - p.x) + m.r1.y * (q.y - p.y) + m.r1.z * (q.z - p.z) by ring]
    linarith
  · rw [show m.r2.x * q.x + m.r2.y * q.y + m.r2.z * q.z -
      (m.r2.x * p.x + m.r2.y * p.y + m.r2.z * p.z) =
      m.r2.x * (q.x - p.x) + m.r2.y * (q.y - p.y) + m.r2.z * (q.z - p.z) by ring]
    linarith

/-! ### images -/

theorem smul_inv_smul' {k : ℝ} (hk : k ≠ 0) (p : V3 ℝ) : k • ((1 / k) • p) = p := by
  ext <;> simp [hk]

theorem inv_smul_smul' {k : ℝ} (hk : k ≠ 0) (p : V3 ℝ) : (1 / k) • (k • p) = p := by
  ext <;> simp [hk]

theorem sub_add_self' (p v : V3 ℝ) : p - v + v = p := by ext <;> simp
theorem add_sub_self' (p v : V3 ℝ) : p + v - v = p := by ext <;> simp

theorem transpose_mulVec_mulVec {m : M3 ℝ} (hm : Frames.IsOrtho m) (p : V3 ℝ) :
    m.transpose.mulVec (m.mulVec p) = p := by
  obtain ⟨⟨c0, c1, c2⟩, c3, c4, c5⟩ := hm.cols
  simp only [V3.dot, M3.transpose] at c0 c1 c2 c3 c4 c5
  ext <;> simp only [M3.mulVec, M3.transpose]
  · linear_combination p.x * c0 + p.y * c3 + p.z * c4
  · linear_combination p.x * c3 + p.y * c1 + p.z * c5
  · linear_combination p.x * c4 + p.y * c5 + p.z * c2

theorem mulVec_transpose_mulVec {m : M3 ℝ} (hm : Frames.IsOrtho m) (p : V3 ℝ) :
    m.mulVec (m.transpose.mulVec p) = p := by
  obtain ⟨⟨c0, c1, c2⟩, c3, c4, c5⟩ := hm
  simp only [V3.dot] at c0 c1 c2 c3 c4 c5
  ext <;> simp only [M3.mulVec, M3.transpose]
  · linear_combination p.x * c0 + p.y * c3 + p.z * c4
  · linear_combination p.x * c3 + p.y * c1 + p.z * c5
  · linear_combination p.x * c4 + p.y * c5 + p.z * c2

theorem mem_dilation {b : Shape} {k : ℝ} (hk : k ≠ 0) (p : V3 ℝ) :
    Mem (.dilation b k) p ↔ Mem b ((1 / k) • p) := by
  rw [Mem]
  constructor
  · rintro ⟨q, hq, rfl⟩; rwa [inv_smul_smul' hk]
  · exact fun h => ⟨_, h, (smul_inv_smul' hk p).symm⟩

theorem mem_translation {b : Shape} {v : V3 ℝ} (p : V3 ℝ) :
    Mem (.translation b v) p ↔ Mem b (p - v) := by
  rw [Mem]
  constructor
  · rintro ⟨q, hq, rfl⟩; rwa [add_sub_self']
  · exact fun h => ⟨_, h, (sub_add_self' p v).symm⟩

theorem mem_rotation {b : Shape} {m : M3 ℝ} (hm : Frames.IsOrtho m) (p : V3 ℝ) :
    Mem (.rotation b m) p ↔ Mem b (m.transpose.mulVec p) := by
  rw [Mem]
  constructor
  · rintro ⟨q, hq, rfl⟩; rwa [transpose_mulVec_mulVec hm]
  · exact fun h => ⟨_, h, (mulVec_transpose_mulVec hm p).symm⟩

/-! ### the loops of the locator -/

theorem locIntersection_spec (ret : ℝ) (l : List Shape) (p : V3 ℝ) (b : Bool) (r : Loc)
    (h : locIntersection ret l p b = .ok r) :
    (r = .inside → b = true ∧ ∀ s ∈ l, locate ret s p = .ok .inside) ∧
    (r = .outside → ∃ s ∈ l, locate ret s p = .ok .outside) ∧
    (r = .onborder → b = false ∨ ∃ s ∈ l, locate ret s p = .ok .onborder) := by
  induction l generalizing b with
  | nil =>
    simp only [locIntersection, Except.ok.injEq] at h
    subst h
    cases b <;> simp
  | cons s l ih =>
    rw [locIntersection] at h
    cases hs : locate ret s p with
    | error e => rw [hs] at h; simp [bind, Except.bind] at h
    | ok loc =>
      rw [hs] at h
      simp only [bind, Except.bind] at h
      cases loc with
      | outside =>
        simp only [if_true, Except.ok.injEq] at h
        subst h
        refine ⟨by simp, fun _ => ⟨s, by simp, hs⟩, by simp⟩
      | inside =>
        simp only [reduceCtorEq, if_false, decide_true, Bool.and_true] at h
        obtain ⟨h1, h2, h3⟩ := ih _ h
        refine ⟨fun hr => ⟨(h1 hr).1, ?_⟩, fun hr => ?_, fun hr => ?_⟩
        · simpa [hs] using (h1 hr).2
        · obtain ⟨s', hs', h'⟩ := h2 hr; exact ⟨s', by simp [hs'], h'⟩
        · rcases h3 hr with h' | ⟨s', hs', h'⟩
          · exact .inl h'
          · exact .inr ⟨s', by simp [hs'], h'⟩
      | onborder =>
        simp only [reduceCtorEq, if_false, decide_false, Bool.and_false] at h
        obtain ⟨h1, h2, h3⟩ := ih _ h
        refine ⟨fun hr => ?_, fun hr => ?_, fun _ => .inr ⟨s, by simp, hs⟩⟩
        · exact absurd (h1 hr).1 (by simp)
        · obtain ⟨s', hs', h'⟩ := h2 hr; exact ⟨s', by simp [hs'], h'⟩

theorem locUnion_spec (ret : ℝ) (l : List Shape) (p : V3 ℝ) (b : Bool) (r : Loc)
    (h : locUnion ret l p b = .ok r) :
    (r = .outside → b = true ∧ ∀ s ∈ l, locate ret s p = .ok .outside) ∧
    (r = .inside → ∃ s ∈ l, locate ret s p = .ok .inside) ∧
    (r = .onborder → b = false ∨ ∃ s ∈ l, locate ret s p = .ok .onborder) := by
  induction l generalizing b with
  | nil =>
    simp only [locUnion, Except.ok.injEq] at h
    subst h
    cases b <;> simp
  | cons s l ih =>
    rw [locUnion] at h
    cases hs : locate ret s p with
    | error e => rw [hs] at h; simp [bind, Except.bind] at h
    | ok loc =>
      rw [hs] at h
      simp only [bind, Except.bind] at h
      cases loc with
      | inside =>
        simp only [if_true, Except.ok.injEq] at h
        subst h
        refine ⟨by simp, fun _ => ⟨s, by simp, hs⟩, by simp⟩
      | outside =>
        simp only [reduceCtorEq, if_false, decide_true, Bool.and_true] at h
        obtain ⟨h1, h2, h3⟩ := ih _ h
        refine ⟨fun hr => ⟨(h1 hr).1, ?_⟩, fun hr => ?_, fun hr => ?_⟩
        · simpa [hs] using (h1 hr).2
        · obtain ⟨s', hs', h'⟩ := h2 hr; exact ⟨s', by simp [hs'], h'⟩
        · rcases h3 hr with h' | ⟨s', hs', h'⟩
          · exact .inl h'
          · exact .inr ⟨s', by simp [hs'], h'⟩
      | onborder =>
        simp only [reduceCtorEq, if_false, decide_false, Bool.and_false] at h
        obtain ⟨h1, h2, h3⟩ := ih _ h
        refine ⟨fun hr => ?_, fun hr => ?_, fun _ => .inr ⟨s, by simp, hs⟩⟩
        · exact absurd (h1 hr).1 (by simp)
        · obtain ⟨s', hs', h'⟩ := h2 hr; exact ⟨s', by simp [hs'], h'⟩

theorem locDifference_inside {a b : Loc} (h : locDifference a b = .inside) :
    a = .inside ∧ b = .outside := by
  cases a <;> cases b <;> simp_all [locDifference]

theorem locDifference_outside {a b : Loc} (h : locDifference a b = .outside) :
    a = .outside ∨ b = .inside := by
  cases a <;> cases b <;> simp_all [locDifference]

theorem locDifference_onborder {a b : Loc} (h : locDifference a b = .onborder) :
    a = .onborder ∨ b = .onborder := by
  cases a <;> cases b <;> simp_all [locDifference]

theorem locate_difference {ret : ℝ} {a b : Shape} {p : V3 ℝ} {r : Loc}
    (h : locate ret (.difference a b) p = .ok r) :
    ∃ la lb, locate ret a p = .ok la ∧ locate ret b p = .ok lb ∧ locDifference la lb = r := by
  rw [locate] at h
  cases ha : locate ret a p with
  | error e => rw [ha] at h; simp [bind, Except.bind] at h
  | ok la =>
    cases hb : locate ret b p with
    | error e => rw [ha, hb] at h; simp [bind, Except.bind] at h
    | ok lb =>
      rw [ha, hb] at h
      simp only [bind, Except.bind, Except.ok.injEq] at h
      exact ⟨la, lb, rfl, rfl, h⟩

end Verif.Solid
