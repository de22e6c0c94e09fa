import Mathlib.Topology.Order.IntermediateValue
import Mathlib.Topology.Connected.TotallyDisconnected
import Mathlib.Topology.MetricSpace.Pseudo.Defs
import Verif.Lemmas.SolidRay2
/-!
Helper lemmas: flight paths through compositions of solids.
-/

namespace Verif.Solid

/-- a property of the times between `t0` and `t1` that is locally constant is constant -/
theorem const_of_locally {f : ℝ → Prop} {t0 t1 : ℝ} (h01 : t0 ≤ t1)
    (h : ∀ t, t0 ≤ t → t ≤ t1 → ∃ ε > 0, ∀ s, |s - t| < ε → (f s ↔ f t)) : f t0 ↔ f t1 := by
  classical
  have hc : ContinuousOn (fun t => decide (f t)) (Set.Icc t0 t1) := by
    intro t ht
    obtain ⟨ε, hε, he⟩ := h t ht.1 ht.2
    apply ContinuousAt.continuousWithinAt
    unfold ContinuousAt
    refine tendsto_const_nhds.congr' ?_
    rw [Filter.EventuallyEq, Metric.eventually_nhds_iff]
    refine ⟨ε, hε, fun s hs => ?_⟩
    rw [Real.dist_eq] at hs
    rw [decide_eq_decide]
    exact (he s hs).symm
  have := isPreconnected_Icc.constant hc (Set.left_mem_Icc.2 h01) (Set.right_mem_Icc.2 h01)
  simpa using this

theorem gap_of_not_mem {ts : List ℝ} {t : ℝ} (h : t ∉ ts) : ∃ ε > 0, ∀ u ∈ ts, ε ≤ |u - t| := by
  induction ts with
  | nil => exact ⟨1, one_pos, by simp⟩
  | cons a l ih =>
    simp only [List.mem_cons, not_or] at h
    obtain ⟨ε, hε, he⟩ := ih h.2
    refine ⟨min ε |a - t|, lt_min hε (abs_pos.2 (sub_ne_zero.2 (Ne.symm h.1))), ?_⟩
    intro u hu
    rcases List.mem_cons.1 hu with rfl | hu
    · exact min_le_right _ _
    · exact (min_le_left _ _).trans (he u hu)

theorem CatchesAll.locally {s : Shape} {p v : V3 ℝ} {ts : List ℝ} (h : CatchesAll s p v ts) {t : ℝ}
    (ht : t ∉ ts) : ∃ ε > 0, ∀ u, |u - t| < ε → (Mem s (at' p v u) ↔ Mem s (at' p v t)) := by
  obtain ⟨ε, hε, he⟩ := gap_of_not_mem ht
  refine ⟨ε, hε, fun u hu => ?_⟩
  by_contra hc
  rcases le_total u t with hl | hl
  · obtain ⟨w, hw, h1, h2⟩ := h u t hl hc
    have := he w hw
    rw [abs_of_nonpos (by linarith)] at this hu
    linarith
  · obtain ⟨w, hw, h1, h2⟩ := h t u hl (fun hh => hc hh.symm)
    have := he w hw
    rw [abs_of_nonneg (by linarith)] at this hu
    linarith

theorem Interior.path {S : V3 ℝ → Prop} {p v : V3 ℝ} {t : ℝ} (h : Interior S (at' p v t)) :
    ∃ ε > 0, ∀ u, |u - t| < ε → S (at' p v u) := by
  obtain ⟨δ, hδ, h⟩ := h
  have hM : 0 < 1 + |v.x| + |v.y| + |v.z| := by positivity
  refine ⟨δ / (1 + |v.x| + |v.y| + |v.z|), div_pos hδ hM, fun u hu => h _ ?_⟩
  rw [lt_div_iff₀ hM] at hu
  have key : ∀ x w : ℝ, |w| ≤ 1 + |v.x| + |v.y| + |v.z| → |x + u * w - (x + t * w)| < δ := by
    intro x w hw
    rw [show x + u * w - (x + t * w) = (u - t) * w by ring, abs_mul]
    exact (mul_le_mul_of_nonneg_left hw (abs_nonneg _)).trans_lt hu
  have := abs_nonneg v.x
  have := abs_nonneg v.y
  have := abs_nonneg v.z
  exact ⟨key _ _ (by linarith), key _ _ (by linarith), key _ _ (by linarith)⟩

/-- an interior point has a neighbourhood of interior points -/
theorem Interior.open {S : V3 ℝ → Prop} {p : V3 ℝ} (h : Interior S p) :
    Interior (Interior S) p := by
  obtain ⟨δ, hδ, h⟩ := h
  refine ⟨δ / 2, by linarith, fun q hq => ⟨δ / 2, by linarith, fun r hr => h r ?_⟩⟩
  have key : ∀ a b c : ℝ, |b - a| < δ / 2 → |c - b| < δ / 2 → |c - a| < δ := by
    intro a b c h1 h2
    have := abs_sub_le c b a
    linarith
  exact ⟨key _ _ _ hq.1 hr.1, key _ _ _ hq.2.1 hr.2.1, key _ _ _ hq.2.2 hr.2.2⟩

/-- a list of shapes, each with some neighbourhood -/
theorem common_eps {ι : Type} (l : List ι) (P : ι → ℝ → Prop) {t : ℝ}
    (h : ∀ s ∈ l, ∃ ε > 0, ∀ u, |u - t| < ε → P s u) :
    ∃ ε > 0, ∀ u, |u - t| < ε → ∀ s ∈ l, P s u := by
  induction l with
  | nil => exact ⟨1, one_pos, by simp⟩
  | cons a l ih =>
    obtain ⟨ε, hε, he⟩ := ih (fun s hs => h s (by simp [hs]))
    obtain ⟨ε', hε', he'⟩ := h a (by simp)
    refine ⟨min ε ε', lt_min hε hε', fun u hu s hs => ?_⟩
    rcases List.mem_cons.1 hs with rfl | hs
    · exact he' u (hu.trans_le (min_le_right _ _))
    · exact he u (hu.trans_le (min_le_left _ _)) s hs

/-- completeness of a composition whose points are determined by its parts -/
theorem catches_comp {tol : ℝ} (h0 : 0 < tol) {c : Shape} (hw : WF c) (parts : List Shape)
    (hdet : ∀ q q', (∀ s ∈ parts, (Mem s q ↔ Mem s q')) → (Mem c q ↔ Mem c q'))
    {p v : V3 ℝ} {ts : List ℝ}
    (hparts : ∀ s ∈ parts, ∃ us, CatchesAll s p v us ∧
      ∀ t ∈ us, locate tol c (at' p v t) = .ok .onborder → t ∈ ts) :
    CatchesAll c p v ts := by
  intro t0 t1 h01 hch
  by_contra hn
  simp only [not_exists, not_and] at hn
  apply hch
  refine const_of_locally (f := fun t => Mem c (at' p v t)) h01 fun t ht0 ht1 => ?_
  obtain ⟨r, hr⟩ := locate_total tol c hw (at' p v t)
  have hs := locate_sound h0 c hw (at' p v t)
  cases r with
  | inside =>
    obtain ⟨ε, hε, he⟩ := (hs.1 hr).path
    exact ⟨ε, hε, fun u hu => ⟨fun _ => (hs.1 hr).self, fun _ => he u hu⟩⟩
  | outside =>
    have hx : Interior (fun q => ¬ Mem c q) (at' p v t) := hs.2 hr
    obtain ⟨ε, hε, he⟩ := hx.path
    exact ⟨ε, hε, fun u hu => ⟨fun h => absurd h (he u hu), fun h => absurd h hx.self⟩⟩
  | onborder =>
    have : ∀ s ∈ parts, ∃ ε > 0, ∀ u, |u - t| < ε → (Mem s (at' p v u) ↔ Mem s (at' p v t)) := by
      intro s hsm
      obtain ⟨us, hc, hus⟩ := hparts s hsm
      refine hc.locally fun hmem => ?_
      exact hn t (hus t hmem hr) ht0 ht1
    obtain ⟨ε, hε, he⟩ := common_eps parts
      (fun s u => (Mem s (at' p v u) ↔ Mem s (at' p v t))) this
    exact ⟨ε, hε, fun u hu => hdet _ _ (he u hu)⟩

/-! ### the lists of `visit_composition` -/

theorem keepOnBorder_spec {ret : ℝ} {s : Shape} {p v : V3 ℝ} (ts ks : List ℝ)
    (h : keepOnBorder ret s p v ts = .ok ks) (t : ℝ) :
    t ∈ ks ↔ t ∈ ts ∧ locate ret s (at' p v t) = .ok .onborder := by
  induction ts generalizing ks with
  | nil => simp only [keepOnBorder, Except.ok.injEq] at h; subst h; simp
  | cons a l ih =>
    rw [keepOnBorder] at h
    cases hl : locate ret s (p + a • v) with
    | error e => rw [hl] at h; simp [bind, Except.bind] at h
    | ok loc =>
      cases hr : keepOnBorder ret s p v l with
      | error e => rw [hl, hr] at h; simp [bind, Except.bind] at h
      | ok rest =>
        rw [hl, hr] at h
        simp only [bind, Except.bind, Except.ok.injEq] at h
        have hi := ih rest hr
        by_cases hb : loc = .onborder
        · rw [if_pos hb] at h
          subst h hb
          simp only [List.mem_cons, hi]
          constructor
          · rintro (rfl | h)
            · exact ⟨.inl rfl, hl⟩
            · exact ⟨.inr h.1, h.2⟩
          · rintro ⟨rfl | h, h'⟩
            · exact .inl rfl
            · exact .inr ⟨h, h'⟩
        · rw [if_neg hb] at h
          subst h
          simp only [List.mem_cons, hi]
          constructor
          · rintro ⟨h, h'⟩
            exact ⟨.inr h, h'⟩
          · rintro ⟨rfl | h, h'⟩
            · simp only [at'] at h'
              rw [hl] at h'
              exact absurd (Except.ok.inj h') hb
            · exact ⟨h, h'⟩

theorem gather_spec {tol par : ℝ} {all : Shape} {p v : V3 ℝ} (l : List Shape) (ts : List ℝ)
    (h : gather tol par l all p v = .ok ts) :
    (∀ s ∈ l, ∃ us, intersect tol par s p v = .ok us) ∧
    ∀ t, t ∈ ts ↔ (∃ s ∈ l, ∃ us, intersect tol par s p v = .ok us ∧ t ∈ us) ∧
      locate tol all (at' p v t) = .ok .onborder := by
  induction l generalizing ts with
  | nil => simp only [gather, Except.ok.injEq] at h; subst h; simp
  | cons a l ih =>
    rw [gather] at h
    cases hi : intersect tol par a p v with
    | error e => rw [hi] at h; simp [bind, Except.bind] at h
    | ok us =>
      cases hk : keepOnBorder tol all p v us with
      | error e => rw [hi] at h; simp [bind, Except.bind, hk] at h
      | ok ks =>
        cases hg : gather tol par l all p v with
        | error e => rw [hi] at h; simp [bind, Except.bind, hk, hg] at h
        | ok rest =>
          rw [hi] at h
          simp only [bind, Except.bind, hk, hg, Except.ok.injEq] at h
          subst h
          obtain ⟨h1, h2⟩ := ih rest hg
          refine ⟨?_, fun t => ?_⟩
          · intro s hs
            rcases List.mem_cons.1 hs with rfl | hs
            · exact ⟨us, hi⟩
            · exact h1 s hs
          · rw [List.mem_append, keepOnBorder_spec us ks hk, h2]
            constructor
            · rintro (⟨h, h'⟩ | ⟨⟨s, hs, us', h, h''⟩, h'⟩)
              · exact ⟨⟨a, by simp, us, hi, h⟩, h'⟩
              · exact ⟨⟨s, by simp [hs], us', h, h''⟩, h'⟩
            · rintro ⟨⟨s, hs, us', h, h''⟩, h'⟩
              rcases List.mem_cons.1 hs with rfl | hs
              · rw [hi] at h
                cases h
                exact .inl ⟨h'', h'⟩
              · exact .inr ⟨⟨s, hs, us', h, h''⟩, h'⟩

theorem mem_sort {l : List ℝ} {t : ℝ} : t ∈ sort l ↔ t ∈ l := List.mem_insertionSort _

theorem sort_sorted (l : List ℝ) : (sort l).Pairwise (· ≤ ·) := List.pairwise_insertionSort _ l

theorem intersect_difference {tol par : ℝ} {a b : Shape} {p v : V3 ℝ} {ts : List ℝ}
    (h : intersect tol par (.difference a b) p v = .ok ts) :
    ∃ ua ub, intersect tol par a p v = .ok ua ∧ intersect tol par b p v = .ok ub ∧
      ∀ t, t ∈ ts ↔ (t ∈ ua ∨ t ∈ ub) ∧
        locate tol (.difference a b) (at' p v t) = .ok .onborder := by
  rw [intersect] at h
  cases ha : intersect tol par a p v with
  | error e => rw [ha] at h; simp [bind, Except.bind] at h
  | ok ua =>
    cases hka : keepOnBorder tol (.difference a b) p v ua with
    | error e => rw [ha] at h; simp [bind, Except.bind, hka] at h
    | ok ka =>
      cases hb : intersect tol par b p v with
      | error e => rw [ha] at h; simp [bind, Except.bind, hka, hb] at h
      | ok ub =>
        cases hkb : keepOnBorder tol (.difference a b) p v ub with
        | error e => rw [ha] at h; simp [bind, Except.bind, hka, hb, hkb] at h
        | ok kb =>
          rw [ha] at h
          simp only [bind, Except.bind, hka, hb, hkb, Except.ok.injEq] at h
          subst h
          refine ⟨ua, ub, rfl, rfl, fun t => ?_⟩
          rw [mem_sort, List.mem_append, keepOnBorder_spec ua ka hka, keepOnBorder_spec ub kb hkb]
          tauto

theorem intersect_intersection {tol par : ℝ} {l : List Shape} {p v : V3 ℝ} {ts : List ℝ}
    (h : intersect tol par (.intersection l) p v = .ok ts) :
    ∃ us, gather tol par l (.intersection l) p v = .ok us ∧ ts = sort us := by
  rw [intersect] at h
  cases hg : gather tol par l (.intersection l) p v with
  | error e => rw [hg] at h; simp [bind, Except.bind] at h
  | ok us =>
    rw [hg] at h
    simp only [bind, Except.bind, Except.ok.injEq] at h
    exact ⟨us, rfl, h.symm⟩

theorem intersect_union {tol par : ℝ} {l : List Shape} {p v : V3 ℝ} {ts : List ℝ}
    (h : intersect tol par (.union l) p v = .ok ts) :
    ∃ us, gather tol par l (.union l) p v = .ok us ∧ ts = sort us := by
  rw [intersect] at h
  cases hg : gather tol par l (.union l) p v with
  | error e => rw [hg] at h; simp [bind, Except.bind] at h
  | ok us =>
    rw [hg] at h
    simp only [bind, Except.bind, Except.ok.injEq] at h
    exact ⟨us, rfl, h.symm⟩

/-! ### transforms of paths -/

theorem at_smul {k : ℝ} (p v : V3 ℝ) (t : ℝ) : k • at' p v t = at' (k • p) (k • v) t := by
  apply V3.ext <;> simp [at'] <;> ring

theorem at_sub (p v w : V3 ℝ) (t : ℝ) : at' p v t - w = at' (p - w) v t := by
  apply V3.ext <;> simp [at'] <;> ring

theorem at_mulVec (m : M3 ℝ) (p v : V3 ℝ) (t : ℝ) :
    m.mulVec (at' p v t) = at' (m.mulVec p) (m.mulVec v) t := by
  apply V3.ext <;> simp [at', M3.mulVec] <;> ring

theorem genericAll_iff (tol par : ℝ) (l : List Shape) (p v : V3 ℝ) :
    GenericAll tol par l p v ↔ ∀ s ∈ l, Generic tol par s p v := by
  induction l with
  | nil => simp [GenericAll]
  | cons a l ih => simp [GenericAll, ih]

theorem catches_congr {s s' : Shape} {p v p' v' : V3 ℝ} {ts : List ℝ}
    (h : ∀ t, Mem s (at' p v t) ↔ Mem s' (at' p' v' t)) (hc : CatchesAll s' p' v' ts) :
    CatchesAll s p v ts := by
  intro t0 t1 h01 hch
  refine hc t0 t1 h01 ?_
  simpa only [Changes, h] using hch

end Verif.Solid
