import Verif.Lemmas.SolidRay
/-!
Helper lemmas: flight paths through cylinders and spheres.
-/

namespace Verif.Solid

/-- what a list of at most two boundary times says, seen from a time `u` in between -/
structure TwoTimes (L : List ℝ) (B : ℝ → Prop) (u : ℝ) : Prop where
  counts : ∃ e f : Nat, L.length = e + f ∧
      (e = 0 ∧ (¬ ∃ t < u, B t) ∨ e = 1 ∧ ∃ t < u, B t) ∧
      (f = 0 ∧ (¬ ∃ t > u, B t) ∨ f = 1 ∧ ∃ t > u, B t)
  mem : ∀ t, t ∈ L ↔ B t

theorem twoTimes_nil {B : ℝ → Prop} {u : ℝ} (h : ∀ t, ¬ B t) : TwoTimes [] B u :=
  ⟨⟨0, 0, rfl, .inl ⟨rfl, fun ⟨t, _, ht⟩ => h t ht⟩, .inl ⟨rfl, fun ⟨t, _, ht⟩ => h t ht⟩⟩,
    fun t => by simp [h t]⟩

open Classical in
theorem twoTimes_of {B Q : ℝ → Prop} {u t1 t2 : ℝ}
    (hB : ∀ t, B t ↔ (t = t1 ∨ t = t2) ∧ Q t) (h12 : (t1 < u ∧ u < t2) ∨ (t2 < u ∧ u < t1)) :
    TwoTimes ((if Q t1 then [t1] else []) ++ (if Q t2 then [t2] else [])) B u := by
  have hmem : ∀ t, t ∈ (if Q t1 then [t1] else []) ++ (if Q t2 then [t2] else []) ↔ B t := by
    intro t
    rw [hB, List.mem_append]
    by_cases h1 : Q t1 <;> by_cases h2 : Q t2 <;>
      simp only [h1, h2, if_true, if_false, List.mem_singleton, List.not_mem_nil, or_false,
        false_or]
    · constructor
      · rintro (rfl | rfl)
        · exact ⟨.inl rfl, h1⟩
        · exact ⟨.inr rfl, h2⟩
      · exact fun h => h.1
    · constructor
      · rintro rfl; exact ⟨.inl rfl, h1⟩
      · rintro ⟨rfl | rfl, h⟩
        · rfl
        · exact absurd h h2
    · constructor
      · rintro rfl; exact ⟨.inr rfl, h2⟩
      · rintro ⟨rfl | rfl, h⟩
        · exact absurd h h1
        · rfl
    · constructor
      · exact False.elim
      · rintro ⟨rfl | rfl, h⟩
        · exact absurd h h1
        · exact absurd h h2
  have hlen : ∀ a : ℝ, (if Q a then [a] else []).length = if Q a then 1 else 0 := by
    intro a; split <;> rfl
  have hopt : ∀ (P : Prop) (a : ℝ), (P ↔ Q a) → ((if Q a then 1 else 0) = 0 ∧ ¬P ∨
      (if Q a then 1 else 0) = 1 ∧ P) := by
    intro P a h
    rw [h]
    by_cases hq : Q a
    · simp [hq]
    · simp [hq]
  refine ⟨?_, hmem⟩
  rcases h12 with ⟨h1, h2⟩ | ⟨h1, h2⟩
  · refine ⟨if Q t1 then 1 else 0, if Q t2 then 1 else 0, ?_, hopt _ _ ?_, hopt _ _ ?_⟩
    · rw [List.length_append, hlen, hlen]
    · constructor
      · rintro ⟨t, ht, hb⟩
        rcases (hB t).1 hb with ⟨rfl | rfl, h⟩
        · exact h
        · exact absurd ht (not_lt.2 h2.le)
      · exact fun h => ⟨t1, h1, (hB _).2 ⟨.inl rfl, h⟩⟩
    · constructor
      · rintro ⟨t, ht, hb⟩
        rcases (hB t).1 hb with ⟨rfl | rfl, h⟩
        · exact absurd ht (not_lt.2 h1.le)
        · exact h
      · exact fun h => ⟨t2, h2, (hB _).2 ⟨.inr rfl, h⟩⟩
  · refine ⟨if Q t2 then 1 else 0, if Q t1 then 1 else 0, ?_, hopt _ _ ?_, hopt _ _ ?_⟩
    · rw [List.length_append, hlen, hlen, add_comm]
    · constructor
      · rintro ⟨t, ht, hb⟩
        rcases (hB t).1 hb with ⟨rfl | rfl, h⟩
        · exact absurd ht (not_lt.2 h2.le)
        · exact h
      · exact fun h => ⟨t2, h1, (hB _).2 ⟨.inr rfl, h⟩⟩
    · constructor
      · rintro ⟨t, ht, hb⟩
        rcases (hB t).1 hb with ⟨rfl | rfl, h⟩
        · exact h
        · exact absurd ht (not_lt.2 h1.le)
      · exact fun h => ⟨t1, h2, (hB _).2 ⟨.inl rfl, h⟩⟩

/-! ### quadratic functions -/

/-- squared distance from the axis along the path -/
def rho2 (x y vx vy t : ℝ) : ℝ := (x + t * vx) * (x + t * vx) + (y + t * vy) * (y + t * vy)

theorem rho2_between {x y vx vy A t s u : ℝ} (h1 : rho2 x y vx vy t ≤ A)
    (h2 : rho2 x y vx vy u < A) (hs : (t < s ∧ s ≤ u) ∨ (u ≤ s ∧ s < t)) :
    rho2 x y vx vy s < A := by
  have id : (u - s) * rho2 x y vx vy t + (s - t) * rho2 x y vx vy u -
      (u - t) * rho2 x y vx vy s = (vx * vx + vy * vy) * ((u - s) * (s - t) * (u - t)) := by
    simp only [rho2]; ring
  have ha : 0 ≤ vx * vx + vy * vy := add_nonneg (mul_self_nonneg _) (mul_self_nonneg _)
  rcases hs with ⟨h3, h4⟩ | ⟨h3, h4⟩
  · have hp : 0 ≤ (vx * vx + vy * vy) * ((u - s) * (s - t) * (u - t)) :=
      mul_nonneg ha (mul_nonneg (mul_nonneg (by linarith) (by linarith)) (by linarith))
    have e1 : (u - s) * rho2 x y vx vy t ≤ (u - s) * A := mul_le_mul_of_nonneg_left h1 (by linarith)
    have e2 : (s - t) * rho2 x y vx vy u < (s - t) * A := mul_lt_mul_of_pos_left h2 (by linarith)
    have : (u - t) * rho2 x y vx vy s < (u - t) * A := by linarith
    exact lt_of_mul_lt_mul_left this (by linarith)
  · have hp : 0 ≤ (vx * vx + vy * vy) * ((s - u) * (t - s) * (t - u)) :=
      mul_nonneg ha (mul_nonneg (mul_nonneg (by linarith) (by linarith)) (by linarith))
    have e1 : (s - u) * rho2 x y vx vy t ≤ (s - u) * A := mul_le_mul_of_nonneg_left h1 (by linarith)
    have e2 : (t - s) * rho2 x y vx vy u < (t - s) * A := mul_lt_mul_of_pos_left h2 (by linarith)
    have : (t - u) * rho2 x y vx vy s < (t - u) * A := by linarith
    exact lt_of_mul_lt_mul_left this (by linarith)

/-- roots of the quadratic, with a time strictly between -/
theorem rho2_roots {x y vx vy r u : ℝ} (ha : vx * vx + vy * vy ≠ 0)
    (hu : rho2 x y vx vy u < r * r) :
    let a := vx * vx + vy * vy
    let b := x * vx + y * vy
    let k := b * b - a * (x * x + y * y - r * r)
    0 < k ∧ (-b - √k) / a < u ∧ u < (-b + √k) / a ∧
      ∀ t, rho2 x y vx vy t = r * r ↔ t = (-b + √k) / a ∨ t = (-b - √k) / a := by
  intro a b k
  have hpos : 0 < a := lt_of_le_of_ne
    (add_nonneg (mul_self_nonneg _) (mul_self_nonneg _)) (Ne.symm ha)
  have id : ∀ t, (a * t + b) * (a * t + b) = k + a * (rho2 x y vx vy t - r * r) := by
    intro t; simp only [rho2, a, b, k]; ring
  have hk : 0 < k := by nlinarith [id u, mul_self_nonneg (a * u + b)]
  have hs : √k * √k = k := Real.mul_self_sqrt hk.le
  have hsp : 0 < √k := Real.sqrt_pos.2 hk
  have hlt : (a * u + b) * (a * u + b) < √k * √k := by rw [hs]; nlinarith [id u]
  have hlt' := abs_lt_of_sq_lt_sq' (by nlinarith : (a * u + b) ^ 2 < √k ^ 2) hsp.le
  refine ⟨hk, ?_, ?_, ?_⟩
  · rw [div_lt_iff₀ hpos]; linarith [hlt'.1]
  · rw [lt_div_iff₀ hpos]; linarith [hlt'.2]
  · intro t
    rw [eq_div_iff ha, eq_div_iff ha]
    constructor
    · intro h
      have : (a * t + b) * (a * t + b) = √k * √k := by rw [hs, id, h]; ring
      rcases mul_self_eq_mul_self_iff.1 this with h' | h'
      · left; linarith
      · right; linarith
    · intro h
      have : (a * t + b) * (a * t + b) = k := by
        rw [← hs]
        rcases h with h | h
        · rw [show a * t + b = √k by linarith]
        · rw [show a * t + b = -√k by linarith]; ring
      rw [id] at this
      have h0 : a * (rho2 x y vx vy t - r * r) = 0 := by linarith
      rcases mul_eq_zero.1 h0 with h' | h'
      · exact absurd h' hpos.ne'
      · linarith

theorem entry_rho2 {x y vx vy r u : ℝ} (hu : rho2 x y vx vy u < r * r) :
    Entry (fun t => rho2 x y vx vy t ≤ r * r) (fun t => rho2 x y vx vy t < r * r)
      (fun t => rho2 x y vx vy t = r * r) u := by
  by_cases ha : vx * vx + vy * vy = 0
  · left
    intro t _
    have h1 : vx = 0 := by nlinarith [mul_self_nonneg vx, mul_self_nonneg vy]
    have h2 : vy = 0 := by nlinarith [mul_self_nonneg vx, mul_self_nonneg vy]
    subst h1 h2
    simpa [rho2] using hu
  · right
    obtain ⟨_, h1, _, h3⟩ := rho2_roots ha hu
    have hB := (h3 _).2 (.inr rfl)
    exact ⟨_, h1, hB, hB.le, fun t ht1 ht2 => rho2_between hB.le hu (.inl ⟨ht1, ht2⟩)⟩

theorem side_spec {x y z vx vy vz r h u : ℝ} (hu : rho2 x y vx vy u < r * r) :
    TwoTimes (intersectCylinderSide x y z vx vy vz r h)
      (fun t => rho2 x y vx vy t = r * r ∧ |z + t * vz| < h / 2) u := by
  by_cases ha : vx * vx + vy * vy = 0
  · have h1 : vx = 0 := by nlinarith [mul_self_nonneg vx, mul_self_nonneg vy]
    have h2 : vy = 0 := by nlinarith [mul_self_nonneg vx, mul_self_nonneg vy]
    subst h1 h2
    have : intersectCylinderSide x y z 0 0 vz r h = [] := by
      unfold intersectCylinderSide
      simp
    rw [this]
    refine twoTimes_nil fun t ht => ?_
    simp only [rho2, mul_zero, add_zero] at hu ht
    linarith [ht.1]
  · obtain ⟨hk, h1, h2, h3⟩ := rho2_roots ha hu
    unfold intersectCylinderSide
    simp only at hk ⊢
    rw [if_neg (not_lt.2 hk.le), if_neg hk.ne']
    simp only [mul_comm vz]
    refine twoTimes_of (Q := fun t => |z + t * vz| < h / 2) ?_ (.inr ⟨h1, h2⟩)
    intro t
    rw [h3 t]

theorem cap_spec {x y z vx vy vz r h u : ℝ} (hu : |z + u * vz| < h / 2) :
    TwoTimes (intersectCylinderTopBottom x y z vx vy vz r h)
      (fun t => |z + t * vz| = h / 2 ∧ rho2 x y vx vy t ≤ r * r) u := by
  have hX : 0 < h / 2 := (abs_nonneg _).trans_lt hu
  unfold intersectCylinderTopBottom
  simp only
  by_cases hv : vz = 0
  · rw [if_pos hv]
    subst hv
    refine twoTimes_nil fun t ht => ?_
    simp only [mul_zero, add_zero] at hu ht
    linarith [ht.1]
  · rw [if_neg hv]
    have hroot : ∀ t, |z + t * vz| = h / 2 ↔ t = (h / 2 - z) / vz ∨ t = (-(h / 2) - z) / vz := by
      intro t
      rw [abs_eq hX.le, eq_div_iff hv, eq_div_iff hv]
      constructor
      · rintro (h | h)
        · left; linarith
        · right; linarith
      · rintro (h | h)
        · left; linarith
        · right; linarith
    simp only [mul_comm vx, mul_comm vy]
    refine twoTimes_of (Q := fun t => rho2 x y vx vy t ≤ r * r) ?_ ?_
    · intro t
      rw [hroot t]
    · rcases lt_or_gt_of_ne hv with hn | hn
      · left
        rw [div_lt_iff_of_neg hn, lt_div_iff_of_neg hn]
        constructor <;> linarith [(abs_lt.1 hu).1, (abs_lt.1 hu).2]
      · right
        rw [div_lt_iff₀ hn, lt_div_iff₀ hn]
        constructor <;> linarith [(abs_lt.1 hu).1, (abs_lt.1 hu).2]

theorem cylinder_strict {R h : ℝ} {p : V3 ℝ} (hi : Interior (Mem (.cylinder R h)) p) :
    p.x * p.x + p.y * p.y < R * R ∧ |p.z| < h / 2 := by
  obtain ⟨δ, hδ, hi⟩ := hi
  have hd : |δ / 2| < δ := by rw [abs_of_pos (by linarith)]; linarith
  have n1 := hi ⟨p.x + δ / 2, p.y, p.z⟩ ⟨by simpa using hd, by simpa using hδ, by simpa using hδ⟩
  have n2 := hi ⟨p.x - δ / 2, p.y, p.z⟩ ⟨by simpa using hd, by simpa using hδ, by simpa using hδ⟩
  have n3 := hi ⟨p.x, p.y, p.z + δ / 2⟩ ⟨by simpa using hδ, by simpa using hδ, by simpa using hd⟩
  have n4 := hi ⟨p.x, p.y, p.z - δ / 2⟩ ⟨by simpa using hδ, by simpa using hδ, by simpa using hd⟩
  simp only [Mem] at n1 n2 n3 n4
  constructor
  · nlinarith [n1.1, n2.1]
  · have h1 := abs_le.1 n3.2
    have h2 := abs_le.1 n4.2
    rw [abs_lt]; constructor <;> linarith [h1.1, h1.2, h2.1, h2.2]

private theorem one_of_two {ex ey : Nat} {Px Py : Prop}
    (hx : ex = 0 ∧ ¬Px ∨ ex = 1 ∧ Px) (hy : ey = 0 ∧ ¬Py ∨ ey = 1 ∧ Py)
    (hex : Px ∨ Py) (h1 : ¬ (Px ∧ Py)) : ex + ey = 1 := by
  rcases hx with ⟨rfl, hx⟩ | ⟨rfl, hx⟩ <;> rcases hy with ⟨rfl, hy⟩ | ⟨rfl, hy⟩ <;> simp_all

private theorem not_both_cyl {x y vx vy A z w B u t s : ℝ} (hxu : rho2 x y vx vy u < A)
    (hyu : |z + u * w| < B)
    (hxt : rho2 x y vx vy t = A) (hyt : |z + t * w| < B) (hys : |z + s * w| = B)
    (hxs : rho2 x y vx vy s ≤ A)
    (hts : (t < u ∧ s < u) ∨ (u < t ∧ u < s)) : False := by
  rcases lt_trichotomy t s with h | rfl | h
  · rcases hts with ⟨h1, h2⟩ | ⟨h1, h2⟩
    · exact absurd hys (ne_of_lt (abs_between hyt.le hyu (.inl ⟨h, h2.le⟩)))
    · exact absurd hxt (ne_of_lt (rho2_between hxs hxu (.inr ⟨h1.le, h⟩)))
  · exact absurd hys (ne_of_lt hyt)
  · rcases hts with ⟨h1, h2⟩ | ⟨h1, h2⟩
    · exact absurd hxt (ne_of_lt (rho2_between hxs hxu (.inl ⟨h, h1.le⟩)))
    · exact absurd hys (ne_of_lt (abs_between hyt.le hyu (.inr ⟨h2.le, h⟩)))

theorem rho2_neg (x y vx vy t : ℝ) : rho2 x y (-vx) (-vy) t = rho2 x y vx vy (-t) := by
  simp only [rho2]; ring

theorem slab_unbounded {x w A u : ℝ} (hw : w ≠ 0) : ¬ ∀ t, t ≤ u → |x + t * w| < A := by
  intro h
  have hA : 0 < A := (abs_nonneg _).trans_lt (h u le_rfl)
  have h0 := h u le_rfl
  have h1 := h (u - 2 * A / |w|) (by
    have : 0 < 2 * A / |w| := div_pos (by linarith) (abs_pos.2 hw)
    linarith)
  rw [abs_lt] at h0 h1
  rcases lt_or_gt_of_ne hw with hn | hn
  · rw [abs_of_neg hn] at h1
    have e : x + (u - 2 * A / -w) * w = x + u * w + 2 * A := by field_simp; ring
    rw [e] at h1; linarith
  · rw [abs_of_pos hn] at h1
    have e : x + (u - 2 * A / w) * w = x + u * w - 2 * A := by field_simp; ring
    rw [e] at h1; linarith

theorem rho2_unbounded {x y vx vy r u : ℝ} (ha : vx * vx + vy * vy ≠ 0) :
    ¬ ∀ t, t ≤ u → rho2 x y vx vy t < r * r := by
  intro h
  obtain ⟨_, h1, _, h3⟩ := rho2_roots ha (h u le_rfl)
  have := (h3 _).2 (.inr rfl)
  exact absurd this (ne_of_lt (h _ h1.le))

theorem intersectCylinder_pierces {tol R h : ℝ} {p v : V3 ℝ} (hv : isInvalidDirection v = false)
    (hp : Pierces (.cylinder R h) p v) :
    ∃ a b, a < b ∧ intersectCylinder tol R h p v = [a, b] ∧
      ∀ t, Mem (.cylinder R h) (at' p v t) ↔ a ≤ t ∧ t ≤ b := by
  obtain ⟨u, hu⟩ := hp
  obtain ⟨hur, huz⟩ := cylinder_strict hu
  rw [at_x, at_y] at hur
  rw [at_z] at huz
  change rho2 p.x p.y v.x v.y u < R * R at hur
  have hne : ¬ (v.x = 0 ∧ v.y = 0 ∧ v.z = 0) := by
    simpa [isInvalidDirection] using hv
  have hne' : v.z ≠ 0 ∨ v.x * v.x + v.y * v.y ≠ 0 := by
    by_contra hc
    simp only [not_or, ne_eq, not_not] at hc
    refine hne ⟨?_, ?_, hc.1⟩ <;> nlinarith [mul_self_nonneg v.x, mul_self_nonneg v.y]
  have hE := (entry_rho2 hur).and (fun t h => le_of_lt h) (fun t h => le_of_lt h) (entry_slab huz)
  have hE' : ∃ lo < u, (rho2 p.x p.y v.x v.y lo = R * R ∨ |p.z + lo * v.z| = h / 2) ∧
      rho2 p.x p.y v.x v.y lo ≤ R * R ∧ |p.z + lo * v.z| ≤ h / 2 := by
    rcases hE with h' | ⟨lo, hlo, hB, hC, _⟩
    · rcases hne' with hz | hr
      · exact absurd (fun t ht => (h' t ht).2) (slab_unbounded hz)
      · exact absurd (fun t ht => (h' t ht).1) (rho2_unbounded hr)
    · exact ⟨lo, hlo, hB, hC⟩
  have rev : ∀ x w : ℝ, x + -u * -w = x + u * w := fun x w => by ring
  have hF := (entry_rho2 (x := p.x) (y := p.y) (vx := -v.x) (vy := -v.y) (r := R) (u := -u)
    (by rw [rho2_neg, neg_neg]; exact hur)).and (fun t h => le_of_lt h) (fun t h => le_of_lt h)
    (entry_slab (x := p.z) (v := -v.z) (A := h / 2) (u := -u) (by rw [rev]; exact huz))
  have hF' : ∃ hi > u, (rho2 p.x p.y v.x v.y hi = R * R ∨ |p.z + hi * v.z| = h / 2) ∧
      rho2 p.x p.y v.x v.y hi ≤ R * R ∧ |p.z + hi * v.z| ≤ h / 2 := by
    rcases hF with h' | ⟨lo, hlo, hB, hC, _⟩
    · rcases hne' with hz | hr
      · exact absurd (fun t ht => (h' t ht).2) (slab_unbounded (neg_ne_zero.2 hz))
      · exact absurd (fun t ht => (h' t ht).1) (rho2_unbounded (by simpa using hr))
    · refine ⟨-lo, by linarith, ?_⟩
      have rv : ∀ x w : ℝ, x + -lo * w = x + lo * -w := fun x w => by ring
      simp only [rho2_neg] at hB hC
      simp only [rv]
      exact ⟨hB, hC⟩
  have hside := side_spec (z := p.z) (vz := v.z) (h := h) hur
  have hcap := cap_spec (x := p.x) (y := p.y) (vx := v.x) (vy := v.y) (r := R) huz
  obtain ⟨e1, f1, l1, he1, hf1⟩ := hside.counts
  obtain ⟨e2, f2, l2, he2, hf2⟩ := hcap.counts
  obtain ⟨lo, hlo, hloB, hlor, hloz⟩ := hE'
  obtain ⟨hi, hhi, hhiB, hhir, hhiz⟩ := hF'
  have strict : ∀ t, rho2 p.x p.y v.x v.y t ≤ R * R → |p.z + t * v.z| ≤ h / 2 →
      (rho2 p.x p.y v.x v.y t = R * R ∨ |p.z + t * v.z| = h / 2) →
      (rho2 p.x p.y v.x v.y t = R * R ∧ |p.z + t * v.z| < h / 2) ∨
      (|p.z + t * v.z| = h / 2 ∧ rho2 p.x p.y v.x v.y t ≤ R * R) := by
    intro t h1 h2 hB
    rcases eq_or_lt_of_le h2 with h' | h'
    · exact .inr ⟨h', h1⟩
    · rcases hB with hB | hB
      · exact .inl ⟨hB, h'⟩
      · exact absurd hB h'.ne
  have slo := strict lo hlor hloz hloB
  have shi := strict hi hhir hhiz hhiB
  have hE1 : e1 + e2 = 1 := by
    refine one_of_two he1 he2 ?_ ?_
    · rcases slo with h | h
      · exact .inl ⟨lo, hlo, h⟩
      · exact .inr ⟨lo, hlo, h⟩
    · rintro ⟨⟨t, ht, b, q⟩, ⟨s, hs, b', q'⟩⟩
      exact not_both_cyl hur huz b q b' q' (.inl ⟨ht, hs⟩)
  have hF1 : f1 + f2 = 1 := by
    refine one_of_two hf1 hf2 ?_ ?_
    · rcases shi with h | h
      · exact .inl ⟨hi, hhi, h⟩
      · exact .inr ⟨hi, hhi, h⟩
    · rintro ⟨⟨t, ht, b, q⟩, ⟨s, hs, b', q'⟩⟩
      exact not_both_cyl hur huz b q b' q' (.inr ⟨ht, hs⟩)
  have hlt : lo < hi := hlo.trans hhi
  have inList : ∀ t, ((rho2 p.x p.y v.x v.y t = R * R ∧ |p.z + t * v.z| < h / 2) ∨
      (|p.z + t * v.z| = h / 2 ∧ rho2 p.x p.y v.x v.y t ≤ R * R)) →
      t ∈ intersectCylinderSide p.x p.y p.z v.x v.y v.z R h ++
        intersectCylinderTopBottom p.x p.y p.z v.x v.y v.z R h := by
    intro t h
    rw [List.mem_append]
    rcases h with h | h
    · exact .inl ((hside.mem t).2 h)
    · exact .inr ((hcap.mem t).2 h)
  have hcases := pair_cases (ts := intersectCylinderSide p.x p.y p.z v.x v.y v.z R h ++
        intersectCylinderTopBottom p.x p.y p.z v.x v.y v.z R h)
      (by rw [List.length_append, l1, l2]; omega) (inList lo slo) (inList hi shi) hlt
  refine ⟨lo, hi, hlt, ?_, ?_⟩
  · unfold intersectCylinder
    rw [if_neg (by simp [hv])]
    simp only
    rcases hcases with h | h <;> rw [h]
    · exact (orderedPair_lt hlt).1
    · exact (orderedPair_lt hlt).2
  · intro t
    simp only [Mem, at_x, at_y, at_z]
    change rho2 p.x p.y v.x v.y t ≤ R * R ∧ _ ↔ _
    constructor
    · rintro ⟨hx, hz⟩
      constructor
      · by_contra hn
        rw [not_le] at hn
        rcases hloB with h | h
        · exact absurd h (ne_of_lt (rho2_between hx hur (.inl ⟨hn, hlo.le⟩)))
        · exact absurd h (ne_of_lt (abs_between hz huz (.inl ⟨hn, hlo.le⟩)))
      · by_contra hn
        rw [not_le] at hn
        rcases hhiB with h | h
        · exact absurd h (ne_of_lt (rho2_between hx hur (.inr ⟨hhi.le, hn⟩)))
        · exact absurd h (ne_of_lt (abs_between hz huz (.inr ⟨hhi.le, hn⟩)))
    · rintro ⟨h1, h2⟩
      rcases eq_or_lt_of_le h1 with rfl | h1
      · exact ⟨hlor, hloz⟩
      · rcases eq_or_lt_of_le h2 with rfl | h2
        · exact ⟨hhir, hhiz⟩
        · rcases le_total t u with h | h
          · exact ⟨(rho2_between hlor hur (.inl ⟨h1, h⟩)).le,
              (abs_between hloz huz (.inl ⟨h1, h⟩)).le⟩
          · exact ⟨(rho2_between hhir hur (.inr ⟨h, h2⟩)).le,
              (abs_between hhiz huz (.inr ⟨h, h2⟩)).le⟩

/-! ### sphere -/

theorem invalid_iff {v : V3 ℝ} : isInvalidDirection v = true ↔ v = 0 := by
  simp only [isInvalidDirection, decide_eq_true_eq]
  constructor
  · rintro ⟨h1, h2, h3⟩
    exact V3.ext h1 h2 h3
  · rintro rfl
    exact ⟨rfl, rfl, rfl⟩

theorem at_zero (p : V3 ℝ) (t : ℝ) : at' p 0 t = p := by
  apply V3.ext <;> simp [at_x, at_y, at_z]

theorem dot_self_pos {v : V3 ℝ} (hv : v ≠ 0) : 0 < v.dot v := by
  have hvv : 0 ≤ v.dot v := by
    simp only [V3.dot]; nlinarith [mul_self_nonneg v.x, mul_self_nonneg v.y, mul_self_nonneg v.z]
  rcases eq_or_lt_of_le hvv with h0 | h0
  · exfalso
    simp only [V3.dot] at h0
    apply hv
    apply V3.ext
    · change v.x = 0; nlinarith [mul_self_nonneg v.x, mul_self_nonneg v.y, mul_self_nonneg v.z]
    · change v.y = 0; nlinarith [mul_self_nonneg v.x, mul_self_nonneg v.y, mul_self_nonneg v.z]
    · change v.z = 0; nlinarith [mul_self_nonneg v.x, mul_self_nonneg v.y, mul_self_nonneg v.z]
  · exact h0

theorem sphere_id (R : ℝ) (p v : V3 ℝ) (t : ℝ) :
    (v.dot v * t + p.dot v) * (v.dot v * t + p.dot v) -
      (v.dot v * R * R - (p.cross v).dot (p.cross v)) = v.dot v *
      ((p.x + t * v.x) * (p.x + t * v.x) + (p.y + t * v.y) * (p.y + t * v.y) +
        (p.z + t * v.z) * (p.z + t * v.z) - R * R) := by
  simp only [V3.dot, V3.cross]; ring

theorem sphere_mem {R : ℝ} {p v : V3 ℝ} (hv : v ≠ 0) (t : ℝ) :
    Mem (.sphere R) (at' p v t) ↔
      (v.dot v * t + p.dot v) * (v.dot v * t + p.dot v) ≤
        v.dot v * R * R - (p.cross v).dot (p.cross v) := by
  have hpos := dot_self_pos hv
  have id := sphere_id R p v t
  simp only [Mem, at_x, at_y, at_z]
  constructor
  · intro h
    have := mul_nonpos_of_nonneg_of_nonpos hpos.le (sub_nonpos.2 h)
    linarith
  · intro h
    have h2 : v.dot v * ((p.x + t * v.x) * (p.x + t * v.x) + (p.y + t * v.y) * (p.y + t * v.y) +
        (p.z + t * v.z) * (p.z + t * v.z) - R * R) ≤ 0 := by linarith
    have := nonpos_of_mul_nonpos_right h2 hpos
    linarith

/-- a sphere is missed, or the two times are those between which the path is in the sphere -/
theorem intersectSphere_spec {R : ℝ} {p v : V3 ℝ} (hv : v ≠ 0) :
    (intersectSphere R p v = [] ∧ Misses (.sphere R) p v) ∨
    ∃ a b, a ≤ b ∧ intersectSphere R p v = [a, b] ∧
      ∀ t, Mem (.sphere R) (at' p v t) ↔ a ≤ t ∧ t ≤ b := by
  have hpos := dot_self_pos hv
  unfold intersectSphere
  rw [if_neg (by rw [invalid_iff]; exact hv)]
  simp only
  split
  · rename_i hD
    left
    refine ⟨rfl, fun t ht => ?_⟩
    rw [sphere_mem hv] at ht
    nlinarith [mul_self_nonneg (v.dot v * t + p.dot v)]
  · rename_i hD
    right
    rw [not_lt] at hD
    refine ⟨_, _, ?_, rfl, fun t => ?_⟩
    · apply div_le_div_of_nonneg_right _ hpos.le
      linarith [Real.sqrt_nonneg (v.dot v * R * R - (p.cross v).dot (p.cross v))]
    · rw [sphere_mem hv, div_le_iff₀ hpos, le_div_iff₀ hpos, ← pow_two, Real.sq_le hD]
      constructor <;> rintro ⟨h1, h2⟩ <;> constructor <;> linarith

end Verif.Solid
