import Verif.Lemmas.SolidSurf
/-!
Helper lemmas: flight paths through pyramids, and completeness for shape trees.
-/

namespace Verif.Solid

/-! ### paths through half spaces -/

/-- value of a linear function along the path -/
def lin (g : ℝ × ℝ) (t : ℝ) : ℝ := g.1 + t * g.2

theorem lin_between {g : ℝ × ℝ} {t s u : ℝ} (h1 : lin g t ≤ 0) (h2 : lin g u < 0)
    (hs : (t < s ∧ s ≤ u) ∨ (u ≤ s ∧ s < t)) : lin g s < 0 := by
  have id : (u - s) * lin g t + (s - t) * lin g u = (u - t) * lin g s := by
    simp only [lin]; ring
  rcases hs with ⟨h3, h4⟩ | ⟨h3, h4⟩
  · have e1 : (u - s) * lin g t ≤ 0 := mul_nonpos_of_nonneg_of_nonpos (by linarith) h1
    have e2 : (s - t) * lin g u < 0 := mul_neg_of_pos_of_neg (by linarith) h2
    by_contra hc
    rw [not_lt] at hc
    have := mul_nonneg (by linarith : 0 ≤ u - t) hc
    linarith
  · have e1 : (s - u) * lin g t ≤ 0 := mul_nonpos_of_nonneg_of_nonpos (by linarith) h1
    have e2 : (t - s) * lin g u < 0 := mul_neg_of_pos_of_neg (by linarith) h2
    by_contra hc
    rw [not_lt] at hc
    have := mul_nonneg (by linarith : 0 ≤ t - u) hc
    linarith

theorem entry_lin {g : ℝ × ℝ} {u : ℝ} (h : lin g u < 0) :
    Entry (fun t => lin g t ≤ 0) (fun t => lin g t < 0) (fun t => lin g t = 0) u := by
  rcases lt_or_ge g.2 0 with hv | hv
  · right
    have e : lin g (-g.1 / g.2) = 0 := by
      simp only [lin]; rw [div_mul_cancel₀ _ hv.ne]; ring
    refine ⟨_, ?_, e, e.le, fun t h1 h2 => lin_between e.le h (.inl ⟨h1, h2⟩)⟩
    rw [div_lt_iff_of_neg hv]
    simp only [lin] at h
    linarith
  · left
    intro t ht
    simp only [lin] at h ⊢
    nlinarith

theorem entry_poly (gs : List (ℝ × ℝ)) {u : ℝ} (h : ∀ g ∈ gs, lin g u < 0) :
    Entry (fun t => ∀ g ∈ gs, lin g t ≤ 0) (fun t => ∀ g ∈ gs, lin g t < 0)
      (fun t => ∃ g ∈ gs, lin g t = 0) u := by
  induction gs with
  | nil => left; intro t _ g hg; simp at hg
  | cons a l ih =>
    have hi := ih (fun g hg => h g (by simp [hg]))
    have ha := entry_lin (h a (by simp))
    have := ha.and (fun t h => le_of_lt h) (fun t h g hg => le_of_lt (h g hg)) hi
    simpa only [List.mem_cons, forall_eq_or_imp, exists_eq_or_imp] using this

/-- reversal of time -/
def rev (g : ℝ × ℝ) : ℝ × ℝ := (g.1, -g.2)

theorem lin_rev (g : ℝ × ℝ) (t : ℝ) : lin (rev g) t = lin g (-t) := by simp only [lin, rev]; ring

theorem poly_interval (gs : List (ℝ × ℝ)) {u : ℝ} (h : ∀ g ∈ gs, lin g u < 0)
    (hb1 : ¬ ∀ t, t ≤ u → ∀ g ∈ gs, lin g t < 0) (hb2 : ¬ ∀ t, u ≤ t → ∀ g ∈ gs, lin g t < 0) :
    ∃ lo hi, lo < u ∧ u < hi ∧ (∀ t, (∀ g ∈ gs, lin g t ≤ 0) ↔ lo ≤ t ∧ t ≤ hi) ∧
      (∃ g ∈ gs, lin g lo = 0) ∧ (∃ g ∈ gs, lin g hi = 0) ∧
      ∀ t, (∀ g ∈ gs, lin g t ≤ 0) → (∃ g ∈ gs, lin g t = 0) → t = lo ∨ t = hi := by
  rcases entry_poly gs h with h1 | ⟨lo, hlo, ⟨g1, hg1, hB1⟩, hC1, hS1⟩
  · exact absurd h1 hb1
  have h' : ∀ g ∈ gs.map rev, lin g (-u) < 0 := by
    intro g hg
    obtain ⟨g', hg', rfl⟩ := List.mem_map.1 hg
    rw [lin_rev, neg_neg]; exact h g' hg'
  rcases entry_poly (gs.map rev) h' with h2 | ⟨nhi, hhi, ⟨g2', hg2', hB2⟩, hC2, hS2⟩
  · refine absurd (fun t ht g hg => ?_) hb2
    have := h2 (-t) (by linarith) (rev g) (List.mem_map_of_mem hg)
    rwa [lin_rev, neg_neg] at this
  obtain ⟨g2, hg2, rfl⟩ := List.mem_map.1 hg2'
  rw [lin_rev] at hB2
  have hC2' : ∀ g ∈ gs, lin g (-nhi) ≤ 0 := by
    intro g hg
    have := hC2 (rev g) (List.mem_map_of_mem hg)
    rwa [lin_rev] at this
  have hlo' : ∀ t, (∀ g ∈ gs, lin g t ≤ 0) → lo ≤ t := by
    intro t ht
    by_contra hn
    exact absurd hB1 (ne_of_lt (lin_between (ht g1 hg1) (h g1 hg1) (.inl ⟨by linarith, hlo.le⟩)))
  have hhi' : ∀ t, (∀ g ∈ gs, lin g t ≤ 0) → t ≤ -nhi := by
    intro t ht
    by_contra hn
    exact absurd hB2 (ne_of_lt (lin_between (ht g2 hg2) (h g2 hg2)
      (.inr ⟨by linarith, by linarith⟩)))
  have hin : ∀ t, lo < t → t < -nhi → ∀ g ∈ gs, lin g t < 0 := by
    intro t h1 h2 g hg
    rcases le_total t u with h3 | h3
    · exact lin_between (hC1 g hg) (h g hg) (.inl ⟨h1, h3⟩)
    · exact lin_between (hC2' g hg) (h g hg) (.inr ⟨h3, h2⟩)
  refine ⟨lo, -nhi, hlo, by linarith, fun t => ⟨fun ht => ⟨hlo' t ht, hhi' t ht⟩, ?_⟩,
    ⟨g1, hg1, hB1⟩, ⟨g2, hg2, hB2⟩, ?_⟩
  · rintro ⟨h1, h2⟩ g hg
    rcases eq_or_lt_of_le h1 with rfl | h1
    · exact hC1 g hg
    · rcases eq_or_lt_of_le h2 with rfl | h2
      · exact hC2' g hg
      · exact (hin t h1 h2 g hg).le
  · rintro t ht ⟨g, hg, h0⟩
    by_contra hn
    rw [not_or] at hn
    exact absurd h0 (ne_of_lt (hin t (lt_of_le_of_ne (hlo' t ht) (Ne.symm hn.1))
      (lt_of_le_of_ne (hhi' t ht) hn.2) g hg))

/-! ### the triangles -/

theorem triangle_mem {par : ℝ} (hpar : 0 < par) {r d B C n : V3 ℝ} {k : ℝ} (hk : k ≠ 0)
    (hn : n ≠ 0) (hM : B.cross C = k • n) (hd : par * √(n.dot n) ≤ |n.dot d|) {t c1 c2 : ℝ}
    (h1 : 0 ≤ c1) (h2 : 0 ≤ c2) (h3 : c1 + c2 ≤ 1) (hP : at' r d t = c1 • B + c2 • C) :
    t ∈ intersectTriangle par r d ⟨0, 0, 0⟩ B C := by
  have e0 : ∀ q : V3 ℝ, q - ⟨0, 0, 0⟩ = q := fun q => by apply V3.ext <;> simp
  have hnn := dot_self_pos hn
  have hL : length (B.cross C) = |k| * √(n.dot n) := by
    rw [hM]
    unfold length
    rw [show (k • n).length2 = k ^ 2 * n.dot n by
      simp only [V3.length2, V3.dot, V3.smul_x, V3.smul_y, V3.smul_z]; ring,
      Real.sqrt_mul (sq_nonneg k), Real.sqrt_sq_eq_abs]
  have hsq : 0 < √(n.dot n) := Real.sqrt_pos.2 hnn
  have hk' : 0 < |k| := abs_pos.2 hk
  have hLpos : 0 < length (B.cross C) := by rw [hL]; positivity
  unfold intersectTriangle
  simp only [e0, normalize_eq]
  have hMM : (B.cross C).dot (B.cross C) ≠ 0 := by
    rw [hM]
    rw [show (k • n).dot (k • n) = k ^ 2 * n.dot n by
      simp only [V3.dot, V3.smul_x, V3.smul_y, V3.smul_z]; ring]
    positivity
  have hvp : ((1 / length (B.cross C)) • B.cross C).dot d = k * n.dot d / (|k| * √(n.dot n)) := by
    rw [hL, hM]
    simp only [V3.dot, V3.smul_x, V3.smul_y, V3.smul_z]; ring
  have habs : |((1 / length (B.cross C)) • B.cross C).dot d| = |n.dot d| / √(n.dot n) := by
    rw [hvp, abs_div, abs_mul, abs_mul, abs_abs, abs_of_pos hsq, mul_div_mul_left _ _ hk'.ne']
  have hge : par ≤ |((1 / length (B.cross C)) • B.cross C).dot d| := by
    rw [habs, le_div_iff₀ hsq]; exact hd
  have hvp0 : ((1 / length (B.cross C)) • B.cross C).dot d ≠ 0 := by
    intro h0; rw [h0, abs_zero] at hge; linarith
  rw [if_neg (not_lt.2 hge)]
  clear hvp habs
  generalize hLdef : length (B.cross C) = L at *
  have hMP : (B.cross C).dot (at' r d t) = 0 := by
    rw [hP]
    simp only [V3.dot, V3.cross, V3.add_x, V3.add_y, V3.add_z, V3.smul_x, V3.smul_y, V3.smul_z]
    ring
  have ht : (((1 / L) • B.cross C).dot ⟨0, 0, 0⟩ - ((1 / L) • B.cross C).dot r) /
      ((1 / L) • B.cross C).dot d = t := by
    rw [div_eq_iff hvp0]
    simp only [V3.dot, V3.smul_x, V3.smul_y, V3.smul_z, at_x, at_y, at_z] at hMP ⊢
    linear_combination -(1 / L) * hMP
  rw [ht]
  have e1 : (r + t • d).dot (((1 / L) • B.cross C).cross C) /
      B.dot (((1 / L) • B.cross C).cross C) = c1 := by
    have a2 : B.dot (((1 / L) • B.cross C).cross C) = (-1 / L) * (B.cross C).dot (B.cross C) := by
      simp only [V3.dot, V3.cross, V3.smul_x, V3.smul_y, V3.smul_z]; ring
    change (at' r d t).dot _ / _ = _
    rw [a2, div_eq_iff (mul_ne_zero (div_ne_zero (by norm_num) hLpos.ne') hMM), hP]
    simp only [V3.dot, V3.cross, V3.add_x, V3.add_y, V3.add_z, V3.smul_x, V3.smul_y, V3.smul_z]
    ring
  have e2 : (r + t • d).dot (((1 / L) • B.cross C).cross B) /
      C.dot (((1 / L) • B.cross C).cross B) = c2 := by
    have a2 : C.dot (((1 / L) • B.cross C).cross B) = (1 / L) * (B.cross C).dot (B.cross C) := by
      simp only [V3.dot, V3.cross, V3.smul_x, V3.smul_y, V3.smul_z]; ring
    change (at' r d t).dot _ / _ = _
    rw [a2, div_eq_iff (mul_ne_zero (div_ne_zero one_ne_zero hLpos.ne') hMM), hP]
    simp only [V3.dot, V3.cross, V3.add_x, V3.add_y, V3.add_z, V3.smul_x, V3.smul_y, V3.smul_z]
    ring
  rw [e1, e2, if_neg (not_lt.2 h1), if_neg (not_lt.2 h2), if_neg (not_lt.2 h3)]
  simp

/-! ### `std::unique` of a sorted list with two values -/

theorem uniqueFrom_const {tol b : ℝ} (h0 : 0 < tol) {l : List ℝ} (h : ∀ x ∈ l, x = b) :
    uniqueFrom (eqEps tol) b l = [] := by
  induction l with
  | nil => rfl
  | cons a l ih =>
    rw [uniqueFrom, if_pos, ih (fun x hx => h x (by simp [hx]))]
    rw [h a (by simp)]
    simp only [eqEps, sub_self, abs_zero, decide_eq_true_eq]; linarith

theorem uniqueFrom_two {tol a b : ℝ} (h0 : 0 < tol) (hab : tol / 5 ≤ b - a) {l : List ℝ}
    (hs : l.Pairwise (· ≤ ·)) (h : ∀ x ∈ l, x = a ∨ x = b) (hb : b ∈ l) :
    uniqueFrom (eqEps tol) a l = [b] := by
  induction l with
  | nil => simp at hb
  | cons x l ih =>
    rw [List.pairwise_cons] at hs
    rw [uniqueFrom]
    rcases h x (by simp) with rfl | rfl
    · rw [if_pos (by simp only [eqEps, sub_self, abs_zero, decide_eq_true_eq]; linarith)]
      refine ih hs.2 (fun y hy => h y (by simp [hy])) ?_
      rcases List.mem_cons.1 hb with rfl | hb
      · linarith
      · exact hb
    · rw [if_neg, uniqueFrom_const h0]
      · intro y hy
        rcases h y (by simp [hy]) with rfl | h'
        · have := hs.1 y hy; linarith
        · exact h'
      · simp only [eqEps, decide_eq_true_eq, not_lt]
        rw [abs_sub_comm, abs_of_nonneg (by linarith)]; exact hab

theorem unique_two {tol a b : ℝ} (h0 : 0 < tol) (hab : tol / 5 ≤ b - a) {l : List ℝ}
    (hs : l.Pairwise (· ≤ ·)) (h : ∀ x ∈ l, x = a ∨ x = b) (ha : a ∈ l) (hb : b ∈ l) :
    unique (eqEps tol) l = [a, b] := by
  cases l with
  | nil => simp at ha
  | cons x l =>
    rw [List.pairwise_cons] at hs
    have hx : x = a := by
      rcases h x (by simp) with h' | rfl
      · exact h'
      · rcases List.mem_cons.1 ha with rfl | ha
        · rfl
        · have := hs.1 a ha; linarith
    subst hx
    rw [unique, uniqueFrom_two h0 hab hs.2 (fun y hy => h y (by simp [hy]))]
    rcases List.mem_cons.1 hb with rfl | hb
    · linarith
    · exact hb

/-! ### the pyramid -/

/-- the five half spaces of a pyramid along a path -/
def pyrPlanes (X Y h : ℝ) (p v : V3 ℝ) : List (ℝ × ℝ) :=
  [(-h - p.z, -v.z), (2 * h * p.x + X * p.z, 2 * h * v.x + X * v.z),
   (-(2 * h * p.x) + X * p.z, -(2 * h * v.x) + X * v.z),
   (2 * h * p.y + Y * p.z, 2 * h * v.y + Y * v.z),
   (-(2 * h * p.y) + Y * p.z, -(2 * h * v.y) + Y * v.z)]

theorem pyr_mem {X Y h : ℝ} (hX : 0 < X) (hh : 0 < h) (p v : V3 ℝ) (t : ℝ) :
    Mem (.pyramid X Y h) (at' p v t) ↔ ∀ g ∈ pyrPlanes X Y h p v, lin g t ≤ 0 := by
  simp only [pyrPlanes, List.forall_mem_cons, lin, Mem, at_x, at_y, at_z, List.not_mem_nil,
    false_imp_iff, implies_true, and_true]
  have abs2 : ∀ a c : ℝ, 2 * h * |a| ≤ c ↔ 2 * h * a ≤ c ∧ -(2 * h * a) ≤ c := by
    intro a c
    rw [show 2 * h * |a| = |2 * h * a| by rw [abs_mul, abs_of_pos (by linarith : 0 < 2 * h)], abs_le']
  rw [abs2, abs2]
  constructor
  · rintro ⟨h1, h2, ⟨h3, h4⟩, h5, h6⟩
    refine ⟨?_, ?_, ?_, ?_, ?_⟩ <;> linarith
  · rintro ⟨h1, h3, h4, h5, h6⟩
    refine ⟨by linarith, ?_, ⟨by linarith, by linarith⟩, by linarith, by linarith⟩
    have : X * (p.z + t * v.z) ≤ 0 := by linarith
    exact nonpos_of_mul_nonpos_right this hX

theorem pyr_on {X Y h : ℝ} (hh : 0 < h) (q : V3 ℝ) (p v : V3 ℝ) (t : ℝ)
    (hq : q = at' p v t) :
    OnPyramid X Y h q → (∀ g ∈ pyrPlanes X Y h p v, lin g t ≤ 0) ∧
      ∃ g ∈ pyrPlanes X Y h p v, lin g t = 0 := by
  subst hq
  simp only [OnPyramid, pyrPlanes, lin, at_x, at_y, at_z, List.not_mem_nil, forall_eq_or_imp,
    forall_eq, List.mem_cons, exists_eq_or_imp, exists_eq_left, or_false]
  rintro ⟨h1, h2, h3, h4, h5⟩
  have cv : ∀ a X : ℝ, a ≤ -(p.z + t * v.z) / h * X / 2 → 2 * h * a ≤ -((p.z + t * v.z) * X) := by
    intro a X ha
    have : -(p.z + t * v.z) / h * X / 2 = -((p.z + t * v.z) * X) / (2 * h) := by
      field_simp
    rw [this, le_div_iff₀ (by linarith)] at ha
    linarith
  have ce : ∀ a X : ℝ, a = -(p.z + t * v.z) / h * X / 2 → 2 * h * a = -((p.z + t * v.z) * X) := by
    intro a X ha
    rw [ha]
    field_simp
  have a1 := cv _ X (le_of_abs_le h3)
  have a2 := cv _ X ((neg_le_abs _).trans h3)
  have a3 := cv _ Y (le_of_abs_le h4)
  have a4 := cv _ Y ((neg_le_abs _).trans h4)
  refine ⟨⟨?_, ?_, ?_, ?_, ?_⟩, ?_⟩
  · linarith
  · linarith
  · linarith
  · linarith
  · linarith
  · rcases h5 with h5 | h5 | h5
    · left; linarith
    · rcases abs_choice (p.x + t * v.x) with ha | ha <;> rw [ha] at h5 <;> have := ce _ X h5
      · right; left; linarith
      · right; right; left; linarith
    · rcases abs_choice (p.y + t * v.y) with ha | ha <;> rw [ha] at h5 <;> have := ce _ Y h5
      · right; right; right; left; linarith
      · right; right; right; right; linarith

theorem pyramid_strict {X Y h : ℝ} (hX : 0 < X) (hh : 0 < h) {p v : V3 ℝ} {u : ℝ}
    (hi : Interior (Mem (.pyramid X Y h)) (at' p v u)) :
    ∀ g ∈ pyrPlanes X Y h p v, lin g u < 0 := by
  obtain ⟨δ, hδ, hi⟩ := hi
  have hd : |δ / 2| < δ := by rw [abs_of_pos (by linarith)]; linarith
  have hd' : |-(δ / 2)| < δ := by rw [abs_neg]; exact hd
  have key : ∀ a b c : ℝ, |a| < δ → |b| < δ → |c| < δ →
      ∀ g ∈ pyrPlanes X Y h ⟨p.x + u * v.x + a, p.y + u * v.y + b, p.z + u * v.z + c⟩ ⟨0, 0, 0⟩,
        lin g 0 ≤ 0 := by
    intro a b c ha hb hc
    rw [← pyr_mem hX hh]
    apply hi
    refine ⟨?_, ?_, ?_⟩
    · simpa [at'] using ha
    · simpa [at'] using hb
    · simpa [at'] using hc
  have h00 : |(0 : ℝ)| < δ := by simpa using hδ
  have n1 := key (δ / 2) (δ / 2) 0 hd hd h00
  have n2 := key (-(δ / 2)) (-(δ / 2)) 0 hd' hd' h00
  have n3 := key 0 0 (-(δ / 2)) h00 h00 hd'
  simp only [pyrPlanes, List.forall_mem_cons, lin, List.not_mem_nil,
    false_imp_iff, implies_true, and_true] at n1 n2 n3 ⊢
  have hhδ : 0 < h * δ := mul_pos hh hδ
  refine ⟨?_, ?_, ?_, ?_, ?_⟩
  · linarith [n3.1]
  · linarith [n1.2.1]
  · linarith [n2.2.2.1]
  · linarith [n1.2.2.2.1]
  · linarith [n2.2.2.2.2]

theorem pyr_bounded {X Y h : ℝ} (hX : 0 < X) (hY : 0 < Y) (_hh : 0 < h) {p v : V3 ℝ} (hv : v ≠ 0)
    {u : ℝ} : ¬ ∀ t, t ≤ u → ∀ g ∈ pyrPlanes X Y h p v, lin g t < 0 := by
  intro H
  simp only [pyrPlanes, List.forall_mem_cons, lin, List.not_mem_nil,
    false_imp_iff, implies_true, and_true] at H
  have hz : ∀ t, t ≤ u → p.z + t * v.z < 0 ∧ -h < p.z + t * v.z := by
    intro t ht
    obtain ⟨h1, h2, h3, h4, h5⟩ := H t ht
    constructor
    · have : X * (p.z + t * v.z) < 0 := by linarith
      exact neg_of_mul_neg_right this hX.le
    · linarith
  have vz : v.z = 0 := by
    by_contra hvz
    refine slab_unbounded (x := p.z + h / 2) (A := h / 2) (u := u) hvz fun t ht => ?_
    rw [abs_lt]
    constructor <;> linarith [(hz t ht).1, (hz t ht).2]
  have hz' := hz u le_rfl
  rw [vz] at hz'
  have vx : v.x = 0 := by
    by_contra hvx
    refine slab_unbounded (x := p.x) (A := X / 2) (u := u) hvx fun t ht => ?_
    obtain ⟨h1, h2, h3, h4, h5⟩ := H t ht
    rw [vz] at h2 h3
    have b1 : X * -p.z < X * h := mul_lt_mul_of_pos_left (by linarith) hX
    rw [abs_lt]
    constructor
    · have : 2 * h * -(X / 2) < 2 * h * (p.x + t * v.x) := by linarith
      exact lt_of_mul_lt_mul_left this (by linarith)
    · have : 2 * h * (p.x + t * v.x) < 2 * h * (X / 2) := by linarith
      exact lt_of_mul_lt_mul_left this (by linarith)
  have vy : v.y = 0 := by
    by_contra hvy
    refine slab_unbounded (x := p.y) (A := Y / 2) (u := u) hvy fun t ht => ?_
    obtain ⟨h1, h2, h3, h4, h5⟩ := H t ht
    rw [vz] at h4 h5
    have b1 : Y * -p.z < Y * h := mul_lt_mul_of_pos_left (by linarith) hY
    rw [abs_lt]
    constructor
    · have : 2 * h * -(Y / 2) < 2 * h * (p.y + t * v.y) := by linarith
      exact lt_of_mul_lt_mul_left this (by linarith)
    · have : 2 * h * (p.y + t * v.y) < 2 * h * (Y / 2) := by linarith
      exact lt_of_mul_lt_mul_left this (by linarith)
  exact hv (V3.ext vx vy vz)

theorem pyrPlanes_neg (X Y h : ℝ) (p v : V3 ℝ) (t : ℝ) (h' : ∀ g ∈ pyrPlanes X Y h p (-v), lin g t < 0) :
    ∀ g ∈ pyrPlanes X Y h p v, lin g (-t) < 0 := by
  simp only [pyrPlanes, List.forall_mem_cons, lin, List.not_mem_nil, V3.neg_x, V3.neg_y, V3.neg_z,
    false_imp_iff, implies_true, and_true] at h' ⊢
  refine ⟨?_, ?_, ?_, ?_, ?_⟩ <;> linarith [h'.1, h'.2.1, h'.2.2.1, h'.2.2.2.1, h'.2.2.2.2]

theorem pyrTimes_mem {par X Y H : ℝ} (hpar : 0 < par) (hX : 0 < X) (hY : 0 < Y) (hH : 0 < H)
    {p d : V3 ℝ} {t u : ℝ} (hu : ∀ g ∈ pyrPlanes X Y H p d, lin g u < 0)
    (a1 : par * √((⟨2 * H, 0, X⟩ : V3 ℝ).dot ⟨2 * H, 0, X⟩) ≤ |(⟨2 * H, 0, X⟩ : V3 ℝ).dot d|)
    (a2 : par * √((⟨-(2 * H), 0, X⟩ : V3 ℝ).dot ⟨-(2 * H), 0, X⟩) ≤
      |(⟨-(2 * H), 0, X⟩ : V3 ℝ).dot d|)
    (a3 : par * √((⟨0, 2 * H, Y⟩ : V3 ℝ).dot ⟨0, 2 * H, Y⟩) ≤ |(⟨0, 2 * H, Y⟩ : V3 ℝ).dot d|)
    (a4 : par * √((⟨0, -(2 * H), Y⟩ : V3 ℝ).dot ⟨0, -(2 * H), Y⟩) ≤
      |(⟨0, -(2 * H), Y⟩ : V3 ℝ).dot d|)
    (hC : ∀ g ∈ pyrPlanes X Y H p d, lin g t ≤ 0) (hB : ∃ g ∈ pyrPlanes X Y H p d, lin g t = 0) :
    t ∈ pyrTimes par X Y H p d := by
  unfold pyrTimes
  simp only [List.mem_append]
  simp only [pyrPlanes, List.forall_mem_cons, lin, List.not_mem_nil,
    false_imp_iff, implies_true, and_true] at hC hu
  simp only [pyrPlanes, lin, List.mem_cons, exists_eq_or_imp, exists_eq_left, or_false,
    List.not_mem_nil] at hB
  obtain ⟨c0, c1, c2, c3, c4⟩ := hC
  have ne : ∀ a b c : ℝ, c ≠ 0 → (⟨a, b, c⟩ : V3 ℝ) ≠ 0 := by
    intro a b c hc h
    exact hc (congrArg V3.z h)
  have key : ∀ s y Y : ℝ, 0 < Y → 0 ≤ s → s ≤ 1 → 2 * H * y - Y * (s * H) ≤ 0 →
      -(2 * H * y) - Y * (s * H) ≤ 0 →
      0 ≤ (s + 2 * y / Y) / 2 ∧ 0 ≤ (s - 2 * y / Y) / 2 := by
    intro s y Y hY h0 h1 h2 h3
    have b1 : 2 * y / Y ≤ s := by
      rw [div_le_iff₀ hY]
      have : H * (2 * y) ≤ H * (s * Y) := by linarith
      exact le_of_mul_le_mul_left this hH
    have b2 : -s ≤ 2 * y / Y := by
      rw [le_div_iff₀ hY]
      have : H * (-s * Y) ≤ H * (2 * y) := by linarith
      exact le_of_mul_le_mul_left this hH
    constructor <;> linarith
  obtain ⟨s, hs⟩ : ∃ s, p.z + t * d.z = -(s * H) := ⟨-(p.z + t * d.z) / H, by field_simp⟩
  have s1 : s ≤ 1 := by
    have : s * H ≤ 1 * H := by linarith
    exact le_of_mul_le_mul_right this hH
  have s0 : 0 ≤ s := by
    have : X * (p.z + t * d.z) ≤ 0 := by linarith
    have := nonpos_of_mul_nonpos_right this hX
    by_contra hn
    rw [not_le] at hn
    have := mul_neg_of_neg_of_pos hn hH
    linarith
  have hx := key s (p.x + t * d.x) X hX s0 s1
    (by linear_combination c1 - X * hs) (by linear_combination c2 - X * hs)
  have hy := key s (p.y + t * d.y) Y hY s0 s1
    (by linear_combination c3 - Y * hs) (by linear_combination c4 - Y * hs)
  have fx1 : 2 * H * p.x + X * p.z + t * (2 * H * d.x + X * d.z) = 0 →
      t ∈ intersectTriangle par p d ⟨0, 0, 0⟩ ⟨X / 2, Y / 2, -H⟩ ⟨X / 2, -Y / 2, -H⟩ := by
    intro h0
    refine triangle_mem hpar (k := -Y / 2) (n := ⟨2 * H, 0, X⟩) (div_ne_zero (neg_ne_zero.2 hY.ne')
      two_ne_zero) (ne _ _ _ hX.ne') ?_ a1 hy.1 hy.2 (by linarith) ?_
    · apply V3.ext <;> simp [V3.cross] <;> ring
    · have := mul_left_cancel₀ hH.ne' (by linear_combination h0 / 2 - X / 2 * hs :
        H * (p.x + t * d.x) = H * ((s * X / 2)))
      apply V3.ext <;> simp only [at_x, at_y, at_z, V3.add_x, V3.add_y, V3.add_z, V3.smul_x,
        V3.smul_y, V3.smul_z]
      · rw [this]; ring
      · field_simp; ring
      · rw [hs]; ring
  have fy2 : -(2 * H * p.y) + Y * p.z + t * (-(2 * H * d.y) + Y * d.z) = 0 →
      t ∈ intersectTriangle par p d ⟨0, 0, 0⟩ ⟨X / 2, -Y / 2, -H⟩ ⟨-X / 2, -Y / 2, -H⟩ := by
    intro h0
    refine triangle_mem hpar (k := -X / 2) (n := ⟨0, -(2 * H), Y⟩) (div_ne_zero (neg_ne_zero.2 hX.ne')
      two_ne_zero) (ne _ _ _ hY.ne') ?_ a4 hx.1 hx.2 (by linarith) ?_
    · apply V3.ext <;> simp [V3.cross] <;> ring
    · have := mul_left_cancel₀ hH.ne' (by linear_combination -h0 / 2 + Y / 2 * hs :
        H * (p.y + t * d.y) = H * (-(s * Y / 2)))
      apply V3.ext <;> simp only [at_x, at_y, at_z, V3.add_x, V3.add_y, V3.add_z, V3.smul_x,
        V3.smul_y, V3.smul_z]
      · field_simp; ring
      · rw [this]; ring
      · rw [hs]; ring
  have fx2 : -(2 * H * p.x) + X * p.z + t * (-(2 * H * d.x) + X * d.z) = 0 →
      t ∈ intersectTriangle par p d ⟨0, 0, 0⟩ ⟨-X / 2, -Y / 2, -H⟩ ⟨-X / 2, Y / 2, -H⟩ := by
    intro h0
    refine triangle_mem hpar (k := -Y / 2) (n := ⟨-(2 * H), 0, X⟩) (div_ne_zero (neg_ne_zero.2 hY.ne')
      two_ne_zero) (ne _ _ _ hX.ne') ?_ a2 hy.2 hy.1 (by linarith) ?_
    · apply V3.ext <;> simp [V3.cross] <;> ring
    · have := mul_left_cancel₀ hH.ne' (by linear_combination -h0 / 2 + X / 2 * hs :
        H * (p.x + t * d.x) = H * (-(s * X / 2)))
      apply V3.ext <;> simp only [at_x, at_y, at_z, V3.add_x, V3.add_y, V3.add_z, V3.smul_x,
        V3.smul_y, V3.smul_z]
      · rw [this]; ring
      · field_simp; ring
      · rw [hs]; ring
  have fy1 : 2 * H * p.y + Y * p.z + t * (2 * H * d.y + Y * d.z) = 0 →
      t ∈ intersectTriangle par p d ⟨0, 0, 0⟩ ⟨-X / 2, Y / 2, -H⟩ ⟨X / 2, Y / 2, -H⟩ := by
    intro h0
    refine triangle_mem hpar (k := -X / 2) (n := ⟨0, 2 * H, Y⟩) (div_ne_zero (neg_ne_zero.2 hX.ne')
      two_ne_zero) (ne _ _ _ hY.ne') ?_ a3 hx.2 hx.1 (by linarith) ?_
    · apply V3.ext <;> simp [V3.cross] <;> ring
    · have := mul_left_cancel₀ hH.ne' (by linear_combination h0 / 2 - Y / 2 * hs :
        H * (p.y + t * d.y) = H * ((s * Y / 2)))
      apply V3.ext <;> simp only [at_x, at_y, at_z, V3.add_x, V3.add_y, V3.add_z, V3.smul_x,
        V3.smul_y, V3.smul_z]
      · field_simp; ring
      · rw [this]; ring
      · rw [hs]; ring
  rcases hB with h0 | h0 | h0 | h0 | h0
  · by_cases e1 : 2 * H * p.x + X * p.z + t * (2 * H * d.x + X * d.z) = 0
    · exact .inl (.inl (.inl (.inr (fx1 e1))))
    by_cases e2 : -(2 * H * p.x) + X * p.z + t * (-(2 * H * d.x) + X * d.z) = 0
    · exact .inl (.inr (fx2 e2))
    by_cases e3 : 2 * H * p.y + Y * p.z + t * (2 * H * d.y + Y * d.z) = 0
    · exact .inr (fy1 e3)
    by_cases e4 : -(2 * H * p.y) + Y * p.z + t * (-(2 * H * d.y) + Y * d.z) = 0
    · exact .inl (.inl (.inr (fy2 e4)))
    left; left; left; left
    have hdz : d.z ≠ 0 := by
      intro hz
      rw [hz] at h0
      have := hu.1
      rw [hz] at this
      linarith
    rw [if_pos hdz]
    unfold intersectRectangle
    have ht : (0 - (p.z + H)) / d.z = t := by rw [div_eq_iff hdz]; linarith
    simp only [ht]
    have hz : p.z + t * d.z = -H := by linarith
    rw [if_pos, List.mem_singleton]
    have st : ∀ a X : ℝ, 2 * H * a + X * (p.z + t * d.z) < 0 →
        -(2 * H * a) + X * (p.z + t * d.z) < 0 → |a| < X / 2 := by
      intro a X h1 h2
      rw [hz] at h1 h2
      rw [abs_lt]
      constructor
      · have : 2 * H * -(X / 2) < 2 * H * a := by linarith
        exact lt_of_mul_lt_mul_left this (by linarith)
      · have : 2 * H * a < 2 * H * (X / 2) := by linarith
        exact lt_of_mul_lt_mul_left this (by linarith)
    constructor
    · rw [mul_comm]
      refine st _ _ ?_ ?_
      · linarith [lt_of_le_of_ne c1 e1]
      · linarith [lt_of_le_of_ne c2 e2]
    · rw [mul_comm]
      refine st _ _ ?_ ?_
      · linarith [lt_of_le_of_ne c3 e3]
      · linarith [lt_of_le_of_ne c4 e4]
  · exact .inl (.inl (.inl (.inr (fx1 h0))))
  · exact .inl (.inr (fx2 h0))
  · exact .inr (fy1 h0)
  · exact .inl (.inl (.inr (fy2 h0)))

theorem across_unit {par : ℝ} {n v : V3 ℝ} (hv : v ≠ 0) (h : Across par n v) :
    par * √(n.dot n) ≤ |n.dot ((1 / length v) • v)| := by
  have hl : length v = √(v.dot v) := by
    unfold length; congr 1
  have hpos : 0 < √(v.dot v) := Real.sqrt_pos.2 (dot_self_pos hv)
  rw [hl, show n.dot ((1 / √(v.dot v)) • v) = n.dot v / √(v.dot v) by
    simp only [V3.dot, V3.smul_x, V3.smul_y, V3.smul_z]; ring, abs_div, abs_of_pos hpos,
    le_div_iff₀ hpos]
  unfold Across at h
  linarith

theorem intersectPyramid_pierces {tol par X Y h : ℝ} (h0 : 0 < tol) (hpar : 0 < par) (hX : 0 < X)
    (hY : 0 < Y) (hh : 0 < h) {p v : V3 ℝ} (hv : v ≠ 0) (hp : Pierces (.pyramid X Y h) p v)
    (a1 : Across par ⟨2 * h, 0, X⟩ v) (a2 : Across par ⟨-(2 * h), 0, X⟩ v)
    (a3 : Across par ⟨0, 2 * h, Y⟩ v) (a4 : Across par ⟨0, -(2 * h), Y⟩ v) {t0 t1 : ℝ}
    (m0 : Mem (.pyramid X Y h) (at' p v t0)) (m1 : Mem (.pyramid X Y h) (at' p v t1))
    (hlen : tol / 5 ≤ (t1 - t0) * √(v.dot v)) :
    ∃ a b, a < b ∧ intersectPyramid tol par X Y h p v = [a, b] ∧
      ∀ t, Mem (.pyramid X Y h) (at' p v t) ↔ a ≤ t ∧ t ≤ b := by
  obtain ⟨u, hu⟩ := hp
  have hl : length v = √(v.dot v) := by
    unfold length; congr 1
  have hpos : 0 < length v := by rw [hl]; exact Real.sqrt_pos.2 (dot_self_pos hv)
  have b1 := across_unit hv a1
  have b2 := across_unit hv a2
  have b3 := across_unit hv a3
  have b4 := across_unit hv a4
  have hd : (1 / length v) • v ≠ 0 := by
    intro hz
    apply hv
    rw [← smul_inv_smul' hpos.ne' v, hz]
    apply V3.ext <;> simp
  have hnd : -((1 / length v) • v) ≠ 0 := by
    intro hz
    apply hd
    apply V3.ext
    · have := congrArg V3.x hz; simpa using this
    · have := congrArg V3.y hz; simpa using this
    · have := congrArg V3.z hz; simpa using this
  have sc : ∀ t, at' p ((1 / length v) • v) (t * length v) = at' p v t := by
    intro t
    rw [← at_div, mul_div_cancel_right₀ _ hpos.ne']
  rw [intersectPyramid_eq tol par X Y h p hv]
  rw [← hl] at hlen
  generalize hL : length v = L at *
  generalize hD : (1 / L) • v = d at *
  rw [← sc] at hu m0 m1
  have hus := pyramid_strict hX hh hu
  obtain ⟨lo, hi, hlo, hhi, hm, hBlo, hBhi, honly⟩ := poly_interval (pyrPlanes X Y h p d) hus
    (pyr_bounded hX hY hh hd) (by
      intro H
      refine pyr_bounded (p := p) (u := -(u * L)) hX hY hh hnd fun t ht => ?_
      have := pyrPlanes_neg X Y h p (-d) (-t) (by
        rw [show -(-d) = d by apply V3.ext <;> simp]
        exact H (-t) (by linarith))
      simpa using this)
  have hClo := (hm lo).2 ⟨le_rfl, by linarith⟩
  have hChi := (hm hi).2 ⟨by linarith, le_rfl⟩
  have k0 := (hm _).1 ((pyr_mem hX hh p d _).1 m0)
  have k1 := (hm _).1 ((pyr_mem hX hh p d _).1 m1)
  have huniq : unique (eqEps tol) (sort (pyrTimes par X Y h p d)) = [lo, hi] := by
    refine unique_two h0 (by linarith [k0.1, k1.2]) (sort_sorted _) ?_ ?_ ?_
    · intro x hx
      obtain ⟨q1, q2⟩ := pyr_on hh _ p d x rfl
        (pyrTimes_sound hpar hX hY hh (mem_sort.1 hx))
      exact honly x q1 q2
    · exact mem_sort.2 (pyrTimes_mem hpar hX hY hh hus b1 b2 b3 b4 hClo hBlo)
    · exact mem_sort.2 (pyrTimes_mem hpar hX hY hh hus b1 b2 b3 b4 hChi hBhi)
  have hlt : lo / L < hi / L := div_lt_div_of_pos_right (by linarith) hpos
  refine ⟨lo / L, hi / L, hlt, ?_, fun t => ?_⟩
  · rw [huniq]
    exact (orderedPair_lt hlt).1
  · rw [← sc, pyr_mem hX hh, hm, div_le_iff₀ hpos, le_div_iff₀ hpos]

/-- every entry and every exit of a path in general position is reported -/
theorem intersect_catches {tol par : ℝ} (h0 : 0 < tol) (hpar : 0 < par) (s : Shape) : WF s → ∀ p v ts,
    Generic tol par s p v → intersect tol par s p v = .ok ts → CatchesAll s p v ts := by
  have invalid : ∀ (s : Shape) (p v : V3 ℝ) ts, isInvalidDirection v = true →
      CatchesAll s p v ts := by
    intro s p v ts hv t0 t1 _ hc
    rw [invalid_iff] at hv
    subst hv
    simp only [Changes, at_zero, not_true] at hc
  induction s using Shape.ind with
  | box X Y Z =>
    intro hw p v ts hg hi
    simp only [intersect, Except.ok.injEq] at hi
    cases hv : isInvalidDirection v with
    | true => exact invalid _ _ _ _ hv
    | false =>
      rcases hg with hm | ⟨hp, ha⟩
      · exact catches_misses hm
      · obtain ⟨a, b, _, he, hm⟩ := intersectBox_pierces hv hp ha
        rw [← hi, he]
        exact catches_interval hm
  | cyl R h =>
    intro hw p v ts hg hi
    simp only [intersect, Except.ok.injEq] at hi
    cases hv : isInvalidDirection v with
    | true => exact invalid _ _ _ _ hv
    | false =>
      rcases hg with hm | hp
      · exact catches_misses hm
      · obtain ⟨a, b, _, he, hm⟩ := intersectCylinder_pierces (tol := tol) hv hp
        rw [← hi, he]
        exact catches_interval hm
  | pyr X Y h =>
    intro hw p v ts hg hi
    simp only [intersect, Except.ok.injEq] at hi
    rcases hg with hm | ⟨hp, a1, a2, a3, a4, t0, t1, m0, m1, hlen⟩
    · exact catches_misses hm
    · by_cases hv : v = 0
      · exact invalid _ _ _ _ (invalid_iff.2 hv)
      · obtain ⟨a, b, _, he, hm⟩ := intersectPyramid_pierces h0 hpar hw.1 hw.2.1 hw.2.2 hv hp a1 a2
          a3 a4 m0 m1 hlen
        rw [← hi, he]
        exact catches_interval hm
  | cone R h => intro hw p v ts hg; exact absurd hg (by simp [Generic])
  | sph R =>
    intro hw p v ts hg hi
    simp only [intersect, Except.ok.injEq] at hi
    by_cases hv : v = 0
    · exact invalid _ _ _ _ (invalid_iff.2 hv)
    · rcases intersectSphere_spec (R := R) (p := p) hv with ⟨_, hm⟩ | ⟨a, b, _, he, hm⟩
      · exact catches_misses hm
      · rw [← hi, he]
        exact catches_interval hm
  | diff a b iha ihb =>
    intro hw p v ts hg hi
    obtain ⟨ua, ub, hua, hub, hts⟩ := intersect_difference hi
    simp only [Generic] at hg
    have hw' := hw
    simp only [WF] at hw'
    refine catches_comp h0 hw [a, b] ?_ ?_
    · intro q q' h
      simp only [List.mem_cons, List.not_mem_nil, or_false, forall_eq_or_imp, forall_eq] at h
      simp only [Mem, h.1, h.2]
    · intro s hs
      simp only [List.mem_cons, List.not_mem_nil, or_false] at hs
      rcases hs with rfl | rfl
      · exact ⟨ua, iha hw'.1 p v ua hg.1 hua, fun t ht hl => (hts t).2 ⟨.inl ht, hl⟩⟩
      · exact ⟨ub, ihb hw'.2 p v ub hg.2 hub, fun t ht hl => (hts t).2 ⟨.inr ht, hl⟩⟩
  | inter l ih =>
    intro hw p v ts hg hi
    obtain ⟨us, hus, rfl⟩ := intersect_intersection hi
    obtain ⟨h1, h2⟩ := gather_spec l us hus
    simp only [Generic, genericAll_iff] at hg
    have hw' := hw
    simp only [WF, wfAll_iff] at hw'
    refine catches_comp h0 hw l ?_ ?_
    · intro q q' h
      simp only [Mem, memAll_iff]
      constructor
      · exact fun hq s hs => (h s hs).1 (hq s hs)
      · exact fun hq s hs => (h s hs).2 (hq s hs)
    · intro s hs
      obtain ⟨u, hu⟩ := h1 s hs
      refine ⟨u, ih s hs (hw' s hs) p v u (hg s hs) hu, fun t ht hl => ?_⟩
      exact mem_sort.2 ((h2 t).2 ⟨⟨s, hs, u, hu, ht⟩, hl⟩)
  | union l ih =>
    intro hw p v ts hg hi
    obtain ⟨us, hus, rfl⟩ := intersect_union hi
    obtain ⟨h1, h2⟩ := gather_spec l us hus
    simp only [Generic, genericAll_iff] at hg
    have hw' := hw
    simp only [WF, wfAll_iff] at hw'
    refine catches_comp h0 hw l ?_ ?_
    · intro q q' h
      simp only [Mem, memAny_iff]
      constructor
      · rintro ⟨s, hs, hq⟩; exact ⟨s, hs, (h s hs).1 hq⟩
      · rintro ⟨s, hs, hq⟩; exact ⟨s, hs, (h s hs).2 hq⟩
    · intro s hs
      obtain ⟨u, hu⟩ := h1 s hs
      refine ⟨u, ih s hs (hw' s hs) p v u (hg s hs) hu, fun t ht hl => ?_⟩
      exact mem_sort.2 ((h2 t).2 ⟨⟨s, hs, u, hu, ht⟩, hl⟩)
  | dil b k ih =>
    intro hw p v ts hg hi
    simp only [WF] at hw
    rw [intersect] at hi
    simp only [Generic] at hg
    refine catches_congr (fun t => ?_) (ih hw.1 _ _ ts (hg _ _ ?_ ?_) hi)
    · rw [mem_dilation hw.2, at_smul]
    · rw [smul_inv_smul' hw.2]
    · rw [smul_inv_smul' hw.2]
  | refl b _ => intro hw; exact absurd hw (by simp [WF])
  | trans b w ih =>
    intro hw p v ts hg hi
    simp only [WF] at hw
    rw [intersect] at hi
    simp only [Generic] at hg
    refine catches_congr (fun t => ?_) (ih hw _ _ ts (hg _ (sub_add_self' p w).symm) hi)
    rw [mem_translation, at_sub]
  | rot b m ih =>
    intro hw p v ts hg hi
    simp only [WF] at hw
    rw [intersect] at hi
    simp only [Generic] at hg
    refine catches_congr (fun t => ?_) (ih hw.1 _ _ ts (hg _ _ ?_ ?_) hi)
    · rw [mem_rotation hw.2, at_mulVec]
    · rw [mulVec_transpose_mulVec hw.2]
    · rw [mulVec_transpose_mulVec hw.2]

end Verif.Solid
