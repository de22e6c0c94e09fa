import Verif.Lemmas.SolidComp
/-!
Helper lemmas: the reported times are times on a surface, in increasing order.
-/

namespace Verif.Solid

theorem mem_orderedPair {a b t : ℝ} : t ∈ orderedPair a b ↔ t = a ∨ t = b := by
  unfold orderedPair
  split <;> simp only [List.mem_cons, List.not_mem_nil, or_false]
  tauto

theorem orderedPair_sorted (a b : ℝ) : (orderedPair a b).Pairwise (· ≤ ·) := by
  unfold orderedPair
  split
  · rename_i h; simpa using h.le
  · rename_i h; simpa using not_lt.1 h

theorem mem_rectangle {rx ry rz vx vy vz X Y t : ℝ} (hv : vz ≠ 0)
    (h : t ∈ intersectRectangle rx ry rz vx vy vz X Y) :
    rz + t * vz = 0 ∧ |rx + t * vx| < X / 2 ∧ |ry + t * vy| < Y / 2 := by
  unfold intersectRectangle at h
  simp only at h
  split at h
  · rename_i h'
    simp only [List.mem_cons, List.not_mem_nil, or_false] at h
    subst h
    refine ⟨?_, ?_, ?_⟩
    · rw [div_mul_cancel₀ _ hv]; ring
    · rw [mul_comm]; exact h'.1
    · rw [mul_comm]; exact h'.2
  · simp at h

theorem mem_uniqueFrom {eq : ℝ → ℝ → Bool} {x t : ℝ} {l : List ℝ} (h : t ∈ uniqueFrom eq x l) :
    t ∈ l := by
  induction l generalizing x with
  | nil => simp [uniqueFrom] at h
  | cons a l ih =>
    rw [uniqueFrom] at h
    split at h
    · exact List.mem_cons_of_mem _ (ih h)
    · rcases List.mem_cons.1 h with rfl | h
      · simp
      · exact List.mem_cons_of_mem _ (ih h)

theorem mem_unique {eq : ℝ → ℝ → Bool} {t : ℝ} {l : List ℝ} (h : t ∈ unique eq l) : t ∈ l := by
  cases l with
  | nil => simp [unique] at h
  | cons a l =>
    rw [unique] at h
    rcases List.mem_cons.1 h with rfl | h
    · simp
    · exact List.mem_cons_of_mem _ (mem_uniqueFrom h)

theorem box_face {X Y Z ret : ℝ} (h0 : 0 < ret) {q : V3 ℝ}
    (h : (|q.z| = Z / 2 ∧ |q.x| < X / 2 ∧ |q.y| < Y / 2) ∨
      (|q.x| = X / 2 ∧ |q.y| < Y / 2 ∧ |q.z| < Z / 2) ∨
      (|q.y| = Y / 2 ∧ |q.z| < Z / 2 ∧ |q.x| < X / 2)) : locBox ret X Y Z q = .onborder := by
  unfold locBox
  rw [if_neg, if_pos]
  · rcases h with h | h | h
    · right; right; rw [h.1, sub_self, abs_zero]; exact h0
    · left; rw [h.1, sub_self, abs_zero]; exact h0
    · right; left; rw [h.1, sub_self, abs_zero]; exact h0
  · simp only [gt_iff_lt, not_or, not_lt]
    rcases h with h | h | h <;> refine ⟨?_, ?_, ?_⟩ <;> linarith [h.1, h.2.1, h.2.2]

theorem intersectBox_sound {X Y Z : ℝ} (hX : 0 < X) (hY : 0 < Y) (hZ : 0 < Z) {p v : V3 ℝ} {t : ℝ}
    (h : t ∈ intersectBox X Y Z p v) :
    (|(at' p v t).z| = Z / 2 ∧ |(at' p v t).x| < X / 2 ∧ |(at' p v t).y| < Y / 2) ∨
    (|(at' p v t).x| = X / 2 ∧ |(at' p v t).y| < Y / 2 ∧ |(at' p v t).z| < Z / 2) ∨
    (|(at' p v t).y| = Y / 2 ∧ |(at' p v t).z| < Z / 2 ∧ |(at' p v t).x| < X / 2) := by
  have face : ∀ {y z x vy vz vx Y Z X : ℝ}, 0 < X → t ∈ axisTimes y z x vy vz vx Y Z X →
      |x + t * vx| = X / 2 ∧ |y + t * vy| < Y / 2 ∧ |z + t * vz| < Z / 2 := by
    intro y z x vy vz vx Y Z X hX h
    unfold axisTimes at h
    split at h
    · rename_i hv
      rcases List.mem_append.1 h with h | h
      · obtain ⟨h1, h2, h3⟩ := mem_rectangle hv h
        refine ⟨?_, h2, h3⟩
        rw [show x + t * vx = X / 2 by linarith, abs_of_pos (by linarith)]
      · obtain ⟨h1, h2, h3⟩ := mem_rectangle hv h
        refine ⟨?_, h2, h3⟩
        rw [show x + t * vx = -(X / 2) by linarith, abs_neg, abs_of_pos (by linarith)]
    · simp at h
  cases hv : isInvalidDirection v with
  | true => unfold intersectBox at h; rw [if_pos hv] at h; simp at h
  | false =>
    rw [intersectBox_eq X Y Z p v hv] at h
    split at h
    · rename_i a b hl
      have hmem : t ∈ axisTimes p.x p.y p.z v.x v.y v.z X Y Z ++
          axisTimes p.y p.z p.x v.y v.z v.x Y Z X ++ axisTimes p.z p.x p.y v.z v.x v.y Z X Y := by
        rw [hl]; simpa using mem_orderedPair.1 h
      simp only [List.mem_append] at hmem
      simp only [at_x, at_y, at_z]
      rcases hmem with (hm | hm) | hm
      · exact .inl (face hZ hm)
      · exact .inr (.inl (face hX hm))
      · exact .inr (.inr (face hY hm))
    · simp at h

theorem mem_side {x y z vx vy vz r h t : ℝ} (hm : t ∈ intersectCylinderSide x y z vx vy vz r h) :
    rho2 x y vx vy t = r * r ∧ |z + t * vz| < h / 2 := by
  unfold intersectCylinderSide at hm
  simp only at hm
  have id : ∀ t, ((vx * vx + vy * vy) * t + (x * vx + y * vy)) *
      ((vx * vx + vy * vy) * t + (x * vx + y * vy)) =
      ((x * vx + y * vy) * (x * vx + y * vy) - (vx * vx + vy * vy) * (x * x + y * y - r * r)) +
      (vx * vx + vy * vy) * (rho2 x y vx vy t - r * r) := by
    intro t; simp only [rho2]; ring
  have root : (vx * vx + vy * vy) ≠ 0 → ((vx * vx + vy * vy) * t + (x * vx + y * vy)) *
      ((vx * vx + vy * vy) * t + (x * vx + y * vy)) =
      ((x * vx + y * vy) * (x * vx + y * vy) - (vx * vx + vy * vy) * (x * x + y * y - r * r)) →
      rho2 x y vx vy t = r * r := by
    intro ha h
    rw [id] at h
    have : (vx * vx + vy * vy) * (rho2 x y vx vy t - r * r) = 0 := by linarith
    rcases mul_eq_zero.1 this with h | h
    · exact absurd h ha
    · linarith
  split at hm
  · simp at hm
  · rename_i hk
    rw [not_lt] at hk
    split at hm
    · rename_i hk0
      split at hm
      · simp at hm
      · rename_i ha
        split at hm
        · rename_i hz
          simp only [List.mem_cons, List.not_mem_nil, or_false] at hm
          subst hm
          refine ⟨root ha ?_, by rw [mul_comm]; exact hz⟩
          rw [hk0, mul_div_cancel₀ _ ha]; ring
        · simp at hm
    · rename_i hk0
      have ha : vx * vx + vy * vy ≠ 0 := by
        intro ha
        have h1 : vx = 0 := by nlinarith [mul_self_nonneg vx, mul_self_nonneg vy]
        have h2 : vy = 0 := by nlinarith [mul_self_nonneg vx, mul_self_nonneg vy]
        apply hk0; rw [h1, h2]; ring
      have hs := Real.mul_self_sqrt hk
      rcases List.mem_append.1 hm with hm | hm
      · split at hm
        · rename_i hz
          simp only [List.mem_cons, List.not_mem_nil, or_false] at hm
          subst hm
          refine ⟨root ha ?_, by rw [mul_comm]; exact hz⟩
          rw [mul_div_cancel₀ _ ha]; linear_combination hs
        · simp at hm
      · split at hm
        · rename_i hz
          simp only [List.mem_cons, List.not_mem_nil, or_false] at hm
          subst hm
          refine ⟨root ha ?_, by rw [mul_comm]; exact hz⟩
          rw [mul_div_cancel₀ _ ha]; linear_combination hs
        · simp at hm

theorem mem_cap {x y z vx vy vz r h t : ℝ} (hh : 0 < h)
    (hm : t ∈ intersectCylinderTopBottom x y z vx vy vz r h) :
    |z + t * vz| = h / 2 ∧ rho2 x y vx vy t ≤ r * r := by
  unfold intersectCylinderTopBottom at hm
  simp only at hm
  split at hm
  · simp at hm
  · rename_i hv
    rcases List.mem_append.1 hm with hm | hm
    · split at hm
      · rename_i hz
        simp only [List.mem_cons, List.not_mem_nil, or_false] at hm
        rw [← hm] at hz
        refine ⟨?_, by simpa only [rho2, mul_comm vx, mul_comm vy] using hz⟩
        rw [hm, div_mul_cancel₀ _ hv, add_sub_cancel, abs_of_pos (by linarith)]
      · simp at hm
    · split at hm
      · rename_i hz
        simp only [List.mem_cons, List.not_mem_nil, or_false] at hm
        rw [← hm] at hz
        refine ⟨?_, by simpa only [rho2, mul_comm vx, mul_comm vy] using hz⟩
        rw [hm, div_mul_cancel₀ _ hv, add_sub_cancel, abs_neg, abs_of_pos (by linarith)]
      · simp at hm

theorem mem_cylinder_parts {tol R h : ℝ} {p v : V3 ℝ} {t : ℝ}
    (hm : t ∈ intersectCylinder tol R h p v) :
    t ∈ intersectCylinderSide p.x p.y p.z v.x v.y v.z R h ∨
    t ∈ intersectCylinderTopBottom p.x p.y p.z v.x v.y v.z R h := by
  unfold intersectCylinder at hm
  split at hm
  · simp at hm
  · simp only at hm
    rw [← List.mem_append]
    split at hm
    · simp at hm
    · simp at hm
    · rename_i a b hl
      rw [hl]; simpa using mem_orderedPair.1 hm
    · split at hm
      · rename_i hu
        apply mem_unique (eq := eqEps tol)
        rw [hu]; simpa using mem_orderedPair.1 hm
      · simp at hm

theorem intersectCylinder_sound {tol R h : ℝ} (hh : 0 < h) {p v : V3 ℝ} {t : ℝ}
    (hm : t ∈ intersectCylinder tol R h p v) :
    (rho2 p.x p.y v.x v.y t = R * R ∧ |(at' p v t).z| < h / 2) ∨
    (|(at' p v t).z| = h / 2 ∧ rho2 p.x p.y v.x v.y t ≤ R * R) := by
  rcases mem_cylinder_parts hm with hm | hm
  · exact .inl (mem_side hm)
  · exact .inr (mem_cap hh hm)

theorem cylinder_onborder {ret R h : ℝ} (h0 : 0 < ret) (hR : 0 < R) {q : V3 ℝ}
    (hq : (q.x * q.x + q.y * q.y = R * R ∧ |q.z| < h / 2) ∨
      (|q.z| = h / 2 ∧ q.x * q.x + q.y * q.y ≤ R * R)) : locCylinder ret R h q = .onborder := by
  have hle : q.x * q.x + q.y * q.y ≤ R * R := by rcases hq with h | h <;> linarith [h.1, h.2]
  have hsq : √(q.x * q.x + q.y * q.y) ≤ R := by
    rw [Real.sqrt_le_left hR.le]; linarith [hle, pow_two R]
  unfold locCylinder
  rw [if_neg (by rcases hq with h | h <;> linarith [h.1, h.2])]
  simp only
  rw [if_neg (by linarith), if_neg]
  rintro ⟨h1, h2⟩
  rcases hq with hq | hq
  · rw [hq.1, Real.sqrt_mul_self hR.le] at h2; linarith
  · linarith [hq.1]

theorem intersectSphere_sound {R : ℝ} {p v : V3 ℝ} {t : ℝ} (hm : t ∈ intersectSphere R p v) :
    (at' p v t).x * (at' p v t).x + (at' p v t).y * (at' p v t).y +
      (at' p v t).z * (at' p v t).z = R * R := by
  unfold intersectSphere at hm
  split at hm
  · simp at hm
  · rename_i hv
    rw [invalid_iff] at hv
    have hpos := dot_self_pos hv
    simp only at hm
    split at hm
    · simp at hm
    · rename_i hD
      rw [not_lt] at hD
      have hs := Real.mul_self_sqrt hD
      have id := sphere_id R p v t
      have h2 : (v.dot v * t + p.dot v) * (v.dot v * t + p.dot v) =
          v.dot v * R * R - (p.cross v).dot (p.cross v) := by
        simp only [List.mem_cons, List.not_mem_nil, or_false] at hm
        rcases hm with hm | hm
        · rw [hm, mul_div_cancel₀ _ hpos.ne']; linear_combination hs
        · rw [hm, mul_div_cancel₀ _ hpos.ne']; linear_combination hs
      rw [h2, sub_self] at id
      rcases mul_eq_zero.1 id.symm with h | h
      · exact absurd h hpos.ne'
      · simp only [at_x, at_y, at_z]; linarith

theorem normalize_eq (v : V3 ℝ) : normalize v = (1 / length v) • v := by
  apply V3.ext <;> simp [normalize] <;> ring

theorem length_ne {v : V3 ℝ} (hv : v ≠ 0) : length v ≠ 0 := by
  have := dot_self_pos hv
  unfold length
  rw [Real.sqrt_ne_zero']
  simp only [V3.dot] at this
  simp only [V3.length2]
  linarith

/-- a time reported for a triangle with a corner at the origin: the point is a convex
combination of the corners -/
theorem mem_triangle {par : ℝ} (hpar : 0 < par) {r d B C : V3 ℝ} (hM : B.cross C ≠ 0) {t : ℝ}
    (h : t ∈ intersectTriangle par r d ⟨0, 0, 0⟩ B C) :
    ∃ c1 c2 : ℝ, 0 ≤ c1 ∧ 0 ≤ c2 ∧ c1 + c2 ≤ 1 ∧ at' r d t = c1 • B + c2 • C := by
  have e0 : ∀ q : V3 ℝ, q - ⟨0, 0, 0⟩ = q := fun q => by apply V3.ext <;> simp
  unfold intersectTriangle at h
  simp only [e0, normalize_eq] at h
  have hl := length_ne hM
  have hMM := (dot_self_pos hM).ne'
  obtain ⟨M, hMdef⟩ : ∃ M, B.cross C = M := ⟨_, rfl⟩
  obtain ⟨L, hLdef⟩ : ∃ L, length M = L := ⟨_, rfl⟩
  rw [hMdef] at h hl hMM
  rw [hLdef] at h hl
  split at h
  · simp at h
  · rename_i hvp
    rw [not_lt] at hvp
    have hvp0 : ((1 / L) • M).dot d ≠ 0 := by
      intro h0; rw [h0, abs_zero] at hvp; linarith
    split at h
    · simp at h
    · rename_i hc1
      split at h
      · simp at h
      · rename_i hc2
        split at h
        · simp at h
        · rename_i hc3
          simp only [List.mem_cons, List.not_mem_nil, or_false] at h
          rw [← h] at hc1 hc2 hc3
          rw [not_lt] at hc1 hc2 hc3
          have hMd : M.dot d ≠ 0 := by
            intro h0
            apply hvp0
            simp only [V3.dot, V3.smul_x, V3.smul_y, V3.smul_z] at h0 ⊢
            linear_combination (1 / L) * h0
          have hMP : M.dot (at' r d t) = 0 := by
            have hN : ((1 / L) • M).dot d * t = ((1 / L) • M).dot ⟨0, 0, 0⟩ - ((1 / L) • M).dot r := by
              rw [h, mul_div_cancel₀ _ hvp0]
            simp only [V3.dot, V3.smul_x, V3.smul_y, V3.smul_z, at_x, at_y, at_z] at hN ⊢
            have hL : L * (1 / L) = 1 := mul_one_div_cancel hl
            linear_combination L * hN + (M.x * r.x + M.y * r.y + M.z * r.z +
              t * (M.x * d.x + M.y * d.y + M.z * d.z)) * (-hL)
          change 0 ≤ (at' r d t).dot _ / _ at hc1
          change 0 ≤ (at' r d t).dot _ / _ at hc2
          change (at' r d t).dot _ / _ + (at' r d t).dot _ / _ ≤ 1 at hc3
          generalize at' r d t = P at *
          have e1 : P.dot (((1 / L) • M).cross C) / B.dot (((1 / L) • M).cross C) =
              M.dot (P.cross C) / M.dot M := by
            have a1 : P.dot (((1 / L) • M).cross C) = (-1 / L) * M.dot (P.cross C) := by
              simp only [V3.dot, V3.cross, V3.smul_x, V3.smul_y, V3.smul_z]; ring
            have a2 : B.dot (((1 / L) • M).cross C) = (-1 / L) * M.dot M := by
              rw [← hMdef]
              simp only [V3.dot, V3.cross, V3.smul_x, V3.smul_y, V3.smul_z]; ring
            rw [a1, a2, mul_div_mul_left _ _ (div_ne_zero (by norm_num) hl)]
          have e2 : P.dot (((1 / L) • M).cross B) / C.dot (((1 / L) • M).cross B) =
              M.dot (B.cross P) / M.dot M := by
            have a1 : P.dot (((1 / L) • M).cross B) = (1 / L) * M.dot (B.cross P) := by
              simp only [V3.dot, V3.cross, V3.smul_x, V3.smul_y, V3.smul_z]; ring
            have a2 : C.dot (((1 / L) • M).cross B) = (1 / L) * M.dot M := by
              rw [← hMdef]
              simp only [V3.dot, V3.cross, V3.smul_x, V3.smul_y, V3.smul_z]; ring
            rw [a1, a2, mul_div_mul_left _ _ (div_ne_zero one_ne_zero hl)]
          rw [e1] at hc1 hc3
          rw [e2] at hc2 hc3
          refine ⟨_, _, hc1, hc2, hc3, ?_⟩
          have key : ∀ a b c m : ℝ, M.dot M * a = M.dot (P.cross C) * b + M.dot (B.cross P) * c →
              a = M.dot (P.cross C) / M.dot M * b + M.dot (B.cross P) / M.dot M * c := by
            intro a b c _ h
            field_simp
            linarith
          apply V3.ext
          · rw [V3.add_x, V3.smul_x, V3.smul_x]
            refine key _ _ _ 0 ?_
            rw [← hMdef] at hMP ⊢
            simp only [V3.dot, V3.cross] at hMP ⊢
            linear_combination (B.y * C.z - B.z * C.y) * hMP
          · rw [V3.add_y, V3.smul_y, V3.smul_y]
            refine key _ _ _ 0 ?_
            rw [← hMdef] at hMP ⊢
            simp only [V3.dot, V3.cross] at hMP ⊢
            linear_combination (B.z * C.x - B.x * C.z) * hMP
          · rw [V3.add_z, V3.smul_z, V3.smul_z]
            refine key _ _ _ 0 ?_
            rw [← hMdef] at hMP ⊢
            simp only [V3.dot, V3.cross] at hMP ⊢
            linear_combination (B.x * C.y - B.y * C.x) * hMP

/-- what a point of the surface of a pyramid satisfies -/
def OnPyramid (X Y h : ℝ) (q : V3 ℝ) : Prop :=
  -h ≤ q.z ∧ q.z ≤ 0 ∧ |q.x| ≤ (-q.z / h) * X / 2 ∧ |q.y| ≤ (-q.z / h) * Y / 2 ∧
    (q.z = -h ∨ |q.x| = (-q.z / h) * X / 2 ∨ |q.y| = (-q.z / h) * Y / 2)

theorem pyramid_onborder {ret X Y h : ℝ} (h0 : 0 < ret) {q : V3 ℝ} (hq : OnPyramid X Y h q) :
    locPyramid ret X Y h q = .onborder := by
  obtain ⟨h1, h2, h3, h4, h5⟩ := hq
  unfold locPyramid
  rw [if_neg (by rw [not_or]; constructor <;> linarith)]
  simp only
  rw [if_neg (by rw [not_or]; constructor <;> linarith)]
  split
  · rename_i hz
    rw [if_neg]
    rintro ⟨h6, h7⟩
    rcases h5 with h5 | h5 | h5 <;> linarith [hz.2]
  · rfl

theorem at_div (p v : V3 ℝ) (t l : ℝ) : at' p v (t / l) = at' p ((1 / l) • v) t := by
  apply V3.ext <;> simp [at'] <;> ring

/-- the times collected by the visitor of the pyramid for a normalised direction,
`ArrowIntersector.cc:306-333` -/
noncomputable def pyrTimes (par X Y H : ℝ) (p d : V3 ℝ) : List ℝ :=
  open Classical in
  (if d.z ≠ 0 then intersectRectangle p.x p.y (p.z + H) d.x d.y d.z X Y else []) ++
    intersectTriangle par p d ⟨0, 0, 0⟩ ⟨X / 2, Y / 2, -H⟩ ⟨X / 2, -Y / 2, -H⟩ ++
    intersectTriangle par p d ⟨0, 0, 0⟩ ⟨X / 2, -Y / 2, -H⟩ ⟨-X / 2, -Y / 2, -H⟩ ++
    intersectTriangle par p d ⟨0, 0, 0⟩ ⟨-X / 2, -Y / 2, -H⟩ ⟨-X / 2, Y / 2, -H⟩ ++
    intersectTriangle par p d ⟨0, 0, 0⟩ ⟨-X / 2, Y / 2, -H⟩ ⟨X / 2, Y / 2, -H⟩

theorem pyrTimes_sound {par X Y H : ℝ} (hpar : 0 < par) (hX : 0 < X) (hY : 0 < Y)
    (hH : 0 < H) {p d : V3 ℝ} {t' : ℝ} (hmem : t' ∈ pyrTimes par X Y H p d) :
    OnPyramid X Y H (at' p d t') := by
  unfold pyrTimes at hmem
  simp only [List.mem_append] at hmem
  have ratio : ∀ c1 c2 : ℝ, -(c1 * -H + c2 * -H) / H = c1 + c2 := by
    intro c1 c2; field_simp; ring
  have hXY := mul_pos hX hY
  rcases hmem with (((hm | hm) | hm) | hm) | hm
  · split at hm
    · rename_i hd
      obtain ⟨h1, h2, h3⟩ := mem_rectangle hd hm
      have hz : (at' p d t').z = -H := by rw [at_z]; linarith
      have hr : -(at' p d t').z / H = 1 := by rw [hz, neg_neg, div_self hH.ne']
      refine ⟨hz.ge, by linarith, ?_, ?_, .inl hz⟩
      · rw [hr, one_mul]; exact h2.le
      · rw [hr, one_mul]; exact h3.le
    · simp at hm
  · obtain ⟨c1, c2, h1, h2, h3, he⟩ := mem_triangle hpar (by
      intro h; have := congrArg V3.z h; simp [V3.cross] at this; nlinarith) hm
    rw [he]
    simp only [OnPyramid, V3.add_x, V3.add_y, V3.add_z, V3.smul_x, V3.smul_y, V3.smul_z, ratio]
    refine ⟨by nlinarith, by nlinarith, ?_, ?_, .inr (.inl ?_)⟩
    · rw [abs_of_nonneg (by positivity)]; linarith
    · rw [abs_le]; constructor <;> nlinarith
    · rw [abs_of_nonneg (by positivity)]; ring
  · obtain ⟨c1, c2, h1, h2, h3, he⟩ := mem_triangle hpar (by
      intro h; have := congrArg V3.z h; simp [V3.cross] at this; nlinarith) hm
    rw [he]
    simp only [OnPyramid, V3.add_x, V3.add_y, V3.add_z, V3.smul_x, V3.smul_y, V3.smul_z, ratio]
    refine ⟨by nlinarith, by nlinarith, ?_, ?_, .inr (.inr ?_)⟩
    · rw [abs_le]; constructor <;> nlinarith
    · rw [abs_of_nonpos (by nlinarith)]; linarith
    · rw [abs_of_nonpos (by nlinarith)]; ring
  · obtain ⟨c1, c2, h1, h2, h3, he⟩ := mem_triangle hpar (by
      intro h; have := congrArg V3.z h; simp [V3.cross] at this; nlinarith) hm
    rw [he]
    simp only [OnPyramid, V3.add_x, V3.add_y, V3.add_z, V3.smul_x, V3.smul_y, V3.smul_z, ratio]
    refine ⟨by nlinarith, by nlinarith, ?_, ?_, .inr (.inl ?_)⟩
    · rw [abs_of_nonpos (by nlinarith)]; linarith
    · rw [abs_le]; constructor <;> nlinarith
    · rw [abs_of_nonpos (by nlinarith)]; ring
  · obtain ⟨c1, c2, h1, h2, h3, he⟩ := mem_triangle hpar (by
      intro h; have := congrArg V3.z h; simp [V3.cross] at this; nlinarith) hm
    rw [he]
    simp only [OnPyramid, V3.add_x, V3.add_y, V3.add_z, V3.smul_x, V3.smul_y, V3.smul_z, ratio]
    refine ⟨by nlinarith, by nlinarith, ?_, ?_, .inr (.inr ?_)⟩
    · rw [abs_le]; constructor <;> nlinarith
    · rw [abs_of_nonneg (by positivity)]; linarith
    · rw [abs_of_nonneg (by positivity)]; ring

theorem intersectPyramid_eq (tol par X Y H : ℝ) (p : V3 ℝ) {v : V3 ℝ} (hv : v ≠ 0) :
    intersectPyramid tol par X Y H p v =
      (match unique (eqEps tol) (sort (pyrTimes par X Y H p ((1 / length v) • v))) with
       | [a, b] => orderedPair (a / length v) (b / length v)
       | _ => []) := by
  unfold intersectPyramid
  rw [if_neg (by rw [invalid_iff]; exact hv)]
  rfl

theorem intersectPyramid_sound {tol par X Y H : ℝ} (hpar : 0 < par) (hX : 0 < X) (hY : 0 < Y)
    (hH : 0 < H) {p v : V3 ℝ} {t : ℝ} (hm : t ∈ intersectPyramid tol par X Y H p v) :
    OnPyramid X Y H (at' p v t) := by
  by_cases hv : v = 0
  · unfold intersectPyramid at hm
    rw [if_pos (invalid_iff.2 hv)] at hm
    simp at hm
  · rw [intersectPyramid_eq tol par X Y H p hv] at hm
    split at hm
    · rename_i a b hu
      have : ∃ t', t = t' / length v ∧ t' ∈ [a, b] := by
        rcases mem_orderedPair.1 hm with h | h
        · exact ⟨a, h, by simp⟩
        · exact ⟨b, h, by simp⟩
      obtain ⟨t', rfl, hab⟩ := this
      rw [← hu] at hab
      rw [at_div]
      exact pyrTimes_sound hpar hX hY hH (mem_sort.1 (mem_unique hab))
    · simp at hm

theorem coneFreeAll_iff (l : List Shape) : ConeFreeAll l ↔ ∀ s ∈ l, ConeFree s := by
  induction l with
  | nil => simp [ConeFreeAll]
  | cons a l ih => simp [ConeFreeAll, ih]

/-- every reported time is a time at which the point is located on the border -/
theorem intersect_onborder {tol par : ℝ} (h0 : 0 < tol) (hpar : 0 < par) (s : Shape) : WF s →
    ConeFree s → ∀ p v ts, intersect tol par s p v = .ok ts → ∀ t ∈ ts,
      locate tol s (at' p v t) = .ok .onborder := by
  induction s using Shape.ind with
  | box X Y Z =>
    intro hw _ p v ts hi t ht
    simp only [intersect, Except.ok.injEq] at hi
    subst hi
    rw [locate, box_face h0 (intersectBox_sound hw.1 hw.2.1 hw.2.2 ht)]
  | cyl R h =>
    intro hw _ p v ts hi t ht
    simp only [intersect, Except.ok.injEq] at hi
    subst hi
    rw [locate, cylinder_onborder (q := at' p v t) h0 hw.1 (intersectCylinder_sound hw.2 ht)]
  | pyr X Y h =>
    intro hw _ p v ts hi t ht
    simp only [intersect, Except.ok.injEq] at hi
    subst hi
    rw [locate, pyramid_onborder h0 (intersectPyramid_sound hpar hw.1 hw.2.1 hw.2.2 ht)]
  | cone R h => intro _ hc; exact absurd hc (by simp [ConeFree])
  | sph R =>
    intro hw _ p v ts hi t ht
    simp only [intersect, Except.ok.injEq] at hi
    subst hi
    have := intersectSphere_sound ht
    rw [locate, locSphere, this, sub_self, if_neg (not_lt.2 h0.le), if_neg (not_lt.2 h0.le)]
  | diff a b _ _ =>
    intro _ _ p v ts hi t ht
    obtain ⟨_, _, _, _, h⟩ := intersect_difference hi
    exact ((h t).1 ht).2
  | inter l _ =>
    intro _ _ p v ts hi t ht
    obtain ⟨us, hus, rfl⟩ := intersect_intersection hi
    exact (((gather_spec l us hus).2 t).1 (mem_sort.1 ht)).2
  | union l _ =>
    intro _ _ p v ts hi t ht
    obtain ⟨us, hus, rfl⟩ := intersect_union hi
    exact (((gather_spec l us hus).2 t).1 (mem_sort.1 ht)).2
  | dil b k ih =>
    intro hw hc p v ts hi t ht
    simp only [WF] at hw
    simp only [ConeFree] at hc
    rw [intersect] at hi
    rw [locate, at_smul]
    exact ih hw.1 hc _ _ ts hi t ht
  | refl b _ => intro hw; exact absurd hw (by simp [WF])
  | trans b w ih =>
    intro hw hc p v ts hi t ht
    simp only [WF] at hw
    simp only [ConeFree] at hc
    rw [intersect] at hi
    rw [locate, at_sub]
    exact ih hw hc _ _ ts hi t ht
  | rot b m ih =>
    intro hw hc p v ts hi t ht
    simp only [WF] at hw
    simp only [ConeFree] at hc
    rw [intersect] at hi
    rw [locate, at_mulVec]
    exact ih hw.1 hc _ _ ts hi t ht

theorem intersectSphere_sorted (R : ℝ) (p v : V3 ℝ) :
    (intersectSphere R p v).Pairwise (· ≤ ·) := by
  by_cases hv : v = 0
  · unfold intersectSphere; rw [if_pos (invalid_iff.2 hv)]; exact List.Pairwise.nil
  · rcases intersectSphere_spec (R := R) (p := p) hv with ⟨h, _⟩ | ⟨a, b, hab, h, _⟩
    · rw [h]; exact List.Pairwise.nil
    · rw [h]; simpa using hab

/-- the times are reported in increasing order -/
theorem intersect_sorted {tol par : ℝ} (s : Shape) : ∀ p v ts,
    intersect tol par s p v = .ok ts → ts.Pairwise (· ≤ ·) := by
  induction s using Shape.ind with
  | box X Y Z =>
    intro p v ts hi
    simp only [intersect, Except.ok.injEq] at hi
    subst hi
    unfold intersectBox
    split
    · exact List.Pairwise.nil
    · simp only
      split
      · exact orderedPair_sorted _ _
      · exact List.Pairwise.nil
  | cyl R h =>
    intro p v ts hi
    simp only [intersect, Except.ok.injEq] at hi
    subst hi
    unfold intersectCylinder
    split
    · exact List.Pairwise.nil
    · simp only
      split
      · exact List.Pairwise.nil
      · exact List.Pairwise.nil
      · exact orderedPair_sorted _ _
      · split
        · exact orderedPair_sorted _ _
        · exact List.Pairwise.nil
  | pyr X Y h =>
    intro p v ts hi
    simp only [intersect, Except.ok.injEq] at hi
    subst hi
    unfold intersectPyramid
    split
    · exact List.Pairwise.nil
    · simp only
      split
      · exact orderedPair_sorted _ _
      · exact List.Pairwise.nil
  | cone R h =>
    intro p v ts hi
    simp only [intersect, Except.ok.injEq] at hi
    subst hi
    unfold intersectCone
    split
    · exact List.Pairwise.nil
    · simp only
      split
      · exact orderedPair_sorted _ _
      · exact orderedPair_sorted _ _
      · exact List.Pairwise.nil
  | sph R =>
    intro p v ts hi
    simp only [intersect, Except.ok.injEq] at hi
    subst hi
    exact intersectSphere_sorted R p v
  | diff a b _ _ =>
    intro p v ts hi
    rw [intersect] at hi
    simp only [bind, Except.bind] at hi
    split at hi
    · simp at hi
    · split at hi
      · simp at hi
      · split at hi
        · simp at hi
        · split at hi
          · simp at hi
          · cases hi; exact sort_sorted _
  | inter l _ =>
    intro p v ts hi
    obtain ⟨us, hus, rfl⟩ := intersect_intersection hi
    exact sort_sorted _
  | union l _ =>
    intro p v ts hi
    obtain ⟨us, hus, rfl⟩ := intersect_union hi
    exact sort_sorted _
  | dil b k ih => intro p v ts hi; rw [intersect] at hi; exact ih _ _ ts hi
  | refl b _ => intro p v ts hi; rw [intersect] at hi; simp at hi
  | trans b w ih => intro p v ts hi; rw [intersect] at hi; exact ih _ _ ts hi
  | rot b m ih => intro p v ts hi; rw [intersect] at hi; exact ih _ _ ts hi

/-- no exception for shapes that make sense -/
theorem intersect_total (tol par : ℝ) (s : Shape) : WF s → ∀ p v,
    ∃ ts, intersect tol par s p v = .ok ts := by
  have keep : ∀ (c : Shape), WF c → ∀ p v us, ∃ ks, keepOnBorder tol c p v us = .ok ks := by
    intro c hc p v us
    induction us with
    | nil => exact ⟨[], rfl⟩
    | cons a l ih =>
      obtain ⟨ks, hk⟩ := ih
      obtain ⟨r, hr⟩ := locate_total tol c hc (p + a • v)
      refine ⟨if r = .onborder then a :: ks else ks, ?_⟩
      rw [keepOnBorder, hr, hk]
      rfl
  have gath : ∀ (l : List Shape) (c : Shape), WF c →
      (∀ s ∈ l, ∀ p v, ∃ ts, intersect tol par s p v = .ok ts) →
      ∀ p v, ∃ ts, gather tol par l c p v = .ok ts := by
    intro l c hc h p v
    induction l with
    | nil => exact ⟨[], by rw [gather]⟩
    | cons a l ih =>
      obtain ⟨rest, hr⟩ := ih (fun s hs => h s (by simp [hs]))
      obtain ⟨us, hu⟩ := h a (by simp) p v
      obtain ⟨ks, hk⟩ := keep c hc p v us
      refine ⟨ks ++ rest, ?_⟩
      rw [gather, hu]
      simp only [bind, Except.bind, hk, hr]
  induction s using Shape.ind with
  | box X Y Z => intro _ p v; exact ⟨_, by rw [intersect]⟩
  | cyl R h => intro _ p v; exact ⟨_, by rw [intersect]⟩
  | pyr X Y h => intro _ p v; exact ⟨_, by rw [intersect]⟩
  | cone R h => intro _ p v; exact ⟨_, by rw [intersect]⟩
  | sph R => intro _ p v; exact ⟨_, by rw [intersect]⟩
  | diff a b iha ihb =>
    intro hw p v
    have hw' := hw
    simp only [WF] at hw'
    obtain ⟨ua, hua⟩ := iha hw'.1 p v
    obtain ⟨ub, hub⟩ := ihb hw'.2 p v
    obtain ⟨ka, hka⟩ := keep _ hw p v ua
    obtain ⟨kb, hkb⟩ := keep _ hw p v ub
    refine ⟨sort (ka ++ kb), ?_⟩
    rw [intersect, hua]
    simp only [bind, Except.bind, hka, hub, hkb]
  | inter l ih =>
    intro hw p v
    have hw' := hw
    simp only [WF, wfAll_iff] at hw'
    obtain ⟨ts, hts⟩ := gath l _ hw (fun s hs => ih s hs (hw' s hs)) p v
    refine ⟨sort ts, ?_⟩
    rw [intersect, hts]
    rfl
  | union l ih =>
    intro hw p v
    have hw' := hw
    simp only [WF, wfAll_iff] at hw'
    obtain ⟨ts, hts⟩ := gath l _ hw (fun s hs => ih s hs (hw' s hs)) p v
    refine ⟨sort ts, ?_⟩
    rw [intersect, hts]
    rfl
  | dil b k ih =>
    intro hw p v; simp only [WF] at hw; rw [intersect]; exact ih hw.1 _ _
  | refl b _ => intro hw; exact absurd hw (by simp [WF])
  | trans b w ih => intro hw p v; simp only [WF] at hw; rw [intersect]; exact ih hw _ _
  | rot b m ih => intro hw p v; simp only [WF] at hw; rw [intersect]; exact ih hw.1 _ _

end Verif.Solid
