import Verif.Spec.Lattice
import Verif.Lemmas.Table
import Verif.Lemmas.Kinem
import Mathlib.Tactic.LinearCombination
/-!
Lemmas about lattices and dispersions.
-/

namespace Verif.Lattice
open Table Kinem

/-- volume of the cell -/
noncomputable def vol (x y z : V3 ℝ) : ℝ := x.dot (y.cross z)

theorem inversions_some {x y z a b c : V3 ℝ} (h : inversions x y z = some (a, b, c)) :
    vol x y z ≠ 0 ∧ a = (1 / vol x y z) • y.cross z ∧ b = (1 / vol x y z) • z.cross x ∧
      c = (1 / vol x y z) • x.cross y := by
  unfold inversions at h
  simp only [Option.bind_eq_bind, Option.bind_eq_some_iff] at h
  obtain ⟨s, hs, h⟩ := h
  obtain ⟨h1, rfl⟩ := divD_some hs
  simp only [Option.some.injEq, Prod.mk.injEq] at h
  exact ⟨h1, h.1.symm, h.2.1.symm, h.2.2.symm⟩

theorem inversions_ok {x y z : V3 ℝ} (h : vol x y z ≠ 0) :
    inversions x y z = some ((1 / vol x y z) • y.cross z, (1 / vol x y z) • z.cross x,
      (1 / vol x y z) • x.cross y) := by
  unfold inversions
  simp only [divD_ok (show V3.dot x (V3.cross y z) ≠ 0 from h)]
  rfl

theorem dual_of_some {x y z a b c : V3 ℝ} (h : inversions x y z = some (a, b, c)) : Dual x y z a b c := by
  obtain ⟨hv, rfl, rfl, rfl⟩ := inversions_some h
  obtain ⟨t, ht⟩ : ∃ t, t = 1 / vol x y z := ⟨_, rfl⟩
  have hs : t * vol x y z = 1 := by rw [ht]; exact one_div_mul_cancel hv
  rw [← ht]
  simp only [vol, V3.dot, V3.cross] at hs
  simp only [Dual, V3.dot, V3.cross, V3.smul_x, V3.smul_y, V3.smul_z]
  refine ⟨?_, by ring, by ring, by ring, ?_, by ring, by ring, by ring, ?_⟩ <;> linear_combination hs

theorem vol_eq_of_dual {x y z a b c : V3 ℝ} (h : Dual x y z a b c) : vol x y z * vol a b c = 1 := by
  obtain ⟨h1, h2, h3, h4, h5, h6, h7, h8, h9⟩ := h
  -- determinant of the matrix of scalar products
  have e : vol x y z * vol a b c =
      a.dot x * (b.dot y * c.dot z - b.dot z * c.dot y) - a.dot y * (b.dot x * c.dot z - b.dot z * c.dot x)
        + a.dot z * (b.dot x * c.dot y - b.dot y * c.dot x) := by
    simp only [vol, V3.dot, V3.cross]; ring
  rw [e, h1, h2, h3, h4, h5, h6, h7, h8, h9]; ring

theorem vol_ne_of_independent {x y z : V3 ℝ} (h : Independent x y z) : vol x y z ≠ 0 := by
  intro hv
  -- the vectors a × b of a degenerate triple give a linear relation
  have key : ∀ u : V3 ℝ, (u.dot (y.cross z)) • x + (u.dot (z.cross x)) • y + (u.dot (x.cross y)) • z
      = vol x y z • u := by
    intro u
    ext <;> simp only [vol, V3.dot, V3.cross, V3.add_x, V3.add_y, V3.add_z, V3.smul_x, V3.smul_y, V3.smul_z] <;>
      ring
  have k2 := fun u => h _ _ _ ((key u).trans (by rw [hv]; ext <;> simp))
  have kx : x.cross y = 0 := by
    ext
    · simpa [V3.dot] using (k2 ⟨1, 0, 0⟩).2.2
    · simpa [V3.dot] using (k2 ⟨0, 1, 0⟩).2.2
    · simpa [V3.dot] using (k2 ⟨0, 0, 1⟩).2.2
  -- x and y are parallel
  have r1 := congrArg V3.x kx
  have r2 := congrArg V3.y kx
  have r3 := congrArg V3.z kx
  simp only [V3.cross, V3.zero_x, V3.zero_y, V3.zero_z] at r1 r2 r3
  have p1 := h y.x (-x.x) 0 (by
    ext <;> simp <;> linarith)
  have p2 := h y.y (-x.y) 0 (by
    ext <;> simp <;> linarith)
  have p3 := h y.z (-x.z) 0 (by
    ext <;> simp <;> linarith)
  have p4 := h 1 0 0 (by
    have a1 : x.x = 0 := by linarith [p1.2.1]
    have a2 : x.y = 0 := by linarith [p2.2.1]
    have a3 : x.z = 0 := by linarith [p3.2.1]
    ext <;> simp [a1, a2, a3])
  exact one_ne_zero p4.1

theorem independent_of_dual {x y z a b c : V3 ℝ} (h : Dual x y z a b c) : Independent x y z := by
  obtain ⟨h1, h2, h3, h4, h5, h6, h7, h8, h9⟩ := h
  intro p q r hp
  have lin : ∀ u : V3 ℝ, p * u.dot x + q * u.dot y + r * u.dot z = 0 := by
    intro u
    have : u.dot (p • x + q • y + r • z) = 0 := by rw [hp]; simp [V3.dot]
    simp only [V3.dot, V3.add_x, V3.add_y, V3.add_z, V3.smul_x, V3.smul_y, V3.smul_z] at this ⊢
    linarith
  have la := lin a
  have lb := lin b
  have lc := lin c
  rw [h1, h2, h3] at la
  rw [h4, h5, h6] at lb
  rw [h7, h8, h9] at lc
  exact ⟨by linarith, by linarith, by linarith⟩

/-- a dual triple is given by the cross products -/
theorem eq_of_dual {x y z a b c : V3 ℝ} (h : Dual x y z a b c) (u : V3 ℝ) :
    u = (a.dot u) • x + (b.dot u) • y + (c.dot u) • z := by
  have hv := vol_ne_of_independent (independent_of_dual h)
  obtain ⟨h1, h2, h3, h4, h5, h6, h7, h8, h9⟩ := h
  -- u has coordinates in the basis
  have key : (u.dot (y.cross z)) • x + (u.dot (z.cross x)) • y + (u.dot (x.cross y)) • z = vol x y z • u := by
    ext <;> simp only [vol, V3.dot, V3.cross, V3.add_x, V3.add_y, V3.add_z, V3.smul_x, V3.smul_y, V3.smul_z] <;>
      ring
  have lin : ∀ w : V3 ℝ, u.dot (y.cross z) * w.dot x + u.dot (z.cross x) * w.dot y + u.dot (x.cross y) * w.dot z
      = vol x y z * w.dot u := by
    intro w
    have := congrArg (fun t => w.dot t) key
    simp only [V3.dot, V3.add_x, V3.add_y, V3.add_z, V3.smul_x, V3.smul_y, V3.smul_z] at this ⊢
    linarith
  have la := lin a
  have lb := lin b
  have lc := lin c
  rw [h1, h2, h3] at la
  rw [h4, h5, h6] at lb
  rw [h7, h8, h9] at lc
  have ea : u.dot (y.cross z) = vol x y z * a.dot u := by linarith
  have eb : u.dot (z.cross x) = vol x y z * b.dot u := by linarith
  have ec : u.dot (x.cross y) = vol x y z * c.dot u := by linarith
  rw [ea, eb, ec] at key
  ext
  · have := congrArg V3.x key
    simp only [V3.add_x, V3.smul_x] at this ⊢
    apply mul_left_cancel₀ hv
    linarith
  · have := congrArg V3.y key
    simp only [V3.add_y, V3.smul_y] at this ⊢
    apply mul_left_cancel₀ hv
    linarith
  · have := congrArg V3.z key
    simp only [V3.add_z, V3.smul_z] at this ⊢
    apply mul_left_cancel₀ hv
    linarith

theorem dot_at {rc : Cell} (u : V3 ℝ) (c1 c2 c3 : ℝ) :
    u.dot (rc.at c1 c2 c3) = c1 * u.dot rc.b1 + c2 * u.dot rc.b2 + c3 * u.dot rc.b3 := by
  simp only [Cell.at, V3.dot, V3.add_x, V3.add_y, V3.add_z, V3.smul_x, V3.smul_y, V3.smul_z]; ring

theorem coords_at {rc : Cell} {a1 a2 a3 : V3 ℝ} (h : Dual rc.b1 rc.b2 rc.b3 a1 a2 a3) (c1 c2 c3 : ℝ) :
    a1.dot (rc.at c1 c2 c3) = c1 ∧ a2.dot (rc.at c1 c2 c3) = c2 ∧ a3.dot (rc.at c1 c2 c3) = c3 := by
  obtain ⟨h1, h2, h3, h4, h5, h6, h7, h8, h9⟩ := h
  refine ⟨?_, ?_, ?_⟩
  · rw [dot_at, h1, h2, h3]; ring
  · rw [dot_at, h4, h5, h6]; ring
  · rw [dot_at, h7, h8, h9]; ring

theorem dot_add (u v w : V3 ℝ) : u.dot (v + w) = u.dot v + u.dot w := by
  simp only [V3.dot, V3.add_x, V3.add_y, V3.add_z]; ring

theorem decimalPart_add (x : ℝ) (n : ℤ) : decimalPart (x + n) = decimalPart x := by
  unfold decimalPart; rw [Int.floor_add_intCast]; push_cast; ring

theorem decimalPart_mem (x : ℝ) : 0 ≤ decimalPart x ∧ decimalPart x < 1 := by
  unfold decimalPart
  exact ⟨by linarith [Int.floor_le x], by linarith [Int.lt_floor_add_one x]⟩

theorem reducedQ_ok {rc : Cell} {a1 a2 a3 : V3 ℝ} (h : inversions rc.b1 rc.b2 rc.b3 = some (a1, a2, a3))
    (Q : V3 ℝ) : reducedQ rc Q = some (rc.at (decimalPart (a1.dot Q)) (decimalPart (a2.dot Q))
      (decimalPart (a3.dot Q))) := by
  unfold reducedQ
  rw [h]
  rfl

theorem exists_inversions {rc : Cell} (h : Independent rc.b1 rc.b2 rc.b3) :
    ∃ a1 a2 a3, inversions rc.b1 rc.b2 rc.b3 = some (a1, a2, a3) :=
  ⟨_, _, _, inversions_ok (vol_ne_of_independent h)⟩

/-! ### minimum and maximum over the grid -/

theorem mem_points {n1 n2 n3 i j k : Nat} : (i, j, k) ∈ points n1 n2 n3 ↔ i < n1 ∧ j < n2 ∧ k < n3 := by
  simp [points]

theorem foldl_min_le {α : Type} (f : α → ℝ) (l : List α) (m : ℝ) :
    l.foldl (fun m p => min m (f p)) m ≤ m ∧ ∀ p ∈ l, l.foldl (fun m p => min m (f p)) m ≤ f p := by
  induction l generalizing m with
  | nil => simp
  | cons a l ih =>
    obtain ⟨h1, h2⟩ := ih (min m (f a))
    simp only [List.foldl_cons]
    refine ⟨h1.trans (min_le_left _ _), fun p hp => ?_⟩
    rcases List.mem_cons.1 hp with rfl | hp
    · exact h1.trans (min_le_right _ _)
    · exact h2 p hp

theorem le_foldl_max {α : Type} (f : α → ℝ) (l : List α) (m : ℝ) :
    m ≤ l.foldl (fun m p => max m (f p)) m ∧ ∀ p ∈ l, f p ≤ l.foldl (fun m p => max m (f p)) m := by
  induction l generalizing m with
  | nil => simp
  | cons a l ih =>
    obtain ⟨h1, h2⟩ := ih (max m (f a))
    simp only [List.foldl_cons]
    refine ⟨(le_max_left _ _).trans h1, fun p hp => ?_⟩
    rcases List.mem_cons.1 hp with rfl | hp
    · exact (le_max_right _ _).trans h1
    · exact h2 p hp

theorem foldl_min_mem {α : Type} (f : α → ℝ) (l : List α) (m : ℝ) :
    l.foldl (fun m p => min m (f p)) m = m ∨ ∃ p ∈ l, l.foldl (fun m p => min m (f p)) m = f p := by
  induction l generalizing m with
  | nil => simp
  | cons a l ih =>
    simp only [List.foldl_cons]
    rcases ih (min m (f a)) with h | ⟨p, hp, h⟩
    · rw [h]
      rcases min_choice m (f a) with h' | h'
      · exact .inl h'
      · exact .inr ⟨a, by simp, h'⟩
    · exact .inr ⟨p, by simp [hp], h⟩

theorem foldl_max_mem {α : Type} (f : α → ℝ) (l : List α) (m : ℝ) :
    l.foldl (fun m p => max m (f p)) m = m ∨ ∃ p ∈ l, l.foldl (fun m p => max m (f p)) m = f p := by
  induction l generalizing m with
  | nil => simp
  | cons a l ih =>
    simp only [List.foldl_cons]
    rcases ih (max m (f a)) with h | ⟨p, hp, h⟩
    · rw [h]
      rcases max_choice m (f a) with h' | h'
      · exact .inl h'
      · exact .inr ⟨a, by simp, h'⟩
    · exact .inr ⟨p, by simp [hp], h⟩

theorem gridMin_le {n1 n2 n3 : Nat} (E : Nat → Nat → Nat → Nat → ℝ) (br : Nat) {i j k : Nat}
    (hi : i < n1) (hj : j < n2) (hk : k < n3) : gridMin n1 n2 n3 E br ≤ E i j k br :=
  (foldl_min_le (fun p : Nat × Nat × Nat => E p.1 p.2.1 p.2.2 br) _ _).2 (i, j, k) (mem_points.2 ⟨hi, hj, hk⟩)

theorem le_gridMax {n1 n2 n3 : Nat} (E : Nat → Nat → Nat → Nat → ℝ) (br : Nat) {i j k : Nat}
    (hi : i < n1) (hj : j < n2) (hk : k < n3) : E i j k br ≤ gridMax n1 n2 n3 E br :=
  (le_foldl_max (fun p : Nat × Nat × Nat => E p.1 p.2.1 p.2.2 br) _ _).2 (i, j, k) (mem_points.2 ⟨hi, hj, hk⟩)

/-! ### the dispersion read from files -/

/-- the axis of the grid in units of the cell -/
noncomputable def unitAxis (n : Nat) : Axis := ⟨0, 1 / ((n : ℝ) - 1), n - 1⟩

theorem cast_pos {n : Nat} (h : 2 ≤ n) : (0 : ℝ) < (n : ℝ) - 1 := by
  have : (2 : ℝ) ≤ n := by exact_mod_cast h
  linarith

theorem unitAxis_step {n : Nat} (h : 2 ≤ n) : 0 < (unitAxis n).step := one_div_pos.2 (cast_pos h)

theorem unitAxis_tick {n : Nat} (i : Nat) : (unitAxis n).tick i = (i : ℝ) / ((n : ℝ) - 1) := by
  unfold unitAxis Axis.tick; simp only; ring

theorem unitAxis_end {n : Nat} (h : 2 ≤ n) : (unitAxis n).tick (unitAxis n).n = 1 := by
  rw [unitAxis_tick]
  have e : ((unitAxis n).n : ℝ) = (n : ℝ) - 1 := by
    show ((n - 1 : ℕ) : ℝ) = _
    rw [Nat.cast_sub (by omega)]; simp
  rw [e, div_self (cast_pos h).ne']

theorem unitAxis_cell {n : Nat} (h : 2 ≤ n) {x : ℝ} (h0 : 0 ≤ x) (h1 : x < 1) : ∃ i, (unitAxis n).In x i :=
  exists_cell (unitAxis_step h) (by simpa [unitAxis] using h0) (by rw [unitAxis_end h]; exact h1)

theorem fromIdf_ok {nAtoms : Nat} {rc : Cell} {n1 n2 n3 : Nat}
    {eps : Nat → Nat → Nat → Nat → Nat → Fin 3 → Fin 2 → ℝ} {E : Nat → Nat → Nat → Nat → ℝ} {d : Disp}
    (h : fromIdf nAtoms rc n1 n2 n3 eps E = .ok d) :
    2 ≤ n1 ∧ 2 ≤ n2 ∧ 2 ≤ n3 ∧ ∃ a1 a2 a3, inversions rc.b1 rc.b2 rc.b3 = some (a1, a2, a3) ∧
      d = periodic (changeCoords (gridDisp nAtoms (unitAxis n1) (unitAxis n2) (unitAxis n3) eps E
        (gridMin n1 n2 n3 E) (gridMax n1 n2 n3 E)) ⟨a1, a2, a3⟩) rc := by
  unfold fromIdf interpolatedDisp at h
  simp only [bind, Except.bind] at h
  split at h
  · simp at h
  · next x hx =>
    split at hx
    · simp at hx
    · next g1 =>
      split at hx
      · simp at hx
      · next g2 =>
        split at hx
        · simp at hx
        · next a1 a2 a3 ha =>
          refine ⟨by omega, by omega, by omega, a1, a2, a3, ha, ?_⟩
          simp only [Except.ok.injEq] at hx h
          rw [← h, ← hx]
          rfl

/-- the dispersion at a vector in terms of its reduced coordinates -/
theorem reduced_coords {rc : Cell} {a1 a2 a3 : V3 ℝ} (h : inversions rc.b1 rc.b2 rc.b3 = some (a1, a2, a3))
    (Q : V3 ℝ) : ∃ q, reducedQ rc Q = some q ∧ (⟨a1, a2, a3⟩ : M3 ℝ).mulVec q =
      ⟨decimalPart (a1.dot Q), decimalPart (a2.dot Q), decimalPart (a3.dot Q)⟩ := by
  refine ⟨_, reducedQ_ok h Q, ?_⟩
  obtain ⟨e1, e2, e3⟩ := coords_at (dual_of_some h) (decimalPart (a1.dot Q)) (decimalPart (a2.dot Q))
    (decimalPart (a3.dot Q))
  ext
  · exact e1
  · exact e2
  · exact e3

end Verif.Lattice
