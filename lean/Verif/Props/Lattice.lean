import Verif.Lemmas.Lattice
import Mathlib.Tactic.IntervalCases
/-!
Property theorems about reciprocal lattices and dispersions on a grid: C41, C48, C105.
-/

namespace Verif.Lattice
open Table Kinem

/-! ### C48 reciprocal basis -/

/-- **C48** The inversion of three vectors is their dual basis. -/
theorem C48_dual {x y z a b c : V3 ℝ} (h : inversions x y z = some (a, b, c)) : Dual x y z a b c :=
  dual_of_some h

/-- **C48** It exists (is finite) exactly if the three vectors do not lie in a plane. -/
theorem C48_defined (x y z : V3 ℝ) : (∃ r, inversions x y z = some r) ↔ Independent x y z := by
  constructor
  · rintro ⟨⟨a, b, c⟩, h⟩
    exact independent_of_dual (dual_of_some h)
  · intro h
    exact ⟨_, inversions_ok (vol_ne_of_independent h)⟩

/-- **C48** There is only one dual basis. -/
theorem C48_unique {x y z a b c a' b' c' : V3 ℝ} (h : Dual x y z a b c) (h' : Dual x y z a' b' c') :
    a = a' ∧ b = b' ∧ c = c' := by
  have key : ∀ p q : V3 ℝ, p.dot x = q.dot x → p.dot y = q.dot y → p.dot z = q.dot z → p = q := by
    intro p q h1 h2 h3
    have e : ∀ u : V3 ℝ, p.dot u = q.dot u := by
      intro u
      rw [eq_of_dual h u]
      simp only [V3.dot, V3.add_x, V3.add_y, V3.add_z, V3.smul_x, V3.smul_y, V3.smul_z] at h1 h2 h3 ⊢
      linear_combination (a.x * u.x + a.y * u.y + a.z * u.z) * h1 + (b.x * u.x + b.y * u.y + b.z * u.z) * h2
        + (c.x * u.x + c.y * u.y + c.z * u.z) * h3
    ext
    · simpa [V3.dot] using e ⟨1, 0, 0⟩
    · simpa [V3.dot] using e ⟨0, 1, 0⟩
    · simpa [V3.dot] using e ⟨0, 0, 1⟩
  obtain ⟨h1, h2, h3, h4, h5, h6, h7, h8, h9⟩ := h
  obtain ⟨g1, g2, g3, g4, g5, g6, g7, g8, g9⟩ := h'
  exact ⟨key _ _ (h1.trans g1.symm) (h2.trans g2.symm) (h3.trans g3.symm),
    key _ _ (h4.trans g4.symm) (h5.trans g5.symm) (h6.trans g6.symm),
    key _ _ (h7.trans g7.symm) (h8.trans g8.symm) (h9.trans g9.symm)⟩

/-- **C48** The inversion of the inversion gives back the three vectors. -/
theorem C48_twice {x y z a b c : V3 ℝ} (h : inversions x y z = some (a, b, c)) :
    inversions a b c = some (x, y, z) := by
  have hd := dual_of_some h
  have hv := vol_eq_of_dual hd
  have hne : vol a b c ≠ 0 := right_ne_zero_of_mul_eq_one hv
  have h2 := inversions_ok hne
  have hd2 := dual_of_some h2
  have comm : ∀ u v : V3 ℝ, u.dot v = v.dot u := by intro u v; simp only [V3.dot]; ring
  have hd' : Dual a b c x y z := by
    obtain ⟨h1, h2, h3, h4, h5, h6, h7, h8, h9⟩ := hd
    refine ⟨?_, ?_, ?_, ?_, ?_, ?_, ?_, ?_, ?_⟩ <;> rw [comm] <;> assumption
  obtain ⟨e1, e2, e3⟩ := C48_unique hd2 hd'
  rw [h2, e1, e2, e3]

/-- a cell that is not orthogonal -/
noncomputable def demoCell : Cell := ⟨⟨1, 0, 0⟩, ⟨1, 2, 0⟩, ⟨0, 1, 4⟩⟩

theorem demoCell_independent : Independent demoCell.b1 demoCell.b2 demoCell.b3 := by
  intro a b c h
  have h1 := congrArg V3.x h
  have h2 := congrArg V3.y h
  have h3 := congrArg V3.z h
  simp [demoCell] at h1 h2 h3
  subst h3
  simp at h2
  subst h2
  simpa using h1

example : ∃ a b c, inversions demoCell.b1 demoCell.b2 demoCell.b3 = some (a, b, c) ∧
    Dual demoCell.b1 demoCell.b2 demoCell.b3 a b c ∧
    inversions a b c = some (demoCell.b1, demoCell.b2, demoCell.b3) := by
  obtain ⟨a, b, c, h⟩ := exists_inversions demoCell_independent
  exact ⟨a, b, c, h, C48_dual h, C48_twice h⟩

example : ¬ Independent (⟨1, 0, 0⟩ : V3 ℝ) ⟨0, 1, 0⟩ ⟨1, 1, 0⟩ := fun h => by
  have := (h 1 1 (-1) (by ext <;> simp)).1
  norm_num at this

/-! ### C41 periodic dispersion -/

/-- **C41** The reduced vector has coordinates in [0,1) and differs from the original by a vector of the
reciprocal lattice. -/
theorem C41_reduced {rc : Cell} (h : Independent rc.b1 rc.b2 rc.b3) (Q : V3 ℝ) :
    ∃ c1 c2 c3 : ℝ, ∃ n1 n2 n3 : ℤ, reducedQ rc Q = some (rc.at c1 c2 c3) ∧
      0 ≤ c1 ∧ c1 < 1 ∧ 0 ≤ c2 ∧ c2 < 1 ∧ 0 ≤ c3 ∧ c3 < 1 ∧
      Q = rc.at c1 c2 c3 + rc.node n1 n2 n3 := by
  obtain ⟨a1, a2, a3, ha⟩ := exists_inversions h
  refine ⟨_, _, _, ⌊a1.dot Q⌋, ⌊a2.dot Q⌋, ⌊a3.dot Q⌋, reducedQ_ok ha Q, (decimalPart_mem _).1,
    (decimalPart_mem _).2, (decimalPart_mem _).1, (decimalPart_mem _).2, (decimalPart_mem _).1,
    (decimalPart_mem _).2, ?_⟩
  have e := eq_of_dual (dual_of_some ha) Q
  have d : ∀ x : ℝ, decimalPart x + (⌊x⌋ : ℝ) = x := fun x => by unfold decimalPart; ring
  conv_lhs => rw [e]
  simp only [Cell.at, Cell.node]
  ext
  · simp only [V3.add_x, V3.smul_x]
    linear_combination -(rc.b1.x * d (a1.dot Q)) - rc.b2.x * d (a2.dot Q) - rc.b3.x * d (a3.dot Q)
  · simp only [V3.add_y, V3.smul_y]
    linear_combination -(rc.b1.y * d (a1.dot Q)) - rc.b2.y * d (a2.dot Q) - rc.b3.y * d (a3.dot Q)
  · simp only [V3.add_z, V3.smul_z]
    linear_combination -(rc.b1.z * d (a1.dot Q)) - rc.b2.z * d (a2.dot Q) - rc.b3.z * d (a3.dot Q)

/-- **C41** Conversely a vector of the cell stays as it is. -/
theorem C41_cell {rc : Cell} (h : Independent rc.b1 rc.b2 rc.b3) {c1 c2 c3 : ℝ} (h1 : 0 ≤ c1 ∧ c1 < 1)
    (h2 : 0 ≤ c2 ∧ c2 < 1) (h3 : 0 ≤ c3 ∧ c3 < 1) : reducedQ rc (rc.at c1 c2 c3) = some (rc.at c1 c2 c3) := by
  obtain ⟨a1, a2, a3, ha⟩ := exists_inversions h
  rw [reducedQ_ok ha]
  obtain ⟨e1, e2, e3⟩ := coords_at (dual_of_some ha) c1 c2 c3
  have d : ∀ x : ℝ, 0 ≤ x ∧ x < 1 → decimalPart x = x := by
    intro x hx
    unfold decimalPart
    rw [Int.floor_eq_zero_iff.2 ⟨hx.1, hx.2⟩]; simp
  rw [e1, e2, e3, d _ h1, d _ h2, d _ h3]

/-- **C41** The reduced vector does not change if a vector of the reciprocal lattice is added. -/
theorem C41_shift (rc : Cell) (Q : V3 ℝ) (n1 n2 n3 : ℤ) :
    reducedQ rc (Q + rc.node n1 n2 n3) = reducedQ rc Q := by
  rcases hi : inversions rc.b1 rc.b2 rc.b3 with _ | ⟨a1, a2, a3⟩
  · unfold reducedQ; rw [hi]; rfl
  · rw [reducedQ_ok hi, reducedQ_ok hi, dot_add, dot_add, dot_add]
    obtain ⟨e1, e2, e3⟩ := coords_at (dual_of_some hi) n1 n2 n3
    rw [Cell.node, e1, e2, e3, decimalPart_add, decimalPart_add, decimalPart_add]

/-- **C41** Energy and polarisation of a periodic dispersion, of any core, do not change if a vector of the
reciprocal lattice is added. -/
theorem C41_periodic (core : Disp) (rc : Cell) (Q : V3 ℝ) (n1 n2 n3 : ℤ) (br at' : Nat) :
    (periodic core rc).energy br (Q + rc.node n1 n2 n3) = (periodic core rc).energy br Q ∧
      (periodic core rc).polarization br at' (Q + rc.node n1 n2 n3)
        = (periodic core rc).polarization br at' Q := by
  constructor
  · show (match reducedQ rc (Q + rc.node n1 n2 n3) with | none => _ | some q => _) = _
    rw [C41_shift]; rfl
  · show (match reducedQ rc (Q + rc.node n1 n2 n3) with | none => _ | some q => _) = _
    rw [C41_shift]; rfl

/-- **C41** In the first cell, and so up to lattice vectors everywhere, they are those of the core. -/
theorem C41_core (core : Disp) {rc : Cell} (h : Independent rc.b1 rc.b2 rc.b3) {c1 c2 c3 : ℝ}
    (h1 : 0 ≤ c1 ∧ c1 < 1) (h2 : 0 ≤ c2 ∧ c2 < 1) (h3 : 0 ≤ c3 ∧ c3 < 1) (n1 n2 n3 : ℤ) (br at' : Nat) :
    (periodic core rc).energy br (rc.at c1 c2 c3 + rc.node n1 n2 n3) = core.energy br (rc.at c1 c2 c3) ∧
      (periodic core rc).polarization br at' (rc.at c1 c2 c3 + rc.node n1 n2 n3)
        = core.polarization br at' (rc.at c1 c2 c3) := by
  obtain ⟨e1, e2⟩ := C41_periodic core rc (rc.at c1 c2 c3) n1 n2 n3 br at'
  rw [e1, e2]
  constructor
  · show (match reducedQ rc (rc.at c1 c2 c3) with | none => _ | some q => _) = _
    rw [C41_cell h h1 h2 h3]
  · show (match reducedQ rc (rc.at c1 c2 c3) with | none => _ | some q => _) = _
    rw [C41_cell h h1 h2 h3]

/-- a core with E = |Q|² -/
noncomputable def demoDisp : Disp where
  nBranches := 3
  nAtoms := 1
  energy _ k := .ok (k.dot k)
  polarization _ _ _ := .ok ⟨1, 0, 0⟩
  minEnergy _ := 0
  maxEnergy _ := 100

example : (periodic demoDisp demoCell).energy 0 (demoCell.at (1 / 2) 0 (1 / 4) + demoCell.node 3 (-2) 1)
    = .ok ((demoCell.at (1 / 2) 0 (1 / 4)).dot (demoCell.at (1 / 2) 0 (1 / 4))) :=
  (C41_core demoDisp demoCell_independent (by norm_num) (by norm_num) (by norm_num) 3 (-2) 1 0 0).1

/-! ### C105 a dispersion given on a grid -/

variable {nAtoms : Nat} {rc : Cell} {n1 n2 n3 : Nat}
  {eps : Nat → Nat → Nat → Nat → Nat → Fin 3 → Fin 2 → ℝ} {E : Nat → Nat → Nat → Nat → ℝ} {d : Disp}

/-- energies of the dispersion by reduced coordinates -/
theorem energy_eq (h : fromIdf nAtoms rc n1 n2 n3 eps E = .ok d) {br : Nat} (hb : br < 3 * nAtoms)
    {x y z : ℝ} (hx : 0 ≤ x ∧ x < 1) (hy : 0 ≤ y ∧ y < 1) (hz : 0 ≤ z ∧ z < 1) (m1 m2 m3 : ℤ) :
    d.energy br (rc.at x y z + rc.node m1 m2 m3)
      = value3 (unitAxis n1) (unitAxis n2) (unitAxis n3) (fun i j l => E i j l br) x y z := by
  obtain ⟨_, _, _, a1, a2, a3, ha, rfl⟩ := fromIdf_ok h
  rw [(C41_core _ ((C48_defined _ _ _).1 ⟨_, ha⟩) hx hy hz m1 m2 m3 br 0).1]
  have e : (⟨a1, a2, a3⟩ : M3 ℝ).mulVec (rc.at x y z) = ⟨x, y, z⟩ := by
    obtain ⟨e1, e2, e3⟩ := coords_at (dual_of_some ha) x y z
    ext
    · exact e1
    · exact e2
    · exact e3
  show Disp.energy (gridDisp nAtoms (unitAxis n1) (unitAxis n2) (unitAxis n3) eps E (gridMin n1 n2 n3 E)
      (gridMax n1 n2 n3 E)) br ((⟨a1, a2, a3⟩ : M3 ℝ).mulVec (rc.at x y z)) = _
  rw [e]
  show (if br < 3 * nAtoms then _ else _) = _
  rw [if_pos hb]

/-- **C105** The energy of every branch is defined for every momentum transfer whatsoever, and is between the
minimum and the maximum that the dispersion reports for the branch. -/
theorem C105_range (h : fromIdf nAtoms rc n1 n2 n3 eps E = .ok d) {br : Nat} (hb : br < d.nBranches)
    (Q : V3 ℝ) : ∃ e, d.energy br Q = .ok e ∧ d.minEnergy br ≤ e ∧ e ≤ d.maxEnergy br := by
  obtain ⟨g1, g2, g3, a1, a2, a3, ha, hd⟩ := fromIdf_ok h
  have hb' : br < 3 * nAtoms := by rw [hd] at hb; exact hb
  have hmin : d.minEnergy = gridMin n1 n2 n3 E := by rw [hd]; rfl
  have hmax : d.maxEnergy = gridMax n1 n2 n3 E := by rw [hd]; rfl
  obtain ⟨c1, c2, c3, m1, m2, m3, _, b1, b2, b3, b4, b5, b6, hQ⟩ :=
    C41_reduced ((C48_defined _ _ _).1 ⟨_, ha⟩) Q
  rw [hQ, energy_eq h hb' ⟨b1, b2⟩ ⟨b3, b4⟩ ⟨b5, b6⟩, hmin, hmax]
  obtain ⟨i, hi⟩ := unitAxis_cell g1 b1 b2
  obtain ⟨j, hj⟩ := unitAxis_cell g2 b3 b4
  obtain ⟨k, hk⟩ := unitAxis_cell g3 b5 b6
  have ui : i < n1 - 1 := hi.1
  have uj : j < n2 - 1 := hj.1
  have uk : k < n3 - 1 := hk.1
  have hb2 : ∀ a ≤ 1, ∀ b ≤ 1, ∀ c ≤ 1, gridMin n1 n2 n3 E br ≤ E (i + a) (j + b) (k + c) br ∧
      E (i + a) (j + b) (k + c) br ≤ gridMax n1 n2 n3 E br := by
    intro a ha' b hb'' c hc
    exact ⟨gridMin_le E br (by omega) (by omega) (by omega), le_gridMax E br (by omega) (by omega) (by omega)⟩
  have s1 := unitAxis_step g1
  have s2 := unitAxis_step g2
  have s3 := unitAxis_step g3
  rw [value3_cell s1 s2 s3 hi hj hk]
  refine ⟨_, rfl, ?_⟩
  rw [interp3_eq]
  obtain ⟨p0, p1⟩ := cell_fraction s1 hi
  obtain ⟨q0, q1⟩ := cell_fraction s2 hj
  obtain ⟨r0, r1⟩ := cell_fraction s3 hk
  have g := fun a ha b hb' c hc => hb2 a ha b hb' c hc
  exact interp1_between r0 r1.le
    (interp1_between q0 q1.le
      (interp1_between p0 p1.le (g 0 (by decide) 0 (by decide) 0 (by decide))
        (g 1 (by decide) 0 (by decide) 0 (by decide)))
      (interp1_between p0 p1.le (g 0 (by decide) 1 (by decide) 0 (by decide))
        (g 1 (by decide) 1 (by decide) 0 (by decide))))
    (interp1_between q0 q1.le
      (interp1_between p0 p1.le (g 0 (by decide) 0 (by decide) 1 (by decide))
        (g 1 (by decide) 0 (by decide) 1 (by decide)))
      (interp1_between p0 p1.le (g 0 (by decide) 1 (by decide) 1 (by decide))
        (g 1 (by decide) 1 (by decide) 1 (by decide))))

/-- **C105** The bounds are energies of the table. -/
theorem C105_bounds (h : fromIdf nAtoms rc n1 n2 n3 eps E = .ok d) (br : Nat) :
    (∃ i j k, i < n1 ∧ j < n2 ∧ k < n3 ∧ d.minEnergy br = E i j k br) ∧
      ∃ i j k, i < n1 ∧ j < n2 ∧ k < n3 ∧ d.maxEnergy br = E i j k br := by
  obtain ⟨g1, g2, g3, a1, a2, a3, ha, rfl⟩ := fromIdf_ok h
  constructor
  · show ∃ i j k, _ ∧ _ ∧ _ ∧ gridMin n1 n2 n3 E br = _
    rcases foldl_min_mem (fun p : Nat × Nat × Nat => E p.1 p.2.1 p.2.2 br) (points n1 n2 n3) (E 0 0 0 br) with
      hh | ⟨⟨i, j, k⟩, hp, hh⟩
    · exact ⟨0, 0, 0, by omega, by omega, by omega, hh⟩
    · obtain ⟨q1, q2, q3⟩ := mem_points.1 hp
      exact ⟨i, j, k, q1, q2, q3, hh⟩
  · show ∃ i j k, _ ∧ _ ∧ _ ∧ gridMax n1 n2 n3 E br = _
    rcases foldl_max_mem (fun p : Nat × Nat × Nat => E p.1 p.2.1 p.2.2 br) (points n1 n2 n3) (E 0 0 0 br) with
      hh | ⟨⟨i, j, k⟩, hp, hh⟩
    · exact ⟨0, 0, 0, by omega, by omega, by omega, hh⟩
    · obtain ⟨q1, q2, q3⟩ := mem_points.1 hp
      exact ⟨i, j, k, q1, q2, q3, hh⟩

/-- **C105** At the points of the grid, in every cell of the reciprocal lattice, the energy is the one of the
table (the points of the last planes are those of the first planes of the next cell). -/
theorem C105_node (h : fromIdf nAtoms rc n1 n2 n3 eps E = .ok d) {br : Nat} (hb : br < d.nBranches)
    {i j k : Nat} (hi : i + 1 < n1) (hj : j + 1 < n2) (hk : k + 1 < n3) (m1 m2 m3 : ℤ) :
    d.energy br (rc.at (i / ((n1 : ℝ) - 1)) (j / ((n2 : ℝ) - 1)) (k / ((n3 : ℝ) - 1)) + rc.node m1 m2 m3)
      = .ok (E i j k br) := by
  obtain ⟨g1, g2, g3, a1, a2, a3, ha, hd⟩ := fromIdf_ok h
  have hb' : br < 3 * nAtoms := by rw [hd] at hb; exact hb
  have key : ∀ {n i : Nat}, 2 ≤ n → i + 1 < n → 0 ≤ (i : ℝ) / ((n : ℝ) - 1) ∧ (i : ℝ) / ((n : ℝ) - 1) < 1 := by
    intro n i hn hi
    have := cast_pos hn
    refine ⟨div_nonneg (Nat.cast_nonneg _) this.le, ?_⟩
    rw [div_lt_one this]
    have : ((i + 1 : ℕ) : ℝ) < n := by exact_mod_cast hi
    push_cast at this; linarith
  rw [energy_eq h hb' (key g1 hi) (key g2 hj) (key g3 hk)]
  have e : ∀ n i : Nat, (i : ℝ) / ((n : ℝ) - 1) = (unitAxis n).tick i := fun n i => (unitAxis_tick i).symm
  rw [e, e, e]
  have s1 := unitAxis_step g1
  have s2 := unitAxis_step g2
  have s3 := unitAxis_step g3
  rw [value3_cell s1 s2 s3 ⟨show i < n1 - 1 by omega, le_rfl, by rw [tick_succ]; linarith⟩
    ⟨show j < n2 - 1 by omega, le_rfl, by rw [tick_succ]; linarith⟩
    ⟨show k < n3 - 1 by omega, le_rfl, by rw [tick_succ]; linarith⟩]
  congr 1
  rw [sub_self, sub_self, sub_self, zero_div, zero_div, zero_div]
  unfold interp3
  ring

/-- **C105** Between the points of the grid energies that are linear along each axis of the cell are exact. -/
theorem C105_linear (h : fromIdf nAtoms rc n1 n2 n3 eps E = .ok d) {br : Nat} (hb : br < d.nBranches)
    (c : Fin 8 → ℝ) (hE : ∀ i < n1, ∀ j < n2, ∀ k < n3,
      E i j k br = tri c (i / ((n1 : ℝ) - 1)) (j / ((n2 : ℝ) - 1)) (k / ((n3 : ℝ) - 1)))
    {x y z : ℝ} (hx : 0 ≤ x ∧ x < 1) (hy : 0 ≤ y ∧ y < 1) (hz : 0 ≤ z ∧ z < 1) (m1 m2 m3 : ℤ) :
    d.energy br (rc.at x y z + rc.node m1 m2 m3) = .ok (tri c x y z) := by
  obtain ⟨g1, g2, g3, a1, a2, a3, ha, hd⟩ := fromIdf_ok h
  have hb' : br < 3 * nAtoms := by rw [hd] at hb; exact hb
  rw [energy_eq h hb' hx hy hz]
  obtain ⟨i, hi⟩ := unitAxis_cell g1 hx.1 hx.2
  obtain ⟨j, hj⟩ := unitAxis_cell g2 hy.1 hy.2
  obtain ⟨k, hk⟩ := unitAxis_cell g3 hz.1 hz.2
  have s1 := unitAxis_step g1
  have s2 := unitAxis_step g2
  have s3 := unitAxis_step g3
  have ui : i < n1 - 1 := hi.1
  have uj : j < n2 - 1 := hj.1
  have uk : k < n3 - 1 := hk.1
  have hE' : ∀ i < n1, ∀ j < n2, ∀ k < n3,
      E i j k br = tri c ((unitAxis n1).tick i) ((unitAxis n2).tick j) ((unitAxis n3).tick k) := by
    intro i hi j hj k hk
    rw [unitAxis_tick, unitAxis_tick, unitAxis_tick]; exact hE i hi j hj k hk
  rw [value3_cell s1 s2 s3 hi hj hk]
  rw [hE' i (by omega) j (by omega) k (by omega), hE' (i + 1) (by omega) j (by omega) k (by omega),
    hE' i (by omega) (j + 1) (by omega) k (by omega), hE' i (by omega) j (by omega) (k + 1) (by omega),
    hE' i (by omega) (j + 1) (by omega) (k + 1) (by omega), hE' (i + 1) (by omega) j (by omega) (k + 1) (by omega),
    hE' (i + 1) (by omega) (j + 1) (by omega) k (by omega),
    hE' (i + 1) (by omega) (j + 1) (by omega) (k + 1) (by omega)]
  simp only [tick_succ]
  obtain ⟨s, hs⟩ : ∃ s, s = (x - (unitAxis n1).tick i) / (unitAxis n1).step := ⟨_, rfl⟩
  obtain ⟨t, ht⟩ : ∃ t, t = (y - (unitAxis n2).tick j) / (unitAxis n2).step := ⟨_, rfl⟩
  obtain ⟨u, hu⟩ : ∃ u, u = (z - (unitAxis n3).tick k) / (unitAxis n3).step := ⟨_, rfl⟩
  have ex : x = (unitAxis n1).tick i + s * (unitAxis n1).step := by rw [hs]; field_simp; ring
  have ey : y = (unitAxis n2).tick j + t * (unitAxis n2).step := by rw [ht]; field_simp; ring
  have ez : z = (unitAxis n3).tick k + u * (unitAxis n3).step := by rw [hu]; field_simp; ring
  rw [← hs, ← ht, ← hu]
  congr 1
  rw [ex, ey, ez]
  unfold interp3 tri
  ring

/-- one axis of the lookup of polarisations -/
theorem locateN_unit {n : Nat} (hn : 2 ≤ n) {x : ℝ} (hx : 0 ≤ x ∧ x < 1) :
    ∃ i r, locateN (unitAxis n) x = .ok (i, r) ∧ (if r > 0.5 then i + 1 else i) < n ∧
      ∃ m : ℤ, |x - ((if r > 0.5 then i + 1 else i : ℕ) : ℝ) / ((n : ℝ) - 1) - m| ≤ 1 / (2 * ((n : ℝ) - 1)) := by
  have hs := unitAxis_step hn
  have hp := cast_pos hn
  have hstep : (unitAxis n).step = 1 / ((n : ℝ) - 1) := rfl
  have hhalf : (unitAxis n).step / 2 = 1 / (2 * ((n : ℝ) - 1)) := by rw [hstep]; field_simp
  obtain ⟨i, hi⟩ := unitAxis_cell hn hx.1 hx.2
  have ui : i < n - 1 := hi.1
  by_cases hend : x ≤ (unitAxis n).tick (unitAxis n).n - 1e-7 * (unitAxis n).step
  · refine ⟨i, _, locateN_cell hs hi hend, by split <;> omega, 0, ?_⟩
    rw [← unitAxis_tick, ← hhalf]
    obtain ⟨_, h2, h3⟩ := hi
    rw [tick_succ] at h3
    split
    · next hr =>
      rw [gt_iff_lt, lt_div_iff₀ hs] at hr
      rw [tick_succ, abs_le]
      constructor <;> norm_num at hr ⊢ <;> linarith
    · next hr =>
      rw [gt_iff_lt, lt_div_iff₀ hs, not_lt] at hr
      rw [abs_le]
      constructor <;> norm_num at hr ⊢ <;> linarith
  · rw [not_le, unitAxis_end hn] at hend
    obtain ⟨e0, e1, e2, e3⟩ := floor_cell hs hi
    have hb : |(x - (unitAxis n).start) / (unitAxis n).step - (unitAxis n).n| < 1e-7 := by
      have ht : (unitAxis n).start + (unitAxis n).n * (unitAxis n).step = 1 := unitAxis_end hn
      rw [abs_of_neg (by linarith)]
      have : ((unitAxis n).n : ℝ) - 1e-7 < (x - (unitAxis n).start) / (unitAxis n).step := by
        rw [lt_div_iff₀ hs]; linarith
      linarith
    have hloc : locateN (unitAxis n) x = .ok (0, 0) := by
      have hout : ¬ ((x - (unitAxis n).start) / (unitAxis n).step < 0 ∨
        (x - (unitAxis n).start) / (unitAxis n).step ≥ (unitAxis n).n) := by push Not; exact ⟨e0, e1⟩
      unfold locateN
      simp only
      rw [if_neg (fun hh => hout hh.1), if_neg hout, if_pos hb]
      simp
    refine ⟨0, 0, hloc, ?_, 1, ?_⟩
    · rw [if_neg (by norm_num)]; omega
    · rw [if_neg (by norm_num), ← hhalf]
      rw [abs_le]
      constructor <;> norm_num at hend ⊢ <;> linarith [hx.2]

/-- **C105** The polarisation is defined for every momentum transfer, and is the one of the table at a point
of the grid that, up to a vector of the reciprocal lattice, is within half a step in each direction. -/
theorem C105_polarization (h : fromIdf nAtoms rc n1 n2 n3 eps E = .ok d) {br at' : Nat} (hb : br < d.nBranches)
    (ha' : at' < nAtoms) (Q : V3 ℝ) :
    ∃ i j k, i < n1 ∧ j < n2 ∧ k < n3 ∧
      d.polarization br at' Q = .ok ⟨⟨eps i j k br at' 0 0, eps i j k br at' 0 1⟩,
        ⟨eps i j k br at' 1 0, eps i j k br at' 1 1⟩, ⟨eps i j k br at' 2 0, eps i j k br at' 2 1⟩⟩ ∧
      ∃ t1 t2 t3 : ℝ, ∃ m1 m2 m3 : ℤ,
        Q = rc.at (i / ((n1 : ℝ) - 1) + t1) (j / ((n2 : ℝ) - 1) + t2) (k / ((n3 : ℝ) - 1) + t3)
          + rc.node m1 m2 m3 ∧
        |t1| ≤ 1 / (2 * ((n1 : ℝ) - 1)) ∧ |t2| ≤ 1 / (2 * ((n2 : ℝ) - 1)) ∧ |t3| ≤ 1 / (2 * ((n3 : ℝ) - 1)) := by
  obtain ⟨g1, g2, g3, a1, a2, a3, ha, hd⟩ := fromIdf_ok h
  have hb' : br < 3 * nAtoms := by rw [hd] at hb; exact hb
  obtain ⟨c1, c2, c3, m1, m2, m3, _, b1, b2, b3, b4, b5, b6, hQ⟩ :=
    C41_reduced ((C48_defined _ _ _).1 ⟨_, ha⟩) Q
  obtain ⟨i, r1, l1, u1, k1, d1⟩ := locateN_unit g1 ⟨b1, b2⟩
  obtain ⟨j, r2, l2, u2, k2, d2⟩ := locateN_unit g2 ⟨b3, b4⟩
  obtain ⟨k, r3, l3, u3, k3, d3⟩ := locateN_unit g3 ⟨b5, b6⟩
  have hpol : d.polarization br at' Q = polarizationAt (unitAxis n1) (unitAxis n2) (unitAxis n3)
      (fun i j l => eps i j l br at') ⟨c1, c2, c3⟩ := by
    have e : (⟨a1, a2, a3⟩ : M3 ℝ).mulVec (rc.at c1 c2 c3) = ⟨c1, c2, c3⟩ := by
      obtain ⟨e1, e2, e3⟩ := coords_at (dual_of_some ha) c1 c2 c3
      ext
      · exact e1
      · exact e2
      · exact e3
    rw [hd, hQ, (C41_core _ ((C48_defined _ _ _).1 ⟨_, ha⟩) ⟨b1, b2⟩ ⟨b3, b4⟩ ⟨b5, b6⟩ m1 m2 m3 br at').2]
    show Disp.polarization (gridDisp nAtoms (unitAxis n1) (unitAxis n2) (unitAxis n3) eps E (gridMin n1 n2 n3 E)
      (gridMax n1 n2 n3 E)) br at' ((⟨a1, a2, a3⟩ : M3 ℝ).mulVec (rc.at c1 c2 c3)) = _
    rw [e]
    have hn : 0 < nAtoms := by omega
    have q1 : (br * nAtoms + at') / nAtoms = br := by
      rw [Nat.mul_comm, Nat.mul_add_div hn, Nat.div_eq_of_lt ha', Nat.add_zero]
    have q2 : (br * nAtoms + at') % nAtoms = at' := by
      rw [Nat.mul_comm, Nat.mul_add_mod, Nat.mod_eq_of_lt ha']
    have q3 : br * nAtoms + at' < 3 * nAtoms * nAtoms := by
      calc br * nAtoms + at' < br * nAtoms + nAtoms := by omega
        _ = (br + 1) * nAtoms := by ring
        _ ≤ 3 * nAtoms * nAtoms := Nat.mul_le_mul_right _ hb'
    show (if br * nAtoms + at' < 3 * nAtoms * nAtoms then _ else _) = _
    rw [if_pos q3, q1, q2]
  have hv : ∀ f : Nat → Nat → Nat → ℝ, valueN (unitAxis n1) (unitAxis n2) (unitAxis n3) f c1 c2 c3
      = .ok (f (if r1 > 0.5 then i + 1 else i) (if r2 > 0.5 then j + 1 else j) (if r3 > 0.5 then k + 1 else k)) := by
    intro f
    unfold valueN
    rw [l1, l2, l3]
    rfl
  refine ⟨_, _, _, u1, u2, u3, ?_, _, _, _, m1 + k1, m2 + k2, m3 + k3, ?_, d1, d2, d3⟩
  · rw [hpol]
    unfold polarizationAt
    simp only [hv, bind, Except.bind]
  · rw [hQ]
    simp only [Cell.at, Cell.node]
    ext
    · simp only [V3.add_x, V3.smul_x]; push_cast; ring
    · simp only [V3.add_y, V3.smul_y]; push_cast; ring
    · simp only [V3.add_z, V3.smul_z]; push_cast; ring

/-- **C105** Which inputs are accepted: at least two points along each axis and a cell that is not flat. -/
theorem C105_accepted : (∃ d, fromIdf nAtoms rc n1 n2 n3 eps E = .ok d) ↔
    2 ≤ n1 ∧ 2 ≤ n2 ∧ 2 ≤ n3 ∧ Independent rc.b1 rc.b2 rc.b3 := by
  constructor
  · rintro ⟨d, h⟩
    obtain ⟨g1, g2, g3, a1, a2, a3, ha, _⟩ := fromIdf_ok h
    exact ⟨g1, g2, g3, (C48_defined _ _ _).1 ⟨_, ha⟩⟩
  · rintro ⟨g1, g2, g3, hi⟩
    obtain ⟨a1, a2, a3, ha⟩ := exists_inversions hi
    unfold fromIdf interpolatedDisp
    rw [if_neg (by omega), if_neg (by omega)]
    simp only [ha, bind, Except.bind]
    exact ⟨_, rfl⟩

example : ∃ d, fromIdf 1 demoCell 5 5 5 (fun i _ _ _ _ _ _ => i) (fun i j k br => i + j + k + br) = .ok d ∧
    (∀ Q, ∃ e, d.energy 2 Q = .ok e ∧ d.minEnergy 2 ≤ e ∧ e ≤ d.maxEnergy 2) ∧
    d.energy 2 (demoCell.at (((3 : ℕ) : ℝ) / (((5 : ℕ) : ℝ) - 1)) (((1 : ℕ) : ℝ) / (((5 : ℕ) : ℝ) - 1))
      (((0 : ℕ) : ℝ) / (((5 : ℕ) : ℝ) - 1)) + demoCell.node 7 (-1) 2) = .ok 6 := by
  obtain ⟨d, hd⟩ := (C105_accepted (nAtoms := 1) (rc := demoCell) (n1 := 5) (n2 := 5) (n3 := 5)
    (eps := fun i _ _ _ _ _ _ => i) (E := fun i j k br => i + j + k + br)).2
    ⟨by decide, by decide, by decide, demoCell_independent⟩
  have hb : 2 < d.nBranches := by
    obtain ⟨_, _, _, a1, a2, a3, _, rfl⟩ := fromIdf_ok hd
    show 2 < 3 * 1; decide
  refine ⟨d, hd, fun Q => C105_range hd hb Q, ?_⟩
  rw [C105_node hd hb (i := 3) (j := 1) (k := 0) (by decide) (by decide) (by decide)]
  norm_num

end Verif.Lattice
