import Verif.Lemmas.Peaks
/-!
C49: the momentum transfer of a reflection.  C149: each reflection is counted once.  C150: reflections that are counted
together are equivalent.  C151: the smallest spacing.
-/

namespace Verif.Peaks
noncomputable section

/-! ### Crystals for the examples -/

/-- a cube with edge 1 -/
def cube : Lat := ⟨M3.one, M3.one⟩

theorem cube_valid : cube.Valid := ⟨one_mul' _, one_mul' _⟩

/-- the hexagonal lattice with a = c = 1 -/
def hexagonal : Lat :=
  ⟨⟨⟨Real.sqrt 3 / 2, -1 / 2, 0⟩, ⟨0, 1, 0⟩, ⟨0, 0, 1⟩⟩, ⟨⟨2 / Real.sqrt 3, 1 / Real.sqrt 3, 0⟩, ⟨0, 1, 0⟩, ⟨0, 0, 1⟩⟩⟩

theorem sqrt3 : Real.sqrt 3 * Real.sqrt 3 = 3 := Real.mul_self_sqrt (by norm_num)

theorem sqrt3_pos : 0 < Real.sqrt 3 := Real.sqrt_pos.2 (by norm_num)

theorem hexagonal_valid : hexagonal.Valid := by
  have h := sqrt3_pos.ne'
  have l : hexagonal.base.mul hexagonal.recbase = M3.one := by
    ext <;> simp [hexagonal, M3.mul, M3.mulVec, M3.transpose, M3.one] <;> field_simp <;> norm_num
  exact ⟨mul_comm_one l, l⟩

theorem hexagonal_length (h : HKL) : V3.length2 (hexagonal.recbase.mulVec (vec h)) =
    4 / 3 * ((h.x : ℝ) * h.x + h.x * h.y + h.y * h.y) + h.z * h.z := by
  have h0 := sqrt3_pos.ne'
  simp [hexagonal, V3.length2, M3.mulVec, vec]
  field_simp
  rw [show Real.sqrt 3 ^ 2 = 3 by rw [pow_two, sqrt3]]
  ring

/-- an oblique lattice -/
def oblique : Lat := ⟨⟨⟨1, -1 / 4, 0⟩, ⟨0, 1, 0⟩, ⟨0, 0, 1⟩⟩, ⟨⟨1, 1 / 4, 0⟩, ⟨0, 1, 0⟩, ⟨0, 0, 1⟩⟩⟩

theorem oblique_valid : oblique.Valid := by
  have l : oblique.base.mul oblique.recbase = M3.one := by
    ext <;> simp [oblique, M3.mul, M3.mulVec, M3.transpose, M3.one]
    norm_num
  exact ⟨mul_comm_one l, l⟩

/-- an atom at the origin -/
def oneAtom : List Atom := [⟨⟨0, 0, 0⟩, 1, 1, 0⟩]

theorem oneAtom_F (L : Lat) (h : HKL) : F L oneAtom h = 1 := by
  unfold F oneAtom
  rw [List.map_singleton, List.sum_singleton, Fi_eq]
  have : wOf 0 (d L h) = 0 := by unfold wOf; cases d L h <;> simp
  simp [this, V3.dot]

theorem oneAtom_symmetry (R : M3 ℤ) : StructureSymmetry oneAtom R := by
  refine ⟨⟨0, 0, 0⟩, oneAtom, List.Perm.refl _, List.Forall₂.cons ⟨rfl, rfl, rfl, ⟨0, 0, 0⟩, ?_⟩ List.Forall₂.nil⟩
  ext <;> simp [M3.mulVec, vec]

/-! ### C49 -/

/-- C49: the momentum transfer of a reflection is `2π|h b₁ + k b₂ + l b₃|`, for whatever vectors `b` are reciprocal to the
basis vectors. -/
theorem C49_calc {L : Lat} (hL : L.Valid) {b : M3 ℝ} (hb : Reciprocal L.base b) (h : HKL) :
    q L h = 2 * Real.pi * Real.sqrt (V3.length2 ((h.x : ℝ) • b.r0 + (h.y : ℝ) • b.r1 + (h.z : ℝ) • b.r2)) := by
  have e : L.base.mul b.transpose = M3.one := by
    obtain ⟨⟨a1, a2, a3⟩, ⟨b1, b2, b3⟩, c1, c2, c3⟩ := hb
    simp only [V3.dot] at a1 a2 a3 b1 b2 b3 c1 c2 c3
    ext <;> simp [M3.mul, M3.mulVec, M3.transpose, M3.one] <;> assumption
  have e2 : L.recbase = b.transpose := by
    rw [← mul_one' L.recbase, ← e, ← mul_assoc', hL.left, one_mul']
  rw [q_eq, e2]
  congr 3
  ext <;> simp [M3.mulVec, M3.transpose, vec] <;> ring

example : Reciprocal oblique.base ⟨⟨1, 0, 0⟩, ⟨1 / 4, 1, 0⟩, ⟨0, 0, 1⟩⟩ := by
  simp [Reciprocal, oblique, V3.dot]
  norm_num

/-- C49: the spacing of lattice planes is finite but for the origin, and is the length in lattice space: `d q = 2π`. -/
theorem C49_spacing {L : Lat} (hL : L.Valid) {h : HKL} (h0 : h ≠ ⟨0, 0, 0⟩) : ∃ x, d L h = some x ∧ 0 < x ∧ x * q L h = 2 * Real.pi := by
  have hn : 0 < Real.sqrt (V3.length2 (L.recbase.mulVec (vec h))) := by
    apply Real.sqrt_pos.2
    refine lt_of_le_of_ne ?_ (fun e => h0 (recbase_inj hL e.symm))
    unfold V3.length2
    exact add_nonneg (add_nonneg (mul_self_nonneg _) (mul_self_nonneg _)) (mul_self_nonneg _)
  refine ⟨_, d_some hL h0, by positivity, ?_⟩
  rw [q_eq]
  field_simp

example : (⟨1, -1, 0⟩ : HKL) ≠ ⟨0, 0, 0⟩ ∧ oblique.Valid := ⟨by decide, oblique_valid⟩

/-- C49 (partly): the momentum transfers that are derived from a LAZ file are right for all reflections exactly if the basis vectors
are orthogonal.  Missing: other lattices, for which they are wrong (`C49_laz_false`). -/
theorem C49_laz_partial {L : Lat} (hL : L.Valid) (hs : Standard L.base) :
    (∀ h, lazQ L h = q L h) ↔ Orthogonal L.base := by
  obtain ⟨⟨⟨A, B, C⟩, ⟨D0, D, E⟩, ⟨G0, G1, G⟩⟩, ⟨⟨p, s, t⟩, ⟨u0, u, v⟩, ⟨w0, w1, w⟩⟩⟩ := L
  obtain ⟨s1, s2, s3⟩ := hs
  simp only at s1 s2 s3
  subst s1 s2 s3
  have r := hL.right
  have e := fun f : M3 ℝ → ℝ => congrArg f r
  have e00 := e (fun m => m.r0.x); have e01 := e (fun m => m.r0.y); have e02 := e (fun m => m.r0.z)
  have e10 := e (fun m => m.r1.x); have e11 := e (fun m => m.r1.y); have e12 := e (fun m => m.r1.z)
  have e20 := e (fun m => m.r2.x); have e21 := e (fun m => m.r2.y); have e22 := e (fun m => m.r2.z)
  simp [M3.mul, M3.mulVec, M3.transpose, M3.one] at e00 e01 e02 e10 e11 e12 e20 e21 e22
  have hG : G ≠ 0 := fun h => by rw [h] at e22; simp at e22
  have hw : w ≠ 0 := fun h => by rw [h] at e22; simp at e22
  have w00 : w0 = 0 := by rcases e20 with h | h; exacts [absurd h hG, h]
  have w10 : w1 = 0 := by rcases e21 with h | h; exacts [absurd h hG, h]
  subst w00 w10
  simp at e00 e01 e10 e11
  have hD : D ≠ 0 := fun h => by rw [h] at e11; simp at e11
  have hu : u ≠ 0 := fun h => by rw [h] at e11; simp at e11
  have u00 : u0 = 0 := by rcases e10 with h | h; exacts [absurd h hD, h]
  subst u00
  simp at e00
  have hA : A ≠ 0 := fun h => by rw [h] at e00; simp at e00
  have key : ∀ h, lazQ ⟨⟨⟨A, B, C⟩, ⟨0, D, E⟩, ⟨0, 0, G⟩⟩, ⟨⟨p, s, t⟩, ⟨0, u, v⟩, ⟨0, 0, w⟩⟩⟩ h =
      q ⟨⟨⟨A, B, C⟩, ⟨0, D, E⟩, ⟨0, 0, G⟩⟩, ⟨⟨p, s, t⟩, ⟨0, u, v⟩, ⟨0, 0, w⟩⟩⟩ h ↔
      (h.x * p) ^ 2 + (h.x * s + h.y * u) ^ 2 + (h.x * t + h.y * v + h.z * w) ^ 2 =
      (h.x * p + h.y * s + h.z * t) ^ 2 + (h.y * u + h.z * v) ^ 2 + (h.z * w) ^ 2 := by
    intro h
    unfold lazQ q
    simp only [M3.transpose]
    rw [Real.sqrt_inj (by unfold V3.dot; exact add_nonneg (add_nonneg (mul_self_nonneg _) (mul_self_nonneg _)) (mul_self_nonneg _))
      (by unfold V3.dot; exact add_nonneg (add_nonneg (mul_self_nonneg _) (mul_self_nonneg _)) (mul_self_nonneg _))]
    simp [V3.dot]
    have hp : (0 : ℝ) < (2 * Real.pi) ^ 2 := by have := Real.pi_pos; positivity
    constructor
    · intro h'
      have : (2 * Real.pi) ^ 2 * ((h.x * p) ^ 2 + (h.x * s + h.y * u) ^ 2 + (h.x * t + h.y * v + h.z * w) ^ 2) =
          (2 * Real.pi) ^ 2 * ((h.x * p + h.y * s + h.z * t) ^ 2 + (h.y * u + h.z * v) ^ 2 + (h.z * w) ^ 2) := by linarith
      exact mul_left_cancel₀ hp.ne' this
    · intro h'
      have : (2 * Real.pi) ^ 2 * ((h.x * p) ^ 2 + (h.x * s + h.y * u) ^ 2 + (h.x * t + h.y * v + h.z * w) ^ 2) =
          (2 * Real.pi) ^ 2 * ((h.x * p + h.y * s + h.z * t) ^ 2 + (h.y * u + h.z * v) ^ 2 + (h.z * w) ^ 2) := by rw [h']
      linarith
  constructor
  · intro h
    have k0 := (key ⟨1, 0, 0⟩).1 (h _)
    have k1 := (key ⟨0, 1, 0⟩).1 (h _)
    simp at k0 k1
    have hs : s = 0 := by nlinarith [sq_nonneg s, sq_nonneg t]
    have ht : t = 0 := by nlinarith [sq_nonneg s, sq_nonneg t]
    subst hs ht
    have hv : v = 0 := by nlinarith [sq_nonneg v]
    subst hv
    have hB : B = 0 := by simpa [hu] using e01
    have hE : E = 0 := by simpa [hw] using e12
    subst hB hE
    have hC : C = 0 := by simpa [hw] using e02
    exact ⟨rfl, hC, rfl, rfl, rfl, rfl⟩
  · rintro ⟨h1, h2, -, h3, -⟩ h
    simp only at h1 h2 h3
    subst h1 h2 h3
    simp [hA, hD] at e01 e02 e12
    rw [key, e01, e02, e12]
    ring

example : Standard oblique.base ∧ Standard cube.base ∧ Orthogonal cube.base ∧ ¬ Orthogonal oblique.base := by
  simp [Standard, Orthogonal, oblique, cube, M3.one]

/-- C49 fails for LAZ files: in a hexagonal crystal the reflection (1 0 0) gets a momentum transfer that is wrong by the factor
`√5/2`, as rows of the reciprocal matrix are used in place of columns (`laz.py:137-139`). -/
theorem C49_laz_false : hexagonal.Valid ∧ Standard hexagonal.base ∧ lazQ hexagonal ⟨1, 0, 0⟩ = Real.sqrt 5 / 2 * q hexagonal ⟨1, 0, 0⟩ := by
  refine ⟨hexagonal_valid, by simp [Standard, hexagonal], ?_⟩
  have h0 := sqrt3_pos.ne'
  have hp := Real.pi_pos
  rw [q_eq, hexagonal_length]
  unfold lazQ
  simp only [hexagonal]
  rw [show V3.dot ((2 * Real.pi) • (((1 : ℤ) : ℝ) • (⟨2 / Real.sqrt 3, 1 / Real.sqrt 3, 0⟩ : V3 ℝ) + ((0 : ℤ) : ℝ) • ⟨0, 1, 0⟩ +
      ((0 : ℤ) : ℝ) • ⟨0, 0, 1⟩)) ((2 * Real.pi) • (((1 : ℤ) : ℝ) • (⟨2 / Real.sqrt 3, 1 / Real.sqrt 3, 0⟩ : V3 ℝ) +
      ((0 : ℤ) : ℝ) • ⟨0, 1, 0⟩ + ((0 : ℤ) : ℝ) • ⟨0, 0, 1⟩)) = (Real.sqrt 5 / 2 * (2 * Real.pi * Real.sqrt (4 / 3))) ^ 2 by
    rw [mul_pow, mul_pow, div_pow, Real.sq_sqrt (by norm_num), Real.sq_sqrt (by norm_num)]
    simp [V3.dot]
    field_simp
    rw [show Real.sqrt 3 ^ 2 = 3 by rw [pow_two, sqrt3]]
    norm_num, Real.sqrt_sq (by positivity)]
  norm_num

/-! ### C150 -/

/-- C150 (partly): if the symmetry matrices of the crystal come with their transposed matrices, as those of cubic, tetragonal,
orthorhombic and monoclinic crystals do, all reflections that are counted as equivalent have the same momentum transfer and the same size
of the structure factor.  Missing: hexagonal and trigonal crystals (`C150_equivalent_false`). -/
theorem C150_equivalent_partial {L : Lat} (hL : L.Valid) {atoms : List Atom} {ops : List (M3 ℤ)}
    (hs : ∀ R ∈ ops, LatticeSymmetry L R ∧ StructureSymmetry atoms R) (ht : ∀ R ∈ ops, R.transpose ∈ ops) {h v : HKL}
    (hv : v ∈ equivalents ops h) : q L v = q L h ∧ ‖F L atoms v‖ = ‖F L atoms h‖ := by
  obtain ⟨R, hR, rfl⟩ := ((equivalents_spec ops h).2 v).1 hv
  obtain ⟨h1, h2⟩ := hs _ (ht R hR)
  exact ⟨q_symmetry hL h1 h, F_symmetry hL h1 h2 h⟩

/-- the reflections at the three planes and what they make -/
def mirrors : List (M3 ℤ) := [
  ⟨⟨1, 0, 0⟩, ⟨0, 1, 0⟩, ⟨0, 0, 1⟩⟩, ⟨⟨-1, 0, 0⟩, ⟨0, 1, 0⟩, ⟨0, 0, 1⟩⟩,
  ⟨⟨1, 0, 0⟩, ⟨0, -1, 0⟩, ⟨0, 0, 1⟩⟩, ⟨⟨1, 0, 0⟩, ⟨0, 1, 0⟩, ⟨0, 0, -1⟩⟩,
  ⟨⟨-1, 0, 0⟩, ⟨0, -1, 0⟩, ⟨0, 0, 1⟩⟩, ⟨⟨-1, 0, 0⟩, ⟨0, 1, 0⟩, ⟨0, 0, -1⟩⟩,
  ⟨⟨1, 0, 0⟩, ⟨0, -1, 0⟩, ⟨0, 0, -1⟩⟩, ⟨⟨-1, 0, 0⟩, ⟨0, -1, 0⟩, ⟨0, 0, -1⟩⟩]

theorem mirrors_group : IsGroup mirrors := ⟨by decide, by decide, by decide⟩

theorem mirrors_cube {R : M3 ℤ} (hR : R ∈ mirrors) : LatticeSymmetry cube R := by
  intro u
  simp only [mirrors, List.mem_cons, List.not_mem_nil, or_false] at hR
  rcases hR with rfl | rfl | rfl | rfl | rfl | rfl | rfl | rfl <;>
    simp [V3.length2, point, cube, M3.one, mat, vec, M3.mulVec]

example : (⟨-1, 2, -3⟩ : HKL) ∈ equivalents mirrors ⟨1, 2, 3⟩ ∧ (∀ R ∈ mirrors, R.transpose ∈ mirrors) ∧
    ∀ R ∈ mirrors, LatticeSymmetry cube R ∧ StructureSymmetry oneAtom R :=
  ⟨by decide, by decide, fun R hR => ⟨mirrors_cube hR, oneAtom_symmetry R⟩⟩

/-- the three-fold rotations of a hexagonal lattice, and the inversion -/
def threefold : List (M3 ℤ) := [
  ⟨⟨1, 0, 0⟩, ⟨0, 1, 0⟩, ⟨0, 0, 1⟩⟩, ⟨⟨0, -1, 0⟩, ⟨1, -1, 0⟩, ⟨0, 0, 1⟩⟩, ⟨⟨-1, 1, 0⟩, ⟨-1, 0, 0⟩, ⟨0, 0, 1⟩⟩,
  ⟨⟨-1, 0, 0⟩, ⟨0, -1, 0⟩, ⟨0, 0, -1⟩⟩, ⟨⟨0, 1, 0⟩, ⟨-1, 1, 0⟩, ⟨0, 0, -1⟩⟩, ⟨⟨1, -1, 0⟩, ⟨1, 0, 0⟩, ⟨0, 0, -1⟩⟩]

theorem threefold_group : IsGroup threefold := ⟨by decide, by decide, by decide⟩

theorem threefold_hexagonal {R : M3 ℤ} (hR : R ∈ threefold) : LatticeSymmetry hexagonal R := by
  intro u
  have h3 := sqrt3
  have e : ∀ u, V3.length2 (point hexagonal.base u) = u.x * u.x - u.x * u.y + u.y * u.y + u.z * u.z := by
    intro u
    simp [V3.length2, point, hexagonal]
    linear_combination (u.x * u.x / 4) * h3
  rw [e, e]
  simp only [threefold, List.mem_cons, List.not_mem_nil, or_false] at hR
  rcases hR with rfl | rfl | rfl | rfl | rfl | rfl <;> simp [mat, vec, M3.mulVec] <;> ring

/-- C150 fails for hexagonal and trigonal crystals: the matrices are applied to the indexes without transposing them
(`calcpeaks.py:95`), so that (1 1 0) is taken for equivalent to (0 1 0), though its momentum transfer is `√3` times as large. -/
theorem C150_equivalent_false : hexagonal.Valid ∧ IsGroup threefold ∧
    (∀ R ∈ threefold, LatticeSymmetry hexagonal R ∧ StructureSymmetry oneAtom R) ∧
    (⟨1, 1, 0⟩ : HKL) ∈ equivalents threefold ⟨0, 1, 0⟩ ∧
    q hexagonal ⟨1, 1, 0⟩ = Real.sqrt 3 * q hexagonal ⟨0, 1, 0⟩ ∧ 0 < q hexagonal ⟨0, 1, 0⟩ := by
  have hp := Real.pi_pos
  refine ⟨hexagonal_valid, threefold_group, fun R hR => ⟨threefold_hexagonal hR, oneAtom_symmetry R⟩, by decide, ?_, ?_⟩
  · rw [q_eq, q_eq, hexagonal_length, hexagonal_length, mul_left_comm, ← Real.sqrt_mul (by norm_num)]
    norm_num
  · rw [q_eq, hexagonal_length]
    have : 0 < Real.sqrt (4 / 3 * (((0 : ℤ) : ℝ) * ((0 : ℤ) : ℝ) + ((0 : ℤ) : ℝ) * ((1 : ℤ) : ℝ) + ((1 : ℤ) : ℝ) * ((1 : ℤ) : ℝ)) +
      ((0 : ℤ) : ℝ) * ((0 : ℤ) : ℝ)) := Real.sqrt_pos.2 (by norm_num)
    positivity

theorem candidates_one (L : Lat) : candidates L .powder 1 none =
    [⟨0, 0, 1⟩, ⟨0, 1, 0⟩, ⟨0, 1, 1⟩, ⟨1, 0, 0⟩, ⟨1, 0, 1⟩, ⟨1, 1, 0⟩, ⟨1, 1, 1⟩] := by
  have hr : range 0 2 = [0, 1] := by decide
  unfold candidates
  simp [hr, tooSmall_none]

/-- C150, C149 fail: the powder pattern of the hexagonal crystal has no line at the momentum transfer of (1 1 0), which scatters as much
as the others. -/
theorem C150_missing_false : ‖F hexagonal oneAtom ⟨1, 1, 0⟩‖ = 1 ∧
    (iterPeaks hexagonal oneAtom threefold .powder 1 none).map (·.hkl) = [⟨0, 0, 1⟩, ⟨0, 1, 0⟩, ⟨0, 1, 1⟩, ⟨1, 1, 1⟩] ∧
    ∀ p ∈ iterPeaks hexagonal oneAtom threefold .powder 1 none, p.q ≠ q hexagonal ⟨1, 1, 0⟩ := by
  have hl : (iterPeaks hexagonal oneAtom threefold .powder 1 none).map (·.hkl) = [⟨0, 0, 1⟩, ⟨0, 1, 0⟩, ⟨0, 1, 1⟩, ⟨1, 1, 1⟩] := by
    unfold iterPeaks
    simp only [candidates_one, oneAtom_F, norm_one]
    rw [List.filter_eq_self.2 (by intros; norm_num), List.map_map]
    have : ((fun p : Peak => p.hkl) ∘ fun h => (⟨h, q hexagonal h, 1 ^ 2 / 100, multiplicity threefold h⟩ : Peak)) = id := rfl
    rw [this, List.map_id]
    decide
  refine ⟨by rw [oneAtom_F, norm_one], hl, fun p hp e => ?_⟩
  have hq : p.q = q hexagonal p.hkl := by
    unfold iterPeaks at hp
    simp only [List.mem_map] at hp
    obtain ⟨h, -, rfl⟩ := hp
    rfl
  have hm : p.hkl ∈ [(⟨0, 0, 1⟩ : HKL), ⟨0, 1, 0⟩, ⟨0, 1, 1⟩, ⟨1, 1, 1⟩] := hl ▸ List.mem_map_of_mem hp
  rw [hq, q_eq, q_eq] at e
  have hpi := Real.pi_pos
  have e2 := mul_left_cancel₀ (by positivity) e
  have hn : ∀ h : HKL, 0 ≤ V3.length2 (hexagonal.recbase.mulVec (vec h)) := fun h => by
    unfold V3.length2
    exact add_nonneg (add_nonneg (mul_self_nonneg _) (mul_self_nonneg _)) (mul_self_nonneg _)
  rw [Real.sqrt_inj (hn _) (hn _), hexagonal_length, hexagonal_length] at e2
  simp only [List.mem_cons, List.not_mem_nil, or_false] at hm
  rcases hm with h | h | h | h <;> rw [h] at e2 <;> norm_num at e2

/-! ### C149 -/

/-- C149 for single crystals: with structure factors that are either zero or above the threshold, the list has each reflection with
indexes up to `N` once, with its indexes, momentum transfer and squared structure factor (in barn). -/
theorem C149_single {L : Lat} {atoms : List Atom} {N : ℕ}
    (hF : ∀ h, ‖F L atoms h‖ ≤ 1e-7 → F L atoms h = 0) (ops : List (M3 ℤ)) (φ : HKL → ℝ → ℝ) :
    ((iterPeaks L atoms ops .singlecrystal N none).map fun p => φ p.hkl p.q * p.F2).sum =
      total N fun h => φ h (q L h) * (‖F L atoms h‖ ^ 2 / 100) := by
  rw [total_eq]
  have hset : boxSet N = (candidates L .singlecrystal N none).toFinset := by
    ext v
    rw [mem_boxSet, List.mem_toFinset, mem_candidates]
    unfold Box
    simp only [low, abs_le]
    constructor
    · rintro ⟨⟨h1, h2, h3⟩, h0⟩
      exact ⟨h1, h2, h3, h0, tooSmall_none _ _, tooSmall_none _ _, tooSmall_none _ _⟩
    · rintro ⟨h1, h2, h3, h0, -⟩
      exact ⟨⟨h1, h2, h3⟩, h0⟩
  rw [hset, List.sum_toFinset _ (candidates_nodup _ _ _ _)]
  unfold iterPeaks
  simp only [List.map_map]
  generalize candidates L .singlecrystal N none = hs
  induction hs with
  | nil => rfl
  | cons h hs ih =>
    rw [List.map_cons, List.sum_cons, ← ih]
    by_cases hh : 1e-7 < ‖F L atoms h‖
    · rw [List.filter_cons_of_pos (by simpa using hh), List.map_cons, List.sum_cons]
      rfl
    · rw [List.filter_cons_of_neg (by simpa using hh), hF h (not_lt.1 hh)]
      simp

example (h : HKL) (h' : ‖F hexagonal oneAtom h‖ ≤ 1e-7) : F hexagonal oneAtom h = 0 := by
  rw [oneAtom_F, norm_one] at h'
  norm_num at h'

/-- C149 (partly), powders: if the symmetry matrices form a group of rotations and reflections of the cube that has the reflections at the
three planes, and structure factors are zero or above the threshold, then the sum over the list with multiplicities is the sum over all
reflections, for each function `φ` of the momentum transfer.  Missing: other groups (`C149_powder_false`, `C150_missing_false`). -/
theorem C149_powder_partial {L : Lat} (hL : L.Valid) {atoms : List Atom} {ops : List (M3 ℤ)} (hg : IsGroup ops)
    (hm : Mirrors ops) (hs : ∀ R ∈ ops, Cubic R ∧ LatticeSymmetry L R ∧ StructureSymmetry atoms R)
    (hF : ∀ h, ‖F L atoms h‖ ≤ 1e-7 → F L atoms h = 0) (N : ℕ) (φ : ℝ → ℝ) :
    ((iterPeaks L atoms ops .powder N none).map fun p => (p.mult : ℝ) * (φ p.q * p.F2)).sum =
      total N fun h => φ (q L h) * (‖F L atoms h‖ ^ 2 / 100) := by
  have ht : ∀ R ∈ ops, R.transpose ∈ ops := by
    intro R hR
    obtain ⟨S, hS, e⟩ := hg.inv R hR
    have : S = R.transpose := by
      rw [← mul_one' S, ← cubic_right (hs R hR).1, ← mul_assoc', e, one_mul']
    exact this ▸ hS
  rw [← sum_picks hg (fun R hR => (hs R hR).1) hm L N (w := fun h => φ (q L h) * (‖F L atoms h‖ ^ 2 / 100)) ?_]
  · unfold iterPeaks
    simp only [List.map_map]
    generalize picks ops (candidates L .powder N none) [] = ps
    induction ps with
    | nil => rfl
    | cons h ps ih =>
      rw [List.map_cons, List.sum_cons, ← ih]
      by_cases hh : 1e-7 < ‖F L atoms h‖
      · rw [List.filter_cons_of_pos (by simpa using hh), List.map_cons, List.sum_cons]
        rfl
      · rw [List.filter_cons_of_neg (by simpa using hh), hF h (not_lt.1 hh)]
        simp
  · intro R hR h
    obtain ⟨h1, h2⟩ := C150_equivalent_partial hL (fun R hR => (hs R hR).2) ht
      (((equivalents_spec ops h).2 _).2 ⟨R, hR, rfl⟩)
    simp only [h1, h2]

example : cube.Valid ∧ IsGroup mirrors ∧ Mirrors mirrors ∧
    (∀ R ∈ mirrors, Cubic R ∧ LatticeSymmetry cube R ∧ StructureSymmetry oneAtom R) ∧
    ∀ h, ‖F cube oneAtom h‖ ≤ 1e-7 → F cube oneAtom h = 0 := by
  refine ⟨cube_valid, mirrors_group, ⟨by decide, by decide, by decide⟩, fun R hR => ⟨?_, mirrors_cube hR, oneAtom_symmetry R⟩, ?_⟩
  · revert R
    unfold Cubic
    decide
  · intro h h'
    rw [oneAtom_F, norm_one] at h'
    norm_num at h'

/-- the identity and the inversion -/
def inversion : List (M3 ℤ) := [⟨⟨1, 0, 0⟩, ⟨0, 1, 0⟩, ⟨0, 0, 1⟩⟩, ⟨⟨-1, 0, 0⟩, ⟨0, -1, 0⟩, ⟨0, 0, -1⟩⟩]

/-- C149 fails for powders: only indexes that are not negative are tried (`calcpeaks.py:14`), which is not enough for crystals of
low symmetry.  In a triclinic or monoclinic crystal the line of (1 -1 0) is missing from the list, for any number of indexes. -/
theorem C149_powder_false : oblique.Valid ∧ IsGroup inversion ∧
    (∀ R ∈ inversion, LatticeSymmetry oblique R ∧ StructureSymmetry oneAtom R) ∧
    ‖F oblique oneAtom ⟨1, -1, 0⟩‖ = 1 ∧
    ∀ N, ∀ p ∈ iterPeaks oblique oneAtom inversion .powder N none, p.q ≠ q oblique ⟨1, -1, 0⟩ := by
  refine ⟨oblique_valid, ⟨by decide, by decide, by decide⟩, fun R hR => ⟨?_, oneAtom_symmetry R⟩,
    by rw [oneAtom_F, norm_one], fun N p hp e => ?_⟩
  · intro u
    simp only [inversion, List.mem_cons, List.not_mem_nil, or_false] at hR
    rcases hR with rfl | rfl <;> simp [V3.length2, point, oblique, mat, vec, M3.mulVec] <;> ring
  · unfold iterPeaks at hp
    simp only [List.mem_map, List.mem_filter] at hp
    obtain ⟨h, ⟨hh, -⟩, rfl⟩ := hp
    have hc := ((picks_spec (ops := inversion) ⟨by decide, by decide, by decide⟩ _ _).1 h hh).1
    rw [mem_candidates] at hc
    obtain ⟨⟨hx, -⟩, ⟨hy, -⟩, ⟨hz, -⟩, -⟩ := hc
    simp only [low] at hx hy hz
    have hpi := Real.pi_pos
    simp only at e
    rw [q_eq, q_eq] at e
    have e2 := mul_left_cancel₀ (by positivity) e
    have hn : ∀ h : HKL, 0 ≤ V3.length2 (oblique.recbase.mulVec (vec h)) := fun h => by
      unfold V3.length2
      exact add_nonneg (add_nonneg (mul_self_nonneg _) (mul_self_nonneg _)) (mul_self_nonneg _)
    rw [Real.sqrt_inj (hn _) (hn _)] at e2
    simp [V3.length2, M3.mulVec, oblique, vec] at e2
    have e3 : (16 * (h.x * h.x) + 8 * (h.x * h.y) + 17 * (h.y * h.y) + 16 * (h.z * h.z) : ℝ) = 25 := by linarith
    have e4 : 16 * (h.x * h.x) + 8 * (h.x * h.y) + 17 * (h.y * h.y) + 16 * (h.z * h.z) = 25 := by exact_mod_cast e3
    have hx1 : h.x ≤ 1 := by nlinarith
    have hy1 : h.y ≤ 1 := by nlinarith
    have hz1 : h.z ≤ 1 := by nlinarith
    have : h.x = 0 ∨ h.x = 1 := by omega
    have : h.y = 0 ∨ h.y = 1 := by omega
    have : h.z = 0 ∨ h.z = 1 := by omega
    rcases ‹h.x = 0 ∨ h.x = 1› with h1 | h1 <;> rcases ‹h.y = 0 ∨ h.y = 1› with h2 | h2 <;>
      rcases ‹h.z = 0 ∨ h.z = 1› with h3 | h3 <;> rw [h1, h2, h3] at e4 <;> omega

/-! ### C151 -/

theorem orthogonal_length {L : Lat} (hL : L.Valid) (ho : Orthogonal L.base) (h : HKL) :
    V3.length2 (L.recbase.mulVec (vec h)) = V3.length2 (L.recbase.mulVec (vec ⟨h.x, 0, 0⟩)) +
      V3.length2 (L.recbase.mulVec (vec ⟨0, h.y, 0⟩)) + V3.length2 (L.recbase.mulVec (vec ⟨0, 0, h.z⟩)) := by
  obtain ⟨⟨⟨A, B, C⟩, ⟨D0, D, E⟩, ⟨G0, G1, G⟩⟩, ⟨⟨p, s, t⟩, ⟨u0, u, v⟩, ⟨w0, w1, w⟩⟩⟩ := L
  obtain ⟨s1, s2, s3, s4, s5, s6⟩ := ho
  simp only at s1 s2 s3 s4 s5 s6
  subst s1 s2 s3 s4 s5 s6
  have r := hL.right
  have e := fun f : M3 ℝ → ℝ => congrArg f r
  have e00 := e (fun m => m.r0.x); have e01 := e (fun m => m.r0.y); have e02 := e (fun m => m.r0.z)
  have e10 := e (fun m => m.r1.x); have e11 := e (fun m => m.r1.y); have e12 := e (fun m => m.r1.z)
  have e20 := e (fun m => m.r2.x); have e21 := e (fun m => m.r2.y); have e22 := e (fun m => m.r2.z)
  simp [M3.mul, M3.mulVec, M3.transpose, M3.one] at e00 e01 e02 e10 e11 e12 e20 e21 e22
  have hA : A ≠ 0 := fun h => by rw [h] at e00; simp at e00
  have hD : D ≠ 0 := fun h => by rw [h] at e11; simp at e11
  have hG : G ≠ 0 := fun h => by rw [h] at e22; simp at e22
  simp [hA, hD, hG] at e01 e02 e10 e12 e20 e21
  simp [V3.length2, M3.mulVec, vec, e01, e02, e10, e12, e20, e21]

theorem tooSmall_iff {L : Lat} {m : ℝ} (h : HKL) : tooSmall L (some m) h ↔
    V3.length2 (L.recbase.mulVec (vec h)) ≠ 0 ∧ 1 / Real.sqrt (V3.length2 (L.recbase.mulVec (vec h))) < m := by
  have hn : 0 ≤ V3.length2 (L.recbase.mulVec (vec h)) := by
    unfold V3.length2
    exact add_nonneg (add_nonneg (mul_self_nonneg _) (mul_self_nonneg _)) (mul_self_nonneg _)
  unfold tooSmall d
  simp only
  constructor
  · rintro ⟨m', x, h1, h2, h3⟩
    rw [Option.some.injEq] at h1
    subst h1
    split_ifs at h2 with h4
    rw [Option.some.injEq] at h2
    exact ⟨fun e => h4 (by rw [e, Real.sqrt_zero]), h2 ▸ h3⟩
  · rintro ⟨h1, h2⟩
    exact ⟨m, _, rfl, if_neg (fun e => h1 ((Real.sqrt_eq_zero hn).1 e)), h2⟩

/-- a shorter reciprocal vector has no smaller spacing -/
theorem tooSmall_mono {L : Lat} {m : ℝ} {a b : HKL}
    (hab : V3.length2 (L.recbase.mulVec (vec a)) ≤ V3.length2 (L.recbase.mulVec (vec b)))
    (h : tooSmall L (some m) a) : tooSmall L (some m) b := by
  rw [tooSmall_iff] at h ⊢
  have hn : 0 ≤ V3.length2 (L.recbase.mulVec (vec a)) := by
    unfold V3.length2
    exact add_nonneg (add_nonneg (mul_self_nonneg _) (mul_self_nonneg _)) (mul_self_nonneg _)
  have ha := lt_of_le_of_ne hn (Ne.symm h.1)
  refine ⟨(lt_of_lt_of_le ha hab).ne', lt_of_le_of_lt ?_ h.2⟩
  exact one_div_le_one_div_of_le (Real.sqrt_pos.2 ha) (Real.sqrt_le_sqrt hab)

theorem picks_cons (ops : List (M3 ℤ)) (h : HKL) (hs skip : List HKL) :
    picks ops (h :: hs) skip = if h ∈ skip then picks ops hs skip else h :: picks ops hs (skip ++ equivalents ops h) := rfl

theorem picks_filter {ops : List (M3 ℤ)} (P : HKL → Bool) (hP : ∀ h, ∀ v ∈ equivalents ops h, P v = P h) :
    ∀ (hs s1 s2 : List HKL), (∀ x, P x = true → (x ∈ s1 ↔ x ∈ s2)) →
      picks ops (hs.filter P) s1 = (picks ops hs s2).filter P
  | [], _, _, _ => rfl
  | h :: hs, s1, s2, hS => by
    by_cases hp : P h = true
    · rw [List.filter_cons_of_pos hp, picks_cons, picks_cons]
      by_cases hm : h ∈ s2
      · rw [if_pos hm, if_pos ((hS h hp).2 hm)]
        exact picks_filter P hP hs s1 s2 hS
      · rw [if_neg hm, if_neg (fun h' => hm ((hS h hp).1 h')), List.filter_cons_of_pos hp]
        congr 1
        refine picks_filter P hP hs _ _ fun x hx => ?_
        rw [List.mem_append, List.mem_append, hS x hx]
    · rw [List.filter_cons_of_neg hp, picks_cons]
      by_cases hm : h ∈ s2
      · rw [if_pos hm]
        exact picks_filter P hP hs s1 s2 hS
      · rw [if_neg hm, List.filter_cons_of_neg hp]
        refine picks_filter P hP hs _ _ fun x hx => ?_
        rw [List.mem_append, hS x hx]
        constructor
        · exact Or.inl
        · rintro (h' | h')
          · exact h'
          · exact absurd ((hP h x h').symm.trans hx) hp

open Classical in
theorem candidates_filter {L : Lat} (hL : L.Valid) (ho : Orthogonal L.base) (kind : Kind) (N : ℕ) (m : ℝ) :
    candidates L kind N (some m) = (candidates L kind N none).filter fun h => ¬ tooSmall L (some m) h := by
  have hn : ∀ h : HKL, 0 ≤ V3.length2 (L.recbase.mulVec (vec h)) := fun h => by
    unfold V3.length2
    exact add_nonneg (add_nonneg (mul_self_nonneg _) (mul_self_nonneg _)) (mul_self_nonneg _)
  have hx : ∀ h k l : ℤ, tooSmall L (some m) ⟨h, 0, 0⟩ → tooSmall L (some m) ⟨h, k, l⟩ := fun h k l =>
    tooSmall_mono (by rw [orthogonal_length hL ho ⟨h, k, l⟩]; linarith [hn ⟨0, k, 0⟩, hn ⟨0, 0, l⟩])
  have hy : ∀ h k l : ℤ, tooSmall L (some m) ⟨0, k, 0⟩ → tooSmall L (some m) ⟨h, k, l⟩ := fun h k l =>
    tooSmall_mono (by rw [orthogonal_length hL ho ⟨h, k, l⟩]; linarith [hn ⟨h, 0, 0⟩, hn ⟨0, 0, l⟩])
  unfold candidates
  simp only [tooSmall_none, not_false_eq_true, and_true, decide_true, List.filter_true]
  generalize range _ _ = r
  rw [List.filter_flatMap]
  have skip : ∀ (r : List ℤ) (P : ℤ → Bool) (f g : ℤ → List HKL), (∀ a ∈ r, ¬ P a = true → g a = []) → (∀ a ∈ r, P a = true → f a = g a) →
      (r.filter P).flatMap f = r.flatMap g := by
    intro r P f g h1 h2
    induction r with
    | nil => rfl
    | cons a r ih =>
      have ih := ih (fun b hb => h1 b (List.mem_cons_of_mem _ hb)) (fun b hb => h2 b (List.mem_cons_of_mem _ hb))
      by_cases hp : P a = true
      · rw [List.filter_cons_of_pos hp, List.flatMap_cons, List.flatMap_cons, ih, h2 a List.mem_cons_self hp]
      · rw [List.filter_cons_of_neg hp, List.flatMap_cons, ih, h1 a List.mem_cons_self hp, List.nil_append]
  apply skip
  · intro h _ hh
    rw [decide_eq_true_eq, not_not] at hh
    rw [List.filter_eq_nil_iff]
    intro v hv
    simp only [List.mem_flatMap, List.mem_map] at hv
    obtain ⟨k, _, l, _, rfl⟩ := hv
    simpa using hx h k l hh
  · intro h _ _
    rw [List.filter_flatMap]
    apply skip
    · intro k _ hk
      rw [decide_eq_true_eq, not_not] at hk
      rw [List.filter_eq_nil_iff]
      intro v hv
      simp only [List.mem_map] at hv
      obtain ⟨l, _, rfl⟩ := hv
      simpa using hy h k l hk
    · intro k _ _
      rw [List.filter_map, List.filter_filter]
      congr 2
      funext l
      simp only [Function.comp]
      by_cases h1 : h = 0 ∧ k = 0 ∧ l = 0 <;> by_cases h2 : tooSmall L (some m) ⟨h, k, l⟩ <;> simp [h1, h2]

open Classical in
/-- C151 (partly): for a lattice with orthogonal basis vectors along the axes, the list for a smallest spacing `m` has exactly those
reflections of the list without it whose spacing `2π/q` is at least `m`, in the same order and with the same multiplicities.  For
powders, the reflections that are counted together are to have the same momentum transfer (see C150).  Missing: other lattices
(`C151_spacing_false`). -/
theorem C151_spacing_partial {L : Lat} (hL : L.Valid) (ho : Orthogonal L.base) (atoms : List Atom) {ops : List (M3 ℤ)} {kind : Kind}
    (hk : kind = .powder → ∀ h, ∀ v ∈ equivalents ops h, q L v = q L h) (N : ℕ) (m : ℝ) :
    iterPeaks L atoms ops kind N (some m) = (iterPeaks L atoms ops kind N none).filter fun p => m ≤ 2 * Real.pi / p.q := by
  have hpi := Real.pi_pos
  have key : ∀ h : HKL, h ≠ ⟨0, 0, 0⟩ → (¬ tooSmall L (some m) h ↔ m ≤ 2 * Real.pi / q L h) := by
    intro h h0
    obtain ⟨x, hx, hx0, hxq⟩ := C49_spacing hL h0
    have hq : q L h = 2 * Real.pi / x := by rw [← hxq]; field_simp
    rw [hq, show 2 * Real.pi / (2 * Real.pi / x) = x by field_simp]
    unfold tooSmall
    constructor
    · intro hn
      by_contra hm
      exact hn ⟨m, x, rfl, hx, not_le.1 hm⟩
    · rintro hm ⟨m', x', h1, h2, h3⟩
      rw [Option.some.injEq] at h1
      rw [hx, Option.some.injEq] at h2
      subst h1 h2
      exact absurd h3 (not_lt.2 hm)
  have fin : ∀ hs : List HKL, (∀ h ∈ hs, h ≠ ⟨0, 0, 0⟩) →
      ((hs.filter fun h => ¬ tooSmall L (some m) h).filter fun h => 1e-7 < ‖F L atoms h‖).map
        (fun h => (⟨h, q L h, ‖F L atoms h‖ ^ 2 / 100, multiplicity ops h⟩ : Peak)) =
      ((hs.filter fun h => 1e-7 < ‖F L atoms h‖).map
        (fun h => (⟨h, q L h, ‖F L atoms h‖ ^ 2 / 100, multiplicity ops h⟩ : Peak))).filter fun p => m ≤ 2 * Real.pi / p.q := by
    intro hs h0
    rw [List.filter_map, List.filter_filter, List.filter_filter]
    congr 1
    apply List.filter_congr
    intro h hh
    simp only [Function.comp, ← key h (h0 h hh)]
    exact Bool.and_comm _ _
  cases kind with
  | singlecrystal =>
    unfold iterPeaks
    simp only
    rw [candidates_filter hL ho]
    exact fin _ fun h hh => ((mem_candidates _ _ _ _ _).1 hh).2.2.2.1
  | powder =>
    unfold iterPeaks
    simp only
    rw [candidates_filter hL ho, picks_filter (s2 := [])]
    · refine fin _ fun h hh => ?_
      have : ∀ (hs skip : List HKL) (r : HKL), r ∈ picks ops hs skip → r ∈ hs := by
        intro hs
        induction hs with
        | nil => intro _ _ h; simp [picks] at h
        | cons a hs ih =>
          intro skip r hr
          unfold picks at hr
          split_ifs at hr
          · exact List.mem_cons_of_mem _ (ih _ _ hr)
          · rcases List.mem_cons.1 hr with rfl | hr
            · exact List.mem_cons_self
            · exact List.mem_cons_of_mem _ (ih _ _ hr)
      exact ((mem_candidates _ _ _ _ _).1 (this _ _ _ hh)).2.2.2.1
    · intro h v hv
      have e := hk rfl h v hv
      rw [q_eq, q_eq] at e
      have e2 := mul_left_cancel₀ (by positivity) e
      have hn : ∀ h : HKL, 0 ≤ V3.length2 (L.recbase.mulVec (vec h)) := fun h => by
        unfold V3.length2
        exact add_nonneg (add_nonneg (mul_self_nonneg _) (mul_self_nonneg _)) (mul_self_nonneg _)
      rw [Real.sqrt_inj (hn _) (hn _)] at e2
      simp only [tooSmall_iff, e2]
    · intro x _; rfl

example : Orthogonal cube.base ∧ ∀ h, ∀ v ∈ equivalents mirrors h, q cube v = q cube h :=
  ⟨by simp [Orthogonal, cube, M3.one], fun _ _ hv => (C150_equivalent_partial cube_valid
    (fun R hR => ⟨mirrors_cube hR, oneAtom_symmetry R⟩) (by decide) hv).1⟩

/-- C151 fails for other lattices: in a hexagonal crystal with smallest spacing 1/2, the reflection (2 -1 0) has just that spacing and is
left out, as the loop stops at (2 0 0) with a spacing of 0.43 (`calcpeaks.py:23-25`). -/
theorem C151_spacing_false : hexagonal.Valid ∧
    (∃ p ∈ iterPeaks hexagonal oneAtom threefold .singlecrystal 2 none, p.hkl = ⟨2, -1, 0⟩ ∧ 1 / 2 = 2 * Real.pi / p.q) ∧
    ∀ p ∈ iterPeaks hexagonal oneAtom threefold .singlecrystal 2 (some (1 / 2)), p.hkl ≠ ⟨2, -1, 0⟩ := by
  have hpi := Real.pi_pos
  refine ⟨hexagonal_valid, ⟨⟨⟨2, -1, 0⟩, q hexagonal ⟨2, -1, 0⟩, ‖F hexagonal oneAtom ⟨2, -1, 0⟩‖ ^ 2 / 100, multiplicity threefold ⟨2, -1, 0⟩⟩,
    ?_, rfl, ?_⟩, ?_⟩
  · unfold iterPeaks
    simp only [List.mem_map, List.mem_filter, oneAtom_F, norm_one]
    refine ⟨⟨2, -1, 0⟩, ⟨?_, by norm_num⟩, rfl⟩
    rw [mem_candidates]
    simp only [low]
    refine ⟨by norm_num, by norm_num, by norm_num, by decide, tooSmall_none _ _, tooSmall_none _ _, tooSmall_none _ _⟩
  · simp only
    rw [q_eq, hexagonal_length]
    rw [show (4 / 3 * (((2 : ℤ) : ℝ) * ((2 : ℤ) : ℝ) + ((2 : ℤ) : ℝ) * ((-1 : ℤ) : ℝ) + ((-1 : ℤ) : ℝ) * ((-1 : ℤ) : ℝ)) +
      ((0 : ℤ) : ℝ) * ((0 : ℤ) : ℝ)) = 2 ^ 2 by norm_num, Real.sqrt_sq (by norm_num)]
    field_simp
  · intro p hp e
    unfold iterPeaks at hp
    simp only [List.mem_map, List.mem_filter] at hp
    obtain ⟨h, ⟨hh, -⟩, rfl⟩ := hp
    simp only at e
    subst e
    rw [mem_candidates] at hh
    apply hh.2.2.2.2.1
    rw [tooSmall_iff, hexagonal_length]
    refine ⟨by norm_num, ?_⟩
    rw [div_lt_div_iff₀ (Real.sqrt_pos.2 (by norm_num)) (by norm_num), one_mul, one_mul]
    apply Real.lt_sqrt_of_sq_lt
    norm_num

end
end Verif.Peaks
