import Verif.Lemmas.XtalWave
/-!
C127-C129: the scattered wave of a phonon.
-/

namespace Verif.Xtal
open Solid Flight Homog Kinem Powder Dos

/-! ### C127 -/

/-- C127: the strength of the scattered wave does not depend on the choice of the origin of the cell. -/
theorem C127_origin {D : Phonons} {Q t : V3 ℝ} {br : Nat} {atoms : List Atom} {F : ℂ} (hm : ∀ a ∈ atoms, 0 < a.mass)
    (h : sumLen D Q br atoms = some F) :
    ∃ F', sumLen D Q br (atoms.map fun a => { a with pos := a.pos + t }) = some F' ∧
      Complex.normSq F' = Complex.normSq F := by
  obtain ⟨h1, h2⟩ := sumLen_some hm h
  refine ⟨_, sumLen_eq (by simpa using h1) ?_, ?_⟩
  · intro a ha
    obtain ⟨b, hb, rfl⟩ := List.mem_map.1 ha
    exact hm b hb
  · rw [zipIdx_map_fst, List.map_map, sum_map_mul (Complex.exp (Complex.I * (Q.dot t : ℝ)))
      (fun p => termOf Q (D.polarization br p.2 Q) p.1), Complex.normSq_mul, normSq_exp_I, one_mul, ← h2]
    intro p _
    simp only [Function.comp, termOf]
    rw [show ((Q.dot (p.1.pos + t) : ℝ) : ℂ) = (Q.dot t : ℝ) + (Q.dot p.1.pos : ℝ) by
      simp only [V3.dot, V3.add_x, V3.add_y, V3.add_z]; push_cast; ring, mul_add, Complex.exp_add]
    ring

/-- C127: it does not depend on phase and scale of the polarization vectors. -/
theorem C127_phase {D : Phonons} {Q : V3 ℝ} {br : Nat} {atoms : List Atom} {F c : ℂ} (hm : ∀ a ∈ atoms, 0 < a.mass)
    (hc : c ≠ 0) (h : sumLen D Q br atoms = some F) :
    ∃ F', sumLen { D with polarization := fun b i q => ⟨c * (D.polarization b i q).x, c * (D.polarization b i q).y,
        c * (D.polarization b i q).z⟩ } Q br atoms = some F' ∧ Complex.normSq F' = Complex.normSq F := by
  obtain ⟨h1, h2⟩ := sumLen_some hm h
  have hn := Complex.normSq_pos.2 hc
  refine ⟨_, sumLen_eq ?_ hm, ?_⟩
  · intro i hi
    simp only [sqLen_smul]
    exact mul_ne_zero hn.ne' (h1 i hi)
  · have hs : (√(Complex.normSq c) : ℂ) ≠ 0 := by exact_mod_cast (Real.sqrt_pos.2 hn).ne'
    rw [sum_map_mul (c / (√(Complex.normSq c) : ℝ)) (fun p => termOf Q (D.polarization br p.2 Q) p.1),
      Complex.normSq_mul, Complex.normSq_div, Complex.normSq_ofReal, Real.mul_self_sqrt hn.le, div_self hn.ne', one_mul, ← h2]
    intro p _
    simp only [termOf, sqLen_smul, Real.sqrt_mul hn.le]
    push_cast
    rw [show ((Q.x : ℂ) * (c * (D.polarization br p.2 Q).x) + Q.y * (c * (D.polarization br p.2 Q).y) +
      Q.z * (c * (D.polarization br p.2 Q).z)) = c * (Q.x * (D.polarization br p.2 Q).x + Q.y * (D.polarization br p.2 Q).y +
      Q.z * (D.polarization br p.2 Q).z) by ring, mul_div_mul_comm]
    ring

/-- C127: with one atom in the cell it is `b²/M` times the squared projection of Q on the polarization. -/
theorem C127_one {D : Phonons} {Q : V3 ℝ} {br : Nat} {a : Atom} (hm : 0 < a.mass)
    (he : sqLen (D.polarization br 0 Q) ≠ 0) :
    ∃ F, sumLen D Q br [a] = some F ∧ Complex.normSq F = a.b ^ 2 / a.mass *
      (Complex.normSq (Q.x * (D.polarization br 0 Q).x + Q.y * (D.polarization br 0 Q).y + Q.z * (D.polarization br 0 Q).z) /
        sqLen (D.polarization br 0 Q)) := by
  refine ⟨_, sumLen_eq (by simpa using he) (by simpa using hm), ?_⟩
  simp only [List.zipIdx_cons, List.zipIdx_nil, List.map_cons, List.map_nil, List.sum_cons, List.sum_nil, add_zero, termOf]
  rw [Complex.normSq_mul, Complex.normSq_mul, normSq_exp_I, Complex.normSq_div, Complex.normSq_ofReal,
    Complex.normSq_ofReal, Real.mul_self_sqrt (sqLen_nonneg _), mul_one, div_mul_div_comm, Real.mul_self_sqrt hm.le, sq]

/-- the hypotheses of the three theorems can be met -/
example : (∀ a ∈ K0.atoms, 0 < a.mass) ∧ Complex.I ≠ 0 ∧ sumLen D0 ⟨1, 2, 3⟩ 0 K0.atoms = some ((3 : ℝ) : ℂ) ∧
    sqLen (D0.polarization 0 0 ⟨1, 2, 3⟩) ≠ 0 :=
  ⟨by simp [K0], Complex.I_ne_zero, sumLen_z _ 0, by simp [D0, sqLen]⟩

/-! ### C128 -/

/-- C128, partial: the scattered wave is that of the phonon if all polarization vectors have length 1.  Missing: other
vectors, see `C128_amplitude_false`. -/
theorem C128_amplitude_partial {D : Phonons} {Q : V3 ℝ} {br : Nat} {atoms : List Atom} (hm : ∀ a ∈ atoms, 0 < a.mass)
    (he : ∀ i < atoms.length, sqLen (D.polarization br i Q) = 1) :
    sumLen D Q br atoms = some (waveSum Q atoms ((List.range atoms.length).map fun i => D.polarization br i Q)) := by
  rw [sumLen_eq (fun i hi => by rw [he i hi]; exact one_ne_zero) hm, List.range_eq_range']
  congr 1
  exact sum_zipIdx_zip Q (fun i => D.polarization br i Q) atoms 0 fun i _ h => he i (by simpa using h)

/-- two atoms that move along z with the given amplitudes -/
noncomputable def Dxy (x y : ℂ) : Phonons where
  nBranches := 1
  energy _ _ := 1
  polarization _ i _ := ⟨0, 0, if i = 0 then x else y⟩
  minEnergy _ := 1

example : sumLen (Dxy 1 Complex.I) ⟨0, 0, 2⟩ 0 [⟨0, 1, 1, 1⟩, ⟨0, 1, 1, 1⟩] =
    some (waveSum ⟨0, 0, 2⟩ [⟨0, 1, 1, 1⟩, ⟨0, 1, 1, 1⟩] ((List.range 2).map fun i => (Dxy 1 Complex.I).polarization 0 i ⟨0, 0, 2⟩)) :=
  C128_amplitude_partial (by simp) fun i hi => by
    simp only [List.length_cons, List.length_nil] at hi
    simp only [Dxy, sqLen, map_zero, zero_add]
    split <;> simp

/-- C128 is false: each polarization vector is divided by its own length, so the atoms scatter as if all moved with the
same amplitude: two phonons with the same total amplitude, one with the atoms moving equally, one with different
amplitudes, scatter alike.  With an atom at rest the result is not a number. -/
theorem C128_amplitude_false : ∃ (D D' D'' : Phonons) (Q : V3 ℝ) (atoms : List Atom), (∀ a ∈ atoms, 0 < a.mass) ∧
    (sqLen (D.polarization 0 0 Q) + sqLen (D.polarization 0 1 Q) = sqLen (D'.polarization 0 0 Q) + sqLen (D'.polarization 0 1 Q)) ∧
    (∃ F, sumLen D Q 0 atoms = some F ∧ sumLen D' Q 0 atoms = some F) ∧
    Complex.normSq (waveSum Q atoms [D.polarization 0 0 Q, D.polarization 0 1 Q]) ≠
      Complex.normSq (waveSum Q atoms [D'.polarization 0 0 Q, D'.polarization 0 1 Q]) ∧
    sumLen D'' Q 0 atoms = none ∧ waveSum Q atoms [D''.polarization 0 0 Q, D''.polarization 0 1 Q] = 1 := by
  have e : ∀ x y, sqLen ((Dxy x y).polarization 0 0 ⟨0, 0, 1⟩) = Complex.normSq x ∧
      sqLen ((Dxy x y).polarization 0 1 ⟨0, 0, 1⟩) = Complex.normSq y := by
    intro x y; simp [Dxy, sqLen]
  have n5 : Complex.normSq 5 = 25 := by
    have := Complex.normSq_ofReal 5
    push_cast at this
    rw [this]; norm_num
  have n7 : Complex.normSq 7 = 49 := by
    have := Complex.normSq_ofReal 7
    push_cast at this
    rw [this]; norm_num
  have hs : ∀ x y : ℝ, 0 < x → 0 < y → sumLen (Dxy x y) ⟨0, 0, 1⟩ 0 [⟨0, 1, 1, 1⟩, ⟨0, 1, 1, 1⟩] = some 2 := by
    intro x y hx hy
    rw [sumLen_eq]
    · simp only [List.zipIdx_cons, List.zipIdx_nil, List.map_cons, List.map_nil, List.sum_cons, List.sum_nil, add_zero, termOf]
      simp only [Dxy, sqLen, map_zero, zero_add, Complex.normSq_ofReal, if_true, if_neg one_ne_zero, Real.sqrt_mul_self hx.le,
        Real.sqrt_mul_self hy.le]
      have hx' : (x : ℂ) ≠ 0 := by exact_mod_cast hx.ne'
      have hy' : (y : ℂ) ≠ 0 := by exact_mod_cast hy.ne'
      simp [V3.dot, hx', hy']
      norm_num
    · intro i hi
      simp only [Dxy, sqLen, map_zero, zero_add]
      split <;> simp [hx.ne', hy.ne']
    · simp
  have hw : ∀ x y : ℂ, waveSum ⟨0, 0, 1⟩ [⟨0, 1, 1, 1⟩, ⟨0, 1, 1, 1⟩]
      [(Dxy x y).polarization 0 0 ⟨0, 0, 1⟩, (Dxy x y).polarization 0 1 ⟨0, 0, 1⟩] = x + y := by
    intro x y
    simp [waveSum, Dxy, V3.dot]
  refine ⟨Dxy (5 : ℝ) (5 : ℝ), Dxy (7 : ℝ) (1 : ℝ), Dxy 1 0, ⟨0, 0, 1⟩, [⟨0, 1, 1, 1⟩, ⟨0, 1, 1, 1⟩], by simp, ?_,
    ⟨2, hs 5 5 (by norm_num) (by norm_num), hs 7 1 (by norm_num) (by norm_num)⟩, ?_, ?_, by rw [hw]; simp⟩
  · rw [(e _ _).1, (e _ _).2, (e _ _).1, (e _ _).2]
    simp only [Complex.normSq_ofReal]; norm_num
  · rw [hw, hw, ← Complex.ofReal_add, ← Complex.ofReal_add, Complex.normSq_ofReal, Complex.normSq_ofReal]; norm_num
  · cases hc : sumLen (Dxy 1 0) ⟨0, 0, 1⟩ 0 [⟨0, 1, 1, 1⟩, ⟨0, 1, 1, 1⟩] with
    | none => rfl
    | some F =>
      have := (sumLen_some (by simp) hc).1 1 (by simp)
      rw [(e 1 0).2] at this
      simp at this

/-! ### C129 -/

/-- C129, partial: the scattering length made from the cross section (barn) is that of the atom (fm) if this is not
negative.  Missing: negative scattering lengths, see `C129_sign_false`. -/
theorem C129_sign_partial {b : ℝ} (h : 0 ≤ b) : cohB (4 * Real.pi * b ^ 2 / 100) = b := by
  unfold cohB
  rw [show 4 * Real.pi * b ^ 2 / 100 * 100 / 4 / Real.pi = b ^ 2 by field_simp, Real.sqrt_sq h]

example : cohB (4 * Real.pi * 6.646 ^ 2 / 100) = 6.646 := C129_sign_partial (by norm_num)

/-- C129 is false: the sign of the scattering length is lost; for two atoms with opposite scattering lengths that move
together the waves should cancel, but they add up. -/
theorem C129_sign_false : ∃ (D : Phonons) (Q : V3 ℝ) (b : ℝ), cohB (4 * Real.pi * b ^ 2 / 100) ≠ b ∧
    sumLen D Q 0 [⟨0, 1, -b, 1⟩, ⟨0, 1, b, 1⟩] = some 0 ∧
    sumLen D Q 0 [⟨0, 1, cohB (4 * Real.pi * (-b) ^ 2 / 100), 1⟩, ⟨0, 1, cohB (4 * Real.pi * b ^ 2 / 100), 1⟩] = some 2 := by
  have h1 : cohB (4 * Real.pi * (1 : ℝ) ^ 2 / 100) = 1 := C129_sign_partial (by norm_num)
  have hs : ∀ x y : ℝ, sumLen (Dxy 1 1) ⟨0, 0, 1⟩ 0 [⟨0, 1, x, 1⟩, ⟨0, 1, y, 1⟩] = some ((x + y : ℝ) : ℂ) := by
    intro x y
    rw [sumLen_eq]
    · simp only [List.zipIdx_cons, List.zipIdx_nil, List.map_cons, List.map_nil, List.sum_cons, List.sum_nil, add_zero, termOf]
      simp [Dxy, sqLen, V3.dot]
    · intro i hi
      simp [Dxy, sqLen]
    · simp
  refine ⟨Dxy 1 1, ⟨0, 0, 1⟩, -1, ?_, ?_, ?_⟩
  · rw [show ((-1 : ℝ)) ^ 2 = 1 ^ 2 by norm_num, h1]; norm_num
  · rw [hs]; norm_num
  · rw [neg_neg, show ((-1 : ℝ)) ^ 2 = 1 ^ 2 by norm_num, h1, hs]; norm_num

end Verif.Xtal
