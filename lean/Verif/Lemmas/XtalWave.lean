import Verif.Lemmas.Xtal
/-!
Helper lemmas for the scattered wave of a phonon.
-/

namespace Verif.Xtal
open Solid Flight Homog Kinem Powder Dos

/-- value of `atomTerm` -/
noncomputable def termOf (Q : V3 ℝ) (e : V3 ℂ) (a : Atom) : ℂ :=
  ((a.b / √a.mass : ℝ) : ℂ) * Complex.exp (Complex.I * (Q.dot a.pos : ℝ)) *
    ((Q.x * e.x + Q.y * e.y + Q.z * e.z) / ((√(sqLen e) : ℝ) : ℂ))

theorem cdot_self (e : V3 ℂ) : (cdot e e).re = sqLen e := by
  simp only [cdot, sqLen, Complex.add_re, Complex.star_def, Complex.normSq_apply, Complex.mul_re, Complex.conj_re, Complex.conj_im]
  ring

theorem sqLen_nonneg (e : V3 ℂ) : 0 ≤ sqLen e := by
  unfold sqLen
  have := Complex.normSq_nonneg e.x
  have := Complex.normSq_nonneg e.y
  have := Complex.normSq_nonneg e.z
  linarith

theorem cdot_cvec (Q : V3 ℝ) (e : V3 ℂ) : cdot (cvec Q) e = Q.x * e.x + Q.y * e.y + Q.z * e.z := by
  simp [cdot, cvec]

theorem atomTerm_eq {Q : V3 ℝ} {e : V3 ℂ} {a : Atom} (he : sqLen e ≠ 0) (hm : 0 < a.mass) :
    atomTerm Q e a = some (termOf Q e a) := by
  unfold atomTerm divC
  simp only [cdot_self, cdot_cvec]
  have h1 : √(sqLen e) ≠ 0 := (Real.sqrt_pos.2 (lt_of_le_of_ne (sqLen_nonneg e) he.symm)).ne'
  rw [if_neg h1]
  simp only [Option.bind_eq_bind, Option.bind_some, sqrtD_ok hm.le, divD_ok (Real.sqrt_pos.2 hm).ne']
  rfl

theorem atomTerm_none {Q : V3 ℝ} {e : V3 ℂ} {a : Atom} (he : sqLen e = 0) : atomTerm Q e a = none := by
  unfold atomTerm divC
  simp only [cdot_self, he, Real.sqrt_zero, if_true]
  rfl

theorem sumLen_eq {D : Phonons} {Q : V3 ℝ} {br : Nat} {atoms : List Atom}
    (he : ∀ i < atoms.length, sqLen (D.polarization br i Q) ≠ 0) (hm : ∀ a ∈ atoms, 0 < a.mass) :
    sumLen D Q br atoms = some ((atoms.zipIdx.map fun p => termOf Q (D.polarization br p.2 Q) p.1).sum) := by
  unfold sumLen
  have : (atoms.zipIdx.mapM fun (p : Atom × Nat) => atomTerm Q (D.polarization br p.2 Q) p.1) =
      some (atoms.zipIdx.map fun p => termOf Q (D.polarization br p.2 Q) p.1) := by
    have key : ∀ l : List (Atom × Nat), (∀ p ∈ l, p.1 ∈ atoms ∧ p.2 < atoms.length) →
        (l.mapM fun (p : Atom × Nat) => atomTerm Q (D.polarization br p.2 Q) p.1) =
        some (l.map fun p => termOf Q (D.polarization br p.2 Q) p.1) := by
      intro l hl
      induction l with
      | nil => rfl
      | cons p l ih =>
        rw [List.mapM_cons, atomTerm_eq (he p.2 (hl p List.mem_cons_self).2) (hm p.1 (hl p List.mem_cons_self).1),
          ih fun q hq => hl q (List.mem_cons_of_mem _ hq)]
        rfl
    apply key
    intro p hp
    obtain ⟨a, i⟩ := p
    have := List.mem_zipIdx hp
    refine ⟨?_, by omega⟩
    rw [this.2.2]
    exact List.getElem_mem _
  simp only [Option.bind_eq_bind]
  rw [this]
  rfl

theorem mapM_some {α β : Type} {f : α → Option β} : ∀ {l : List α} {r : List β}, l.mapM f = some r →
    ∀ a ∈ l, ∃ b, f a = some b
  | [], _, _, a, ha => by cases ha
  | x :: l, r, h, a, ha => by
    rw [List.mapM_cons] at h
    simp only [Option.bind_eq_bind, Option.bind_eq_some_iff] at h
    obtain ⟨b, hb, bs, hbs, -⟩ := h
    rcases List.mem_cons.1 ha with rfl | ha
    · exact ⟨b, hb⟩
    · exact mapM_some hbs a ha

/-- when the sum is a number -/
theorem sumLen_some {D : Phonons} {Q : V3 ℝ} {br : Nat} {atoms : List Atom} {F : ℂ}
    (hm : ∀ a ∈ atoms, 0 < a.mass) (h : sumLen D Q br atoms = some F) :
    (∀ i < atoms.length, sqLen (D.polarization br i Q) ≠ 0) ∧
    F = (atoms.zipIdx.map fun p => termOf Q (D.polarization br p.2 Q) p.1).sum := by
  have h1 : ∀ i < atoms.length, sqLen (D.polarization br i Q) ≠ 0 := by
    intro i hi he
    unfold sumLen at h
    simp only [Option.bind_eq_bind, Option.bind_eq_some_iff] at h
    obtain ⟨cs, hcs, -⟩ := h
    have hmem : (atoms[i], i) ∈ atoms.zipIdx := by
      rw [List.mem_zipIdx_iff_getElem?]
      simp [hi]
    obtain ⟨b, hb⟩ := mapM_some hcs _ hmem
    simp only at hb
    rw [atomTerm_none he] at hb
    cases hb
  refine ⟨h1, ?_⟩
  rw [sumLen_eq h1 hm] at h
  exact (Option.some.inj h).symm

theorem sum_zipIdx_zip (Q : V3 ℝ) (f : Nat → V3 ℂ) : ∀ (atoms : List Atom) (k : Nat),
    (∀ i, k ≤ i → i < k + atoms.length → sqLen (f i) = 1) →
    ((atoms.zipIdx k).map fun p => termOf Q (f p.2) p.1).sum =
      waveSum Q atoms ((List.range' k atoms.length).map f)
  | [], k, _ => by simp [waveSum]
  | a :: l, k, h => by
    have ih := sum_zipIdx_zip Q f l (k + 1) fun i h1 h2 => h i (by omega) (by simp only [List.length_cons]; omega)
    have h1 := h k le_rfl (by simp)
    unfold waveSum at ih ⊢
    simp only [List.zipIdx_cons, List.map_cons, List.sum_cons, List.length_cons, List.range'_succ, List.zip_cons_cons, ih]
    unfold termOf
    rw [h1]
    simp

theorem sum_map_mul (c : ℂ) {α : Type} (f g : α → ℂ) (l : List α) (h : ∀ a ∈ l, g a = c * f a) :
    (l.map g).sum = c * (l.map f).sum := by
  induction l with
  | nil => simp
  | cons a l ih =>
    simp only [List.map_cons, List.sum_cons, h a List.mem_cons_self, ih fun b hb => h b (List.mem_cons_of_mem _ hb)]
    ring

theorem zipIdx_map_fst {α β : Type} (g : α → β) : ∀ (l : List α) (k : Nat),
    (l.map g).zipIdx k = (l.zipIdx k).map fun p => (g p.1, p.2)
  | [], _ => rfl
  | a :: l, k => by simp [List.zipIdx_cons, zipIdx_map_fst g l (k + 1)]

theorem sqLen_smul (c : ℂ) (e : V3 ℂ) : sqLen ⟨c * e.x, c * e.y, c * e.z⟩ = Complex.normSq c * sqLen e := by
  simp only [sqLen, Complex.normSq_mul]; ring

theorem normSq_exp_I (x : ℝ) : Complex.normSq (Complex.exp (Complex.I * x)) = 1 := by
  rw [Complex.normSq_eq_norm_sq, mul_comm, Complex.norm_exp_ofReal_mul_I]; norm_num

end Verif.Xtal
