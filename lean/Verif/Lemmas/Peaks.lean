import Verif.Spec.Peaks
import Verif.Lemmas.Frames
import Mathlib.LinearAlgebra.Matrix.NonsingularInverse
import Mathlib.LinearAlgebra.Matrix.Notation
import Mathlib.Algebra.Order.BigOperators.Group.Finset
/-!
Helper lemmas for lists of reflections.
-/

namespace Verif.Peaks
noncomputable section

/-! ### Matrices -/

/-- a matrix of Mathlib -/
def toM {F : Type} (m : M3 F) : Matrix (Fin 3) (Fin 3) F :=
  !![m.r0.x, m.r0.y, m.r0.z; m.r1.x, m.r1.y, m.r1.z; m.r2.x, m.r2.y, m.r2.z]

theorem toM_inj {F : Type} {a b : M3 F} (h : toM a = toM b) : a = b := by
  have e := fun i j => congrFun (congrFun h i) j
  have h00 := e 0 0; have h01 := e 0 1; have h02 := e 0 2
  have h10 := e 1 0; have h11 := e 1 1; have h12 := e 1 2
  have h20 := e 2 0; have h21 := e 2 1; have h22 := e 2 2
  simp [toM] at h00 h01 h02 h10 h11 h12 h20 h21 h22
  ext <;> assumption

theorem toM_mul {F : Type} [CommRing F] (a b : M3 F) : toM (a.mul b) = toM a * toM b := by
  ext i j
  fin_cases i <;> fin_cases j <;>
    simp [toM, M3.mul, M3.mulVec, M3.transpose, Matrix.mul_apply, Fin.sum_univ_three]

theorem toM_one {F : Type} [CommRing F] : toM (M3.one : M3 F) = 1 := by
  ext i j
  fin_cases i <;> fin_cases j <;> simp [toM, M3.one]

theorem mul_comm_one {F : Type} [CommRing F] {a b : M3 F} (h : a.mul b = M3.one) : b.mul a = M3.one := by
  apply toM_inj
  rw [toM_mul, toM_one, mul_eq_one_comm, ← toM_mul, h, toM_one]

theorem mul_assoc' {F : Type} [CommRing F] (a b c : M3 F) : (a.mul b).mul c = a.mul (b.mul c) := by
  apply toM_inj
  simp only [toM_mul, mul_assoc]

theorem one_mul' {F : Type} [CommRing F] (a : M3 F) : M3.one.mul a = a := by
  apply toM_inj; simp only [toM_mul, toM_one, one_mul]

theorem mul_one' {F : Type} [CommRing F] (a : M3 F) : a.mul M3.one = a := by
  apply toM_inj; simp only [toM_mul, toM_one, mul_one]

theorem mulVec_mulVec {F : Type} [CommRing F] (a b : M3 F) (v : V3 F) : a.mulVec (b.mulVec v) = (a.mul b).mulVec v := by
  ext <;> simp [M3.mulVec, M3.mul, M3.transpose] <;> ring

theorem one_mulVec {F : Type} [CommRing F] (v : V3 F) : (M3.one : M3 F).mulVec v = v := by
  ext <;> simp [M3.mulVec, M3.one]

theorem transpose_mul {F : Type} [CommRing F] (a b : M3 F) : (a.mul b).transpose = b.transpose.mul a.transpose := by
  ext <;> simp [M3.mulVec, M3.mul, M3.transpose] <;> ring

theorem transpose_one {F : Type} [CommRing F] : (M3.one : M3 F).transpose = M3.one := rfl

theorem vec_mulVec (R : M3 ℤ) (h : HKL) : vec (R.mulVec h) = (mat R).mulVec (vec h) := by
  ext <;> simp [vec, mat, M3.mulVec]

theorem mat_transpose (R : M3 ℤ) : mat R.transpose = (mat R).transpose := rfl

/-! ### Length of a momentum transfer -/

theorem q_eq (L : Lat) (h : HKL) : q L h = 2 * Real.pi * Real.sqrt (V3.length2 (L.recbase.mulVec (vec h))) := by
  unfold q
  simp only
  rw [show ∀ v : V3 ℝ, V3.dot ((2 * Real.pi) • v) ((2 * Real.pi) • v) = (2 * Real.pi) ^ 2 * V3.length2 v by
    intro v; simp [V3.dot, V3.length2]; ring, Real.sqrt_mul (sq_nonneg _), Real.sqrt_sq (by positivity)]
  congr 3
  ext <;> simp [M3.mulVec, M3.transpose, vec] <;> ring

theorem recbase_inj {L : Lat} (hL : L.Valid) {h : HKL} (h0 : V3.length2 (L.recbase.mulVec (vec h)) = 0) : h = ⟨0, 0, 0⟩ := by
  have e : L.recbase.mulVec (vec h) = ⟨0, 0, 0⟩ := by
    unfold V3.length2 at h0
    have h1 := mul_self_nonneg (L.recbase.mulVec (vec h)).x
    have h2 := mul_self_nonneg (L.recbase.mulVec (vec h)).y
    have h3 := mul_self_nonneg (L.recbase.mulVec (vec h)).z
    ext
    · exact mul_self_eq_zero.1 (by linarith)
    · exact mul_self_eq_zero.1 (by linarith)
    · exact mul_self_eq_zero.1 (by linarith)
  have e2 : vec h = ⟨0, 0, 0⟩ := by
    rw [← one_mulVec (vec h), ← hL.right, ← mulVec_mulVec, e]
    ext <;> simp [M3.mulVec]
  have ex := congrArg V3.x e2; have ey := congrArg V3.y e2; have ez := congrArg V3.z e2
  simp only [vec, Int.cast_eq_zero] at ex ey ez
  ext <;> assumption

theorem d_some {L : Lat} (hL : L.Valid) {h : HKL} (h0 : h ≠ ⟨0, 0, 0⟩) :
    d L h = some (1 / Real.sqrt (V3.length2 (L.recbase.mulVec (vec h)))) := by
  unfold d
  simp only
  rw [if_neg]
  intro hs
  apply h0
  apply recbase_inj hL
  have hn : 0 ≤ V3.length2 (L.recbase.mulVec (vec h)) := by
    unfold V3.length2
    exact add_nonneg (add_nonneg (mul_self_nonneg _) (mul_self_nonneg _)) (mul_self_nonneg _)
  exact (Real.sqrt_eq_zero hn).1 hs

/-! ### Symmetry -/

/-- a matrix that keeps all lengths has a transposed matrix that does so -/
theorem isometry_transpose {S : M3 ℝ} (h : ∀ v, V3.length2 (S.mulVec v) = V3.length2 v) (v : V3 ℝ) :
    V3.length2 (S.transpose.mulVec v) = V3.length2 v := by
  have ho : Frames.IsOrtho S.transpose := by
    have e0 := h ⟨1, 0, 0⟩; have e1 := h ⟨0, 1, 0⟩; have e2 := h ⟨0, 0, 1⟩
    have e3 := h ⟨1, 1, 0⟩; have e4 := h ⟨1, 0, 1⟩; have e5 := h ⟨0, 1, 1⟩
    simp [V3.length2, M3.mulVec] at e0 e1 e2 e3 e4 e5
    refine ⟨⟨?_, ?_, ?_⟩, ?_, ?_, ?_⟩ <;> simp only [M3.transpose, V3.dot] <;> linarith
  exact ho.length2_mulVec v

theorem length_symmetry {L : Lat} (hL : L.Valid) {R : M3 ℤ} (hR : LatticeSymmetry L R) (h : HKL) :
    V3.length2 (L.recbase.mulVec (vec (R.transpose.mulVec h))) = V3.length2 (L.recbase.mulVec (vec h)) := by
  have hp : ∀ u, point L.base u = L.base.transpose.mulVec u := by
    intro u; ext <;> simp [point, M3.mulVec, M3.transpose] <;> ring
  have hi : L.base.transpose.mul L.recbase.transpose = M3.one := by
    rw [← transpose_mul, hL.left]; rfl
  have hS : ∀ v, V3.length2 ((L.base.transpose.mul ((mat R).mul L.recbase.transpose)).mulVec v) = V3.length2 v := by
    intro v
    have := hR (L.recbase.transpose.mulVec v)
    rw [hp, hp, mulVec_mulVec, mulVec_mulVec, mulVec_mulVec, hi, one_mulVec, mul_assoc'] at this
    exact this
  have := isometry_transpose hS (L.recbase.mulVec (vec h))
  rw [← this]
  congr 1
  rw [vec_mulVec, mulVec_mulVec, mulVec_mulVec, transpose_mul, transpose_mul, mat_transpose]
  congr 1
  show L.recbase.mul (mat R).transpose = ((L.recbase.mul (mat R).transpose).mul L.base).mul L.recbase
  rw [mul_assoc', hL.right, mul_one']

theorem q_symmetry {L : Lat} (hL : L.Valid) {R : M3 ℤ} (hR : LatticeSymmetry L R) (h : HKL) :
    q L (R.transpose.mulVec h) = q L h := by
  rw [q_eq, q_eq, length_symmetry hL hR]

theorem d_symmetry {L : Lat} (hL : L.Valid) {R : M3 ℤ} (hR : LatticeSymmetry L R) (h : HKL) :
    d L (R.transpose.mulVec h) = d L h := by
  unfold d
  rw [length_symmetry hL hR]

/-- the exponent of the Debye-Waller factor -/
def wOf (B : ℝ) : Option ℝ → ℝ
  | some d => B / 4 / d / d
  | none => 0

theorem Fi_eq (L : Lat) (h : HKL) (a : Atom) :
    Fi L h a = a.o * a.b * Complex.exp (2 * Real.pi * Complex.I * (V3.dot (vec h) a.xyz : ℝ) - (wOf a.B (d L h) : ℝ)) := by
  unfold Fi wOf
  cases d L h <;> rfl

theorem Fi_symmetry {L : Lat} (hL : L.Valid) {R : M3 ℤ} (hR : LatticeSymmetry L R) (h : HKL) {t : V3 ℝ} {a a' : Atom}
    (ha : a'.o = a.o ∧ a'.b = a.b ∧ a'.B = a.B ∧ ∃ n : V3 ℤ, a'.xyz = (mat R).mulVec a.xyz + t + vec n) :
    Fi L h a' = Complex.exp (2 * Real.pi * Complex.I * (V3.dot (vec h) t : ℝ)) * Fi L (R.transpose.mulVec h) a := by
  obtain ⟨h1, h2, h3, n, h4⟩ := ha
  rw [Fi_eq, Fi_eq]
  simp only [h1, h2, h3, d_symmetry hL hR]
  generalize wOf a.B (d L h) = w
  have e : V3.dot (vec h) a'.xyz = V3.dot (vec (R.transpose.mulVec h)) a.xyz + V3.dot (vec h) t +
      ((V3.dot h n : ℤ) : ℝ) := by
    rw [h4, vec_mulVec, mat_transpose]
    simp [V3.dot, M3.mulVec, M3.transpose, vec, mat]
    ring
  rw [e]
  push_cast
  rw [show 2 * (Real.pi : ℂ) * Complex.I * ((V3.dot (vec (R.transpose.mulVec h)) a.xyz : ℝ) + (V3.dot (vec h) t : ℝ) +
      ((V3.dot h n : ℤ) : ℂ)) - (w : ℂ) = 2 * Real.pi * Complex.I * (V3.dot (vec h) t : ℝ) +
      (2 * Real.pi * Complex.I * (V3.dot (vec (R.transpose.mulVec h)) a.xyz : ℝ) - w) +
      ((V3.dot h n : ℤ) : ℂ) * (2 * Real.pi * Complex.I) by ring]
  rw [Complex.exp_periodic.int_mul, Complex.exp_add]
  ring

theorem F_symmetry {L : Lat} (hL : L.Valid) {R : M3 ℤ} (hR : LatticeSymmetry L R) {atoms : List Atom}
    (hs : StructureSymmetry atoms R) (h : HKL) : ‖F L atoms (R.transpose.mulVec h)‖ = ‖F L atoms h‖ := by
  obtain ⟨t, atoms', hp, hf⟩ := hs
  have e : F L atoms h = Complex.exp (2 * Real.pi * Complex.I * (V3.dot (vec h) t : ℝ)) * F L atoms (R.transpose.mulVec h) := by
    unfold F
    rw [← (hp.map (Fi L h)).sum_eq]
    clear hp
    induction hf with
    | nil => simp
    | cons ha _ ih => rw [List.map_cons, List.sum_cons, List.map_cons, List.sum_cons, ih, Fi_symmetry hL hR h ha, mul_add]
  rw [e, norm_mul, show 2 * (Real.pi : ℂ) * Complex.I * (V3.dot (vec h) t : ℝ) =
    ((2 * Real.pi * V3.dot (vec h) t : ℝ) : ℂ) * Complex.I by push_cast; ring, Complex.norm_exp_ofReal_mul_I, one_mul]

/-! ### Equivalent indexes -/

theorem equivalents_spec (ops : List (M3 ℤ)) (h : HKL) :
    (equivalents ops h).Nodup ∧ ∀ v, v ∈ equivalents ops h ↔ ∃ R ∈ ops, R.mulVec h = v := by
  unfold equivalents
  have key : ∀ (ops : List (M3 ℤ)) (vs : List HKL), vs.Nodup →
      (ops.foldl (fun vs R => if R.mulVec h ∈ vs then vs else vs ++ [R.mulVec h]) vs).Nodup ∧
      ∀ v, v ∈ ops.foldl (fun vs R => if R.mulVec h ∈ vs then vs else vs ++ [R.mulVec h]) vs ↔
        v ∈ vs ∨ ∃ R ∈ ops, R.mulVec h = v := by
    intro ops
    induction ops with
    | nil => intro vs hn; exact ⟨hn, by simp⟩
    | cons R ops ih =>
      intro vs hn
      rw [List.foldl_cons]
      by_cases hm : R.mulVec h ∈ vs
      · rw [if_pos hm]
        obtain ⟨k1, k2⟩ := ih vs hn
        refine ⟨k1, fun v => ?_⟩
        rw [k2]
        constructor
        · rintro (hv | ⟨S, hS, hv⟩)
          · exact Or.inl hv
          · exact Or.inr ⟨S, List.mem_cons_of_mem _ hS, hv⟩
        · rintro (hv | ⟨S, hS, hv⟩)
          · exact Or.inl hv
          · rcases List.mem_cons.1 hS with rfl | hS
            · exact Or.inl (hv ▸ hm)
            · exact Or.inr ⟨S, hS, hv⟩
      · rw [if_neg hm]
        obtain ⟨k1, k2⟩ := ih (vs ++ [R.mulVec h]) (by
          rw [List.nodup_append]
          refine ⟨hn, by simp, ?_⟩
          intro a ha b hb
          rw [List.mem_singleton] at hb
          rintro rfl
          exact hm (hb ▸ ha))
        refine ⟨k1, fun v => ?_⟩
        rw [k2, List.mem_append, List.mem_singleton]
        constructor
        · rintro ((hv | rfl) | ⟨S, hS, hv⟩)
          · exact Or.inl hv
          · exact Or.inr ⟨R, List.mem_cons_self, rfl⟩
          · exact Or.inr ⟨S, List.mem_cons_of_mem _ hS, hv⟩
        · rintro (hv | ⟨S, hS, hv⟩)
          · exact Or.inl (Or.inl hv)
          · rcases List.mem_cons.1 hS with rfl | hS
            · exact Or.inl (Or.inr hv.symm)
            · exact Or.inr ⟨S, hS, hv⟩
  obtain ⟨k1, k2⟩ := key ops [] List.nodup_nil
  exact ⟨k1, fun v => by rw [k2]; simp⟩

theorem equivalents_refl {ops : List (M3 ℤ)} (hg : IsGroup ops) (h : HKL) : h ∈ equivalents ops h :=
  ((equivalents_spec ops h).2 h).2 ⟨_, hg.one, one_mulVec h⟩

theorem equivalents_symm {ops : List (M3 ℤ)} (hg : IsGroup ops) {a b : HKL} (h : b ∈ equivalents ops a) :
    a ∈ equivalents ops b := by
  obtain ⟨R, hR, e⟩ := ((equivalents_spec ops a).2 b).1 h
  obtain ⟨S, hS, e2⟩ := hg.inv R hR
  refine ((equivalents_spec ops b).2 a).2 ⟨S, hS, ?_⟩
  rw [← e, mulVec_mulVec, e2, one_mulVec]

theorem equivalents_trans {ops : List (M3 ℤ)} (hg : IsGroup ops) {a b c : HKL} (h1 : b ∈ equivalents ops a)
    (h2 : c ∈ equivalents ops b) : c ∈ equivalents ops a := by
  obtain ⟨R, hR, e⟩ := ((equivalents_spec ops a).2 b).1 h1
  obtain ⟨S, hS, e2⟩ := ((equivalents_spec ops b).2 c).1 h2
  refine ((equivalents_spec ops a).2 c).2 ⟨S.mul R, hg.mul S hS R hR, ?_⟩
  rw [← mulVec_mulVec, e, e2]

theorem picks_spec {ops : List (M3 ℤ)} (hg : IsGroup ops) : ∀ (hs skip : List HKL),
    (∀ r ∈ picks ops hs skip, r ∈ hs ∧ r ∉ skip) ∧
    (∀ h ∈ hs, h ∈ skip ∨ ∃ r ∈ picks ops hs skip, h ∈ equivalents ops r) ∧
    (picks ops hs skip).Pairwise (fun a b => b ∉ equivalents ops a)
  | [], skip => by simp [picks]
  | h :: hs, skip => by
    unfold picks
    by_cases hm : h ∈ skip
    · rw [if_pos hm]
      obtain ⟨k1, k2, k3⟩ := picks_spec hg hs skip
      refine ⟨fun r hr => ⟨List.mem_cons_of_mem _ (k1 r hr).1, (k1 r hr).2⟩, fun x hx => ?_, k3⟩
      rcases List.mem_cons.1 hx with rfl | hx
      · exact Or.inl hm
      · exact k2 x hx
    · rw [if_neg hm]
      obtain ⟨k1, k2, k3⟩ := picks_spec hg hs (skip ++ equivalents ops h)
      refine ⟨fun r hr => ?_, fun x hx => ?_, ?_⟩
      · rcases List.mem_cons.1 hr with rfl | hr
        · exact ⟨List.mem_cons_self, hm⟩
        · exact ⟨List.mem_cons_of_mem _ (k1 r hr).1, fun h' => (k1 r hr).2 (List.mem_append_left _ h')⟩
      · rcases List.mem_cons.1 hx with rfl | hx
        · exact Or.inr ⟨x, List.mem_cons_self, equivalents_refl hg x⟩
        · rcases k2 x hx with h' | ⟨r, hr, h'⟩
          · rcases List.mem_append.1 h' with h' | h'
            · exact Or.inl h'
            · exact Or.inr ⟨h, List.mem_cons_self, h'⟩
          · exact Or.inr ⟨r, List.mem_cons_of_mem _ hr, h'⟩
      · exact List.pairwise_cons.2 ⟨fun b hb h' => (k1 b hb).2 (List.mem_append_right _ h'), k3⟩

/-! ### Cubic matrices keep the box of indexes -/

theorem cubic_right {R : M3 ℤ} (h : Cubic R) : R.mul R.transpose = M3.one := mul_comm_one h

theorem abs_row {x y z : ℤ} (h : x * x + y * y + z * z = 1) {N : ℤ} {v : HKL} (hx : |v.x| ≤ N) (hy : |v.y| ≤ N)
    (hz : |v.z| ≤ N) : |x * v.x + y * v.y + z * v.z| ≤ N := by
  have hN : 0 ≤ N := le_trans (abs_nonneg _) hx
  have b : ∀ a : ℤ, a * a ≤ 1 → |a| = a * a := by
    intro a ha
    have h1 : a ≤ 1 := by nlinarith
    have h2 : -1 ≤ a := by nlinarith
    have : a = -1 ∨ a = 0 ∨ a = 1 := by omega
    rcases this with rfl | rfl | rfl <;> norm_num
  have hx1 := b x (by nlinarith [mul_self_nonneg y, mul_self_nonneg z])
  have hy1 := b y (by nlinarith [mul_self_nonneg x, mul_self_nonneg z])
  have hz1 := b z (by nlinarith [mul_self_nonneg x, mul_self_nonneg y])
  calc |x * v.x + y * v.y + z * v.z| ≤ |x * v.x| + |y * v.y| + |z * v.z| := abs_add_three _ _ _
    _ = |x| * |v.x| + |y| * |v.y| + |z| * |v.z| := by rw [abs_mul, abs_mul, abs_mul]
    _ ≤ |x| * N + |y| * N + |z| * N := by
        have := mul_le_mul_of_nonneg_left hx (abs_nonneg x)
        have := mul_le_mul_of_nonneg_left hy (abs_nonneg y)
        have := mul_le_mul_of_nonneg_left hz (abs_nonneg z)
        linarith
    _ = N := by rw [hx1, hy1, hz1, ← add_mul, ← add_mul, h, one_mul]

/-- indexes up to `N` -/
def Box (N : ℕ) (h : HKL) : Prop := |h.x| ≤ N ∧ |h.y| ≤ N ∧ |h.z| ≤ N

theorem cubic_box {R : M3 ℤ} (hR : Cubic R) {N : ℕ} {h : HKL} (hb : Box N h) : Box N (R.mulVec h) := by
  have e := cubic_right hR
  have e0 := congrArg (fun m : M3 ℤ => m.r0.x) e
  have e1 := congrArg (fun m : M3 ℤ => m.r1.y) e
  have e2 := congrArg (fun m : M3 ℤ => m.r2.z) e
  simp [M3.mul, M3.transpose, M3.mulVec, M3.one] at e0 e1 e2
  obtain ⟨h1, h2, h3⟩ := hb
  exact ⟨abs_row e0 h1 h2 h3, abs_row e1 h1 h2 h3, abs_row e2 h1 h2 h3⟩

/-- a reflection or nothing, so that the index is not negative -/
theorem mirror_nonneg {ops : List (M3 ℤ)} (hg : IsGroup ops) (hm : Mirrors ops) (h : HKL) :
    (⟨|h.x|, |h.y|, |h.z|⟩ : HKL) ∈ equivalents ops h := by
  obtain ⟨m1, m2, m3⟩ := hm
  have s1 : ∀ a b c : ℤ, (⟨-a, b, c⟩ : HKL) ∈ equivalents ops ⟨a, b, c⟩ := fun a b c =>
    ((equivalents_spec ops _).2 _).2 ⟨_, m1, by ext <;> simp [M3.mulVec]⟩
  have s2 : ∀ a b c : ℤ, (⟨a, -b, c⟩ : HKL) ∈ equivalents ops ⟨a, b, c⟩ := fun a b c =>
    ((equivalents_spec ops _).2 _).2 ⟨_, m2, by ext <;> simp [M3.mulVec]⟩
  have s3 : ∀ a b c : ℤ, (⟨a, b, -c⟩ : HKL) ∈ equivalents ops ⟨a, b, c⟩ := fun a b c =>
    ((equivalents_spec ops _).2 _).2 ⟨_, m3, by ext <;> simp [M3.mulVec]⟩
  have a1 : ∀ a b c : ℤ, (⟨|a|, b, c⟩ : HKL) ∈ equivalents ops ⟨a, b, c⟩ := fun a b c => by
    rcases abs_choice a with e | e <;> rw [e]
    · exact equivalents_refl hg _
    · exact s1 a b c
  have a2 : ∀ a b c : ℤ, (⟨a, |b|, c⟩ : HKL) ∈ equivalents ops ⟨a, b, c⟩ := fun a b c => by
    rcases abs_choice b with e | e <;> rw [e]
    · exact equivalents_refl hg _
    · exact s2 a b c
  have a3 : ∀ a b c : ℤ, (⟨a, b, |c|⟩ : HKL) ∈ equivalents ops ⟨a, b, c⟩ := fun a b c => by
    rcases abs_choice c with e | e <;> rw [e]
    · exact equivalents_refl hg _
    · exact s3 a b c
  exact equivalents_trans hg (equivalents_trans hg (a1 h.x h.y h.z) (a2 _ _ _)) (a3 _ _ _)

/-! ### The indexes that are tried -/

theorem mem_range (a b i : ℤ) : i ∈ range a b ↔ a ≤ i ∧ i < b := by
  unfold range
  rw [List.mem_map]
  constructor
  · rintro ⟨n, hn, rfl⟩
    rw [List.mem_range] at hn
    omega
  · rintro ⟨h1, h2⟩
    exact ⟨(i - a).toNat, List.mem_range.2 (by omega), by omega⟩

theorem range_nodup (a b : ℤ) : (range a b).Nodup := by
  unfold range
  exact List.Nodup.map (fun i j h => by simpa using h) List.nodup_range

theorem tooSmall_none (L : Lat) (h : HKL) : ¬ tooSmall L none h := by
  rintro ⟨m, x, h1, -⟩
  exact absurd h1 (by simp)

/-- the smallest index that is tried -/
def low : Kind → ℕ → ℤ
  | .powder, _ => 0
  | .singlecrystal, N => -N

theorem mem_candidates (L : Lat) (kind : Kind) (N : ℕ) (minD : Option ℝ) (h : HKL) : h ∈ candidates L kind N minD ↔
    (low kind N ≤ h.x ∧ h.x ≤ N) ∧ (low kind N ≤ h.y ∧ h.y ≤ N) ∧ (low kind N ≤ h.z ∧ h.z ≤ N) ∧ h ≠ ⟨0, 0, 0⟩ ∧
    ¬ tooSmall L minD ⟨h.x, 0, 0⟩ ∧ ¬ tooSmall L minD ⟨0, h.y, 0⟩ ∧ ¬ tooSmall L minD h := by
  have hr : ∀ i : ℤ, i ∈ range (low kind N) (N + 1) ↔ low kind N ≤ i ∧ i ≤ N := by
    intro i
    rw [mem_range]
    omega
  obtain ⟨hx, hy, hz⟩ := h
  cases kind <;> simp only [low] at hr ⊢ <;>
  simp only [candidates, List.mem_flatMap, List.mem_filter, List.mem_map, hr, decide_eq_true_eq, V3.mk.injEq, ne_eq] <;>
  · constructor
    · rintro ⟨a, ⟨ha, ha'⟩, b, ⟨hb, hb'⟩, c, ⟨hc, hc', hc''⟩, rfl, rfl, rfl⟩
      exact ⟨ha, hb, hc, hc', ha', hb', hc''⟩
    · rintro ⟨ha, hb, hc, hc', ha', hb', hc''⟩
      exact ⟨hx, ⟨ha, ha'⟩, hy, ⟨hb, hb'⟩, hz, ⟨hc, hc', hc''⟩, rfl, rfl, rfl⟩

theorem candidates_nodup (L : Lat) (kind : Kind) (N : ℕ) (minD : Option ℝ) : (candidates L kind N minD).Nodup := by
  unfold candidates
  simp only
  rw [List.nodup_flatMap]
  refine ⟨fun h _ => ?_, ?_⟩
  · rw [List.nodup_flatMap]
    refine ⟨fun k _ => ?_, ?_⟩
    · exact List.Nodup.map (fun a b e => by simpa using e) ((range_nodup _ _).filter _)
    · refine ((range_nodup _ _).filter _).imp ?_
      intro a b hab v hv hw
      simp only [List.mem_map] at hv hw
      obtain ⟨_, _, rfl⟩ := hv
      obtain ⟨_, _, e⟩ := hw
      exact hab (congrArg V3.y e).symm
  · refine ((range_nodup _ _).filter _).imp ?_
    intro a b hab v hv hw
    simp only [List.mem_flatMap, List.mem_map] at hv hw
    obtain ⟨_, _, _, _, rfl⟩ := hv
    obtain ⟨_, _, _, _, e⟩ := hw
    exact hab (congrArg V3.x e).symm

/-! ### The sum over all indexes -/

/-- the indexes of `total` -/
def boxSet (N : ℕ) : Finset HKL :=
  (((Finset.Icc (-N : ℤ) N) ×ˢ (Finset.Icc (-N : ℤ) N) ×ˢ (Finset.Icc (-N : ℤ) N)).image
    fun p => (⟨p.1, p.2.1, p.2.2⟩ : HKL)).filter (· ≠ ⟨0, 0, 0⟩)

theorem mem_boxSet (N : ℕ) (h : HKL) : h ∈ boxSet N ↔ Box N h ∧ h ≠ ⟨0, 0, 0⟩ := by
  obtain ⟨x, y, z⟩ := h
  unfold boxSet Box
  simp only [Finset.mem_filter, Finset.mem_image, Finset.mem_product, Finset.mem_Icc, Prod.exists, V3.mk.injEq, abs_le]
  constructor
  · rintro ⟨⟨a, b, c, ⟨h1, h2, h3⟩, rfl, rfl, rfl⟩, h0⟩
    exact ⟨⟨h1, h2, h3⟩, h0⟩
  · rintro ⟨⟨h1, h2, h3⟩, h0⟩
    exact ⟨⟨x, y, z, ⟨h1, h2, h3⟩, rfl, rfl, rfl⟩, h0⟩

theorem total_eq (N : ℕ) (w : HKL → ℝ) : total N w = ∑ h ∈ boxSet N, w h := by
  unfold total boxSet
  rw [Finset.sum_filter, Finset.sum_image (by
    rintro ⟨a, b, c⟩ - ⟨a', b', c'⟩ - h
    simpa using h), Finset.sum_product]
  refine Finset.sum_congr rfl fun h _ => ?_
  rw [Finset.sum_product]
  refine Finset.sum_congr rfl fun k _ => Finset.sum_congr rfl fun l _ => ?_
  by_cases h0 : h = 0 ∧ k = 0 ∧ l = 0
  · obtain ⟨rfl, rfl, rfl⟩ := h0
    simp
  · rw [if_neg h0, if_pos]
    simpa using h0

theorem sum_picks {ops : List (M3 ℤ)} (hg : IsGroup ops) (hc : ∀ R ∈ ops, Cubic R) (hm : Mirrors ops) (L : Lat) (N : ℕ)
    {w : HKL → ℝ} (hw : ∀ R ∈ ops, ∀ h, w (R.mulVec h) = w h) :
    ((picks ops (candidates L .powder N none) []).map fun h => (multiplicity ops h : ℝ) * w h).sum = total N w := by
  obtain ⟨k1, k2, k3⟩ := picks_spec hg (candidates L .powder N none) []
  obtain ⟨ps, hps⟩ : ∃ ps, ps = picks ops (candidates L .powder N none) [] := ⟨_, rfl⟩
  rw [← hps] at k1 k2 k3 ⊢
  have hnd : ps.Nodup := k3.imp (S := fun a b => a ≠ b) (fun {a b} hab e => hab (e ▸ equivalents_refl hg a))
  have hset : boxSet N = ps.toFinset.biUnion fun r => (equivalents ops r).toFinset := by
    ext v
    rw [mem_boxSet, Finset.mem_biUnion]
    constructor
    · rintro ⟨hb, h0⟩
      have hmem : (⟨|v.x|, |v.y|, |v.z|⟩ : HKL) ∈ candidates L .powder N none := by
        rw [mem_candidates]
        obtain ⟨b1, b2, b3⟩ := hb
        refine ⟨⟨abs_nonneg _, b1⟩, ⟨abs_nonneg _, b2⟩, ⟨abs_nonneg _, b3⟩, ?_, tooSmall_none _ _, tooSmall_none _ _,
          tooSmall_none _ _⟩
        intro e
        apply h0
        have e1 := congrArg V3.x e; have e2 := congrArg V3.y e; have e3 := congrArg V3.z e
        simp only [abs_eq_zero] at e1 e2 e3
        ext <;> assumption
      rcases k2 _ hmem with h' | ⟨r, hr, h'⟩
      · simp at h'
      · exact ⟨r, List.mem_toFinset.2 hr, List.mem_toFinset.2
          (equivalents_trans hg h' (equivalents_symm hg (mirror_nonneg hg hm v)))⟩
    · rintro ⟨r, hr, hv⟩
      rw [List.mem_toFinset] at hr hv
      obtain ⟨hr, -⟩ := k1 r hr
      rw [mem_candidates] at hr
      obtain ⟨⟨x1, x2⟩, ⟨y1, y2⟩, ⟨z1, z2⟩, h0, -⟩ := hr
      simp only [low] at x1 y1 z1
      obtain ⟨R, hR, rfl⟩ := ((equivalents_spec ops r).2 v).1 hv
      refine ⟨cubic_box (hc R hR) ⟨abs_le.2 ⟨by omega, x2⟩, abs_le.2 ⟨by omega, y2⟩, abs_le.2 ⟨by omega, z2⟩⟩, fun e => h0 ?_⟩
      obtain ⟨S, hS, e2⟩ := hg.inv R hR
      rw [← one_mulVec r, ← e2, ← mulVec_mulVec, e]
      ext <;> simp [M3.mulVec]
  have hdis : (ps.toFinset : Set HKL).PairwiseDisjoint fun r => (equivalents ops r).toFinset := by
    intro a ha b hb hab
    rw [Finset.mem_coe, List.mem_toFinset] at ha hb
    rw [Function.onFun, Finset.disjoint_left]
    intro v hv hv'
    rw [List.mem_toFinset] at hv hv'
    have hba : b ∈ equivalents ops a := equivalents_trans hg hv (equivalents_symm hg hv')
    have hab' : a ∈ equivalents ops b := equivalents_symm hg hba
    have : Std.Symm (fun a b => b ∉ equivalents ops a) := ⟨fun x y hxy h' => hxy (equivalents_symm hg h')⟩
    exact k3.forall ha hb hab hba
  rw [total_eq, hset, Finset.sum_biUnion hdis, List.sum_toFinset _ hnd]
  congr 1
  refine List.map_congr_left fun r _ => ?_
  rw [Finset.sum_congr rfl (g := fun _ => w r) (fun v hv => by
    rw [List.mem_toFinset] at hv
    obtain ⟨R, hR, rfl⟩ := ((equivalents_spec ops r).2 v).1 hv
    exact hw R hR r), Finset.sum_const, nsmul_eq_mul, List.toFinset_card_of_nodup (equivalents_spec ops r).1]
  rfl

end

end Verif.Peaks
