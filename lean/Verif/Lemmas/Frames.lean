import Verif.Model.Frames
import Verif.Spec.Frames
import Mathlib.LinearAlgebra.Matrix.NonsingularInverse
import Mathlib.Data.Matrix.Mul
import Mathlib.Tactic.LinearCombination
import Mathlib.Tactic.Linarith
/-! Helper lemmas about frames. -/

namespace Verif.Frames
variable {F : Type}

/-- as a Mathlib matrix -/
def toMx (m : M3 F) : Matrix (Fin 3) (Fin 3) F :=
  !![m.r0.x, m.r0.y, m.r0.z; m.r1.x, m.r1.y, m.r1.z; m.r2.x, m.r2.y, m.r2.z]

theorem IsOrtho.cols [CommRing F] {m : M3 F} (h : IsOrtho m) : IsOrtho m.transpose := by
  obtain ⟨⟨h00, h11, h22⟩, h01, h02, h12⟩ := h
  have e : toMx m * toMx m.transpose = 1 := by
    ext i j
    simp only [V3.dot] at *
    fin_cases i <;> fin_cases j <;>
      simp [toMx, M3.transpose, Matrix.mul_apply, Fin.sum_univ_three] <;>
      first | assumption | (linear_combination h01) | (linear_combination h02) | (linear_combination h12)
  have e' := mul_eq_one_comm.mp e
  have g : ∀ i j, (toMx m.transpose * toMx m) i j = (1 : Matrix (Fin 3) (Fin 3) F) i j := fun i j => by rw [e']
  have g00 := g 0 0; have g11 := g 1 1; have g22 := g 2 2
  have g01 := g 0 1; have g02 := g 0 2; have g12 := g 1 2
  simp [toMx, M3.transpose, Matrix.mul_apply, Fin.sum_univ_three] at g00 g11 g22 g01 g02 g12
  exact ⟨⟨g00, g11, g22⟩, g01, g02, g12⟩

theorem transpose_transpose (m : M3 F) : m.transpose.transpose = m := rfl

theorem IsOrtho.mulVec_labVec [CommRing F] {m : M3 F} (h : IsOrtho m) (v : V3 F) :
    m.mulVec (labVec m v) = v := by
  obtain ⟨⟨h00, h11, h22⟩, h01, h02, h12⟩ := h
  simp only [V3.dot] at *
  ext <;> simp only [M3.mulVec, labVec, V3.add_x, V3.add_y, V3.add_z, V3.smul_x, V3.smul_y, V3.smul_z]
  · linear_combination v.x * h00 + v.y * h01 + v.z * h02
  · linear_combination v.x * h01 + v.y * h11 + v.z * h12
  · linear_combination v.x * h02 + v.y * h12 + v.z * h22

theorem transpose_mulVec [CommRing F] (m : M3 F) (v : V3 F) : m.transpose.mulVec v = labVec m v := by
  ext <;> simp only [M3.mulVec, M3.transpose, labVec, V3.add_x, V3.add_y, V3.add_z, V3.smul_x, V3.smul_y, V3.smul_z] <;> ring

theorem labVec_transpose [CommRing F] (m : M3 F) (v : V3 F) : labVec m.transpose v = m.mulVec v :=
  (transpose_mulVec m.transpose v).symm

theorem IsOrtho.labVec_mulVec [CommRing F] {m : M3 F} (h : IsOrtho m) (v : V3 F) :
    labVec m (m.mulVec v) = v := by
  have := h.cols.mulVec_labVec v
  rwa [labVec_transpose, transpose_mulVec] at this

theorem mul_mulVec [CommRing F] (a b : M3 F) (v : V3 F) : (a.mul b).mulVec v = a.mulVec (b.mulVec v) := by
  ext <;> simp only [M3.mulVec, M3.mul, M3.transpose] <;> ring

theorem labVec_sub [CommRing F] (m : M3 F) (a b : V3 F) : labVec m (a - b) = labVec m a - labVec m b := by
  ext <;> simp [labVec] <;> ring

theorem mulVec_sub [CommRing F] (m : M3 F) (a b : V3 F) : m.mulVec (a - b) = m.mulVec a - m.mulVec b := by
  ext <;> simp [M3.mulVec] <;> ring

theorem mulVec_add [CommRing F] (m : M3 F) (a b : V3 F) : m.mulVec (a + b) = m.mulVec a + m.mulVec b := by
  ext <;> simp [M3.mulVec] <;> ring

theorem IsOrtho.length2_labVec [CommRing F] {m : M3 F} (h : IsOrtho m) (v : V3 F) :
    V3.length2 (labVec m v) = V3.length2 v := by
  obtain ⟨⟨h00, h11, h22⟩, h01, h02, h12⟩ := h
  simp only [V3.dot] at *
  simp only [labVec, V3.length2, V3.add_x, V3.add_y, V3.add_z, V3.smul_x, V3.smul_y, V3.smul_z]
  linear_combination v.x ^ 2 * h00 + v.y ^ 2 * h11 + v.z ^ 2 * h22 + 2 * v.x * v.y * h01 +
    2 * v.x * v.z * h02 + 2 * v.y * v.z * h12

theorem IsOrtho.length2_mulVec [CommRing F] {m : M3 F} (h : IsOrtho m) (v : V3 F) :
    V3.length2 (m.mulVec v) = V3.length2 v := by
  rw [← labVec_transpose]; exact h.cols.length2_labVec v

theorem one_ortho [CommRing F] : IsOrtho (M3.one : M3 F) := by
  simp [IsOrtho, M3.one, V3.dot]

theorem labPos_inj [CommRing F] {pos : V3 F} {m : M3 F} (h : IsOrtho m) {a b : V3 F}
    (e : labPos pos m a = labPos pos m b) : a = b := by
  have e' : labVec m a = labVec m b := by
    simp only [labPos, V3.ext_iff, V3.add_x, V3.add_y, V3.add_z, add_right_inj] at e
    exact V3.ext e.1 e.2.1 e.2.2
  rw [← h.mulVec_labVec a, e', h.mulVec_labVec b]

theorem labVec_inj [CommRing F] {m : M3 F} (h : IsOrtho m) {a b : V3 F}
    (e : labVec m a = labVec m b) : a = b := by
  rw [← h.mulVec_labVec a, e, h.mulVec_labVec b]

end Verif.Frames

namespace Verif.Frames
variable {F : Type}

theorem abs2relPos_lab [CommRing F] {f1 f2 : Frame F} (h1 : IsOrtho f1.rot) (h2 : IsOrtho f2.rot) (r : V3 F) :
    labPos f2.pos f2.rot (abs2relPos r (relative f1 f2).1 (relative f1 f2).2) = labPos f1.pos f1.rot r := by
  simp only [abs2relPos, relative, labPos, mul_mulVec, transpose_mulVec, h2.labVec_mulVec, labVec_sub, h1.labVec_mulVec]
  ext <;> simp <;> ring

theorem abs2relVel_lab [CommRing F] {f1 f2 : Frame F} (h2 : IsOrtho f2.rot) (v : V3 F) :
    labVec f2.rot (abs2relVel v (relative f1 f2).2) = labVec f1.rot v := by
  simp only [abs2relVel, relative, mul_mulVec, transpose_mulVec, h2.labVec_mulVec]

/-- an event is determined by its lab coordinates -/
theorem event_ext_lab [CommRing F] {f : Frame F} (h : IsOrtho f.rot) {a b : Event F}
    (hr : labPos f.pos f.rot a.r = labPos f.pos f.rot b.r) (hv : labVec f.rot a.v = labVec f.rot b.v)
    (h1 : a.s1 = b.s1) (h2 : a.s2 = b.s2) (ht : a.t = b.t) (hp : a.p = b.p) : a = b :=
  Event.ext (labPos_inj h hr) (labVec_inj h hv) h1 h2 ht hp

theorem abs2rel_comp [CommRing F] {f1 f2 f3 : Frame F} (h1 : IsOrtho f1.rot) (h2 : IsOrtho f2.rot)
    (h3 : IsOrtho f3.rot) (ev : Event F) :
    abs2rel (abs2rel ev (relative f1 f2).1 (relative f1 f2).2) (relative f2 f3).1 (relative f2 f3).2 =
      abs2rel ev (relative f1 f3).1 (relative f1 f3).2 := by
  apply event_ext_lab h3 <;> try rfl
  · simp only [abs2rel]; rw [abs2relPos_lab h2 h3, abs2relPos_lab h1 h2, abs2relPos_lab h1 h3]
  · simp only [abs2rel]; rw [abs2relVel_lab h3, abs2relVel_lab h2, abs2relVel_lab h3]

theorem abs2rel_refl [CommRing F] {f : Frame F} (h : IsOrtho f.rot) (ev : Event F) :
    abs2rel ev (relative f f).1 (relative f f).2 = ev := by
  apply event_ext_lab h <;> try rfl
  · simp only [abs2rel]; rw [abs2relPos_lab h h]
  · simp only [abs2rel]; rw [abs2relVel_lab h]

/-! ### Near-trivial frames -/

theorem abs_sum3 [Field F] [LinearOrder F] [IsStrictOrderedRing F] {e a b c x y z : F}
    (ha : |a| ≤ e) (hb : |b| ≤ e) (hc : |c| ≤ e) :
    |a * x + b * y + c * z| ≤ e * (|x| + |y| + |z|) := by
  have h1 : |a * x| ≤ e * |x| := by rw [abs_mul]; exact mul_le_mul_of_nonneg_right ha (abs_nonneg _)
  have h2 : |b * y| ≤ e * |y| := by rw [abs_mul]; exact mul_le_mul_of_nonneg_right hb (abs_nonneg _)
  have h3 : |c * z| ≤ e * |z| := by rw [abs_mul]; exact mul_le_mul_of_nonneg_right hc (abs_nonneg _)
  calc |a * x + b * y + c * z| ≤ |a * x| + |b * y| + |c * z| := by
        exact (abs_add_le _ _).trans (add_le_add_left (abs_add_le _ _) _)
    _ ≤ e * |x| + e * |y| + e * |z| := add_le_add (add_le_add h1 h2) h3
    _ = _ := by ring

theorem isAlmost0_iff [Field F] [LinearOrder F] (v : V3 F) : isAlmost0 v = true ↔ NearlyZero v := by
  simp [isAlmost0, NearlyZero, eps]

theorem isAlmostI_iff [Field F] [LinearOrder F] (m : M3 F) : isAlmostI m = true ↔ NearlyOne m := by
  simp [isAlmostI, NearlyOne, NearlyZero, eps]

theorem mulVec_one [CommRing F] (v : V3 F) : (M3.one : M3 F).mulVec v = v := by
  ext <;> simp [M3.mulVec, M3.one]

theorem abs2relBatch_sharp [Field F] [LinearOrder F] {d : V3 F} {m : M3 F} (h : Sharp d m)
    (buf : List (Event F)) : abs2relBatch buf d m = buf.map (abs2rel · d m) := by
  obtain ⟨hm, hd⟩ := h
  replace hm : NearlyOne m → m = M3.one := hm
  replace hd : NearlyZero d → d = 0 := hd
  simp only [abs2relBatch]
  split
  · next h =>
    rw [Bool.and_eq_true, isAlmost0_iff, isAlmostI_iff] at h
    rw [hm h.2, hd h.1]
    rw [show (fun ev : Event F => abs2rel ev 0 M3.one) = id from ?_, List.map_id]
    funext ev
    ext <;> simp [abs2rel, abs2relPos, abs2relVel, mulVec_one]
  · split
    · next h => rw [isAlmostI_iff] at h; rw [hm h]; simp [abs2rel, abs2relFast, abs2relPos, abs2relVel, mulVec_one]
    · rfl

theorem rel2absBatch_sharp [Field F] [LinearOrder F] {d : V3 F} {m : M3 F} (h : Sharp d m)
    (buf : List (Event F)) : rel2absBatch buf d m = buf.map (rel2abs · d m) := by
  obtain ⟨hm, hd⟩ := h
  replace hm : NearlyOne m → m = M3.one := hm
  replace hd : NearlyZero d → d = 0 := hd
  have ho : (M3.one : M3 F).transpose = M3.one := rfl
  simp only [rel2absBatch]
  split
  · next h =>
    rw [Bool.and_eq_true, isAlmost0_iff, isAlmostI_iff] at h
    rw [hm h.2, hd h.1]
    rw [show (fun ev : Event F => rel2abs ev 0 M3.one) = id from ?_, List.map_id]
    funext ev
    ext <;> simp [rel2abs, rel2absPos, rel2absVel, mulVec_one, ho]
  · split
    · next h => rw [isAlmostI_iff] at h; rw [hm h]; simp [rel2abs, rel2absFast, rel2absPos, rel2absVel, mulVec_one, ho]
    · rfl

end Verif.Frames
