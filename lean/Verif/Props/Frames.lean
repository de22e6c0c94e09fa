import Verif.Lemmas.Frames
import Verif.Lemmas.Angles
import Mathlib.Data.List.Chain
import Mathlib.Tactic.NormNum
/-!
Property theorems about frames: C16, C17, C19, C65, C66.
-/

namespace Verif.Frames
variable {F : Type}

/-- **C16** Changing frames leaves the neutron where it is: the point and the
velocity in the instrument frame, spin, time and probability are the same, and no
neutron is lost or reordered. -/
theorem C16_lab [CommRing F] (f1 f2 : Frame F) (h1 : IsOrtho f1.rot) (h2 : IsOrtho f2.rot)
    (buf : List (Event F)) :
    (transportExact f1 f2 buf).map
        (fun ev => (labPos f2.pos f2.rot ev.r, labVec f2.rot ev.v, ev.s1, ev.s2, ev.t, ev.p)) =
      buf.map (fun ev => (labPos f1.pos f1.rot ev.r, labVec f1.rot ev.v, ev.s1, ev.s2, ev.t, ev.p)) := by
  simp only [transportExact, List.map_map]
  apply List.map_congr_left
  intro ev _
  simp only [Function.comp, abs2rel, abs2relPos_lab h1 h2, abs2relVel_lab h2]

/-- **C16** Speeds and distances between neutrons are preserved. -/
theorem C16_rigid [CommRing F] (f1 f2 : Frame F) (h1 : IsOrtho f1.rot) (h2 : IsOrtho f2.rot)
    (a b : Event F) :
    ∃ a' b', transportExact f1 f2 [a, b] = [a', b'] ∧
      V3.length2 a'.v = V3.length2 a.v ∧ V3.length2 (a'.r - b'.r) = V3.length2 (a.r - b.r) := by
  refine ⟨_, _, rfl, ?_, ?_⟩
  · simp only [abs2rel, abs2relVel, relative, mul_mulVec, h2.length2_mulVec, h1.cols.length2_mulVec]
  · simp only [abs2rel, abs2relPos, ← mulVec_sub, relative, mul_mulVec, h2.length2_mulVec, h1.cols.length2_mulVec]
    congr 1
    ext <;> simp

/-- **C16** Going to another frame and back is the identity. -/
theorem C16_round_trip [CommRing F] (f1 f2 : Frame F) (h1 : IsOrtho f1.rot) (h2 : IsOrtho f2.rot)
    (buf : List (Event F)) : transportExact f2 f1 (transportExact f1 f2 buf) = buf := by
  simp only [transportExact, List.map_map]
  conv => rhs; rw [← List.map_id buf]
  apply List.map_congr_left
  intro ev _
  simp only [Function.comp, abs2rel_comp h1 h2 h1, abs2rel_refl h1, id]

/-- **C16** Intermediate frames do not matter: going through any chain of frames
equals going directly from the first to the last. -/
theorem C16_chain [CommRing F] (fs : List (Frame F)) : ∀ (f g : Frame F), IsOrtho f.rot → IsOrtho g.rot →
    (∀ k ∈ fs, IsOrtho k.rot) → ∀ buf : List (Event F),
    ((fs ++ [g]).foldl (fun (s : Frame F × List (Event F)) k => (k, transportExact s.1 k s.2)) (f, buf)).2 =
      transportExact f g buf := by
  induction fs with
  | nil => intro f g _ _ _ buf; rfl
  | cons k fs ih =>
    intro f g hf hg hk buf
    simp only [List.cons_append, List.foldl_cons]
    have hk' := hk k (List.mem_cons_self ..)
    rw [ih k g hk' hg (fun k' h => hk k' (List.mem_cons_of_mem _ h))]
    simp only [transportExact, List.map_map]
    apply List.map_congr_left
    intro ev _
    simp only [Function.comp, abs2rel_comp hf hk' hg]

/-- hypotheses of the C16 theorems are met by a frame turned about z and one turned about x -/
example : transportExact (⟨⟨1, 2, 3⟩, ⟨⟨0, 1, 0⟩, ⟨-1, 0, 0⟩, ⟨0, 0, 1⟩⟩⟩ : Frame ℤ)
    ⟨⟨0, 0, 5⟩, ⟨⟨1, 0, 0⟩, ⟨0, 0, 1⟩, ⟨0, -1, 0⟩⟩⟩ [⟨⟨1, 0, 0⟩, ⟨0, 0, 7⟩, 0, 1, 2, 3⟩] =
    [⟨⟨1, -2, -3⟩, ⟨0, 7, 0⟩, 0, 1, 2, 3⟩] := by decide

example : IsOrtho (⟨⟨0, 1, 0⟩, ⟨-1, 0, 0⟩, ⟨0, 0, 1⟩⟩ : M3 ℤ) ∧
    IsOrtho (⟨⟨1, 0, 0⟩, ⟨0, 0, 1⟩, ⟨0, -1, 0⟩⟩ : M3 ℤ) := by
  simp [IsOrtho, V3.dot]

/-- **C19** The batched frame changes are exact unless the displacement or rotation is
nearly, but not exactly, trivial; and entering and leaving a frame are inverse. -/
theorem C19_exact [Field F] [LinearOrder F] (d : V3 F) (m : M3 F) (h : Sharp d m)
    (ho : IsOrtho m) (buf : List (Event F)) :
    abs2relBatch buf d m = buf.map (fun ev => { ev with r := m.mulVec (ev.r - d), v := m.mulVec ev.v }) ∧
    rel2absBatch buf d m = buf.map (fun ev => { ev with r := labPos d m ev.r, v := labVec m ev.v }) ∧
    rel2absBatch (abs2relBatch buf d m) d m = buf ∧
    abs2relBatch (rel2absBatch buf d m) d m = buf := by
  have hadd : ∀ a b : V3 F, a + b = b + a := fun a b => by ext <;> simp [add_comm]
  refine ⟨abs2relBatch_sharp h buf, ?_, ?_, ?_⟩
  · rw [rel2absBatch_sharp h]
    apply List.map_congr_left
    intro ev _
    simp only [rel2abs, rel2absPos, rel2absVel, transpose_mulVec, labPos, hadd]
  · rw [abs2relBatch_sharp h, rel2absBatch_sharp h, List.map_map]
    conv => rhs; rw [← List.map_id buf]
    apply List.map_congr_left
    intro ev _
    ext <;> simp [abs2rel, rel2abs, abs2relPos, rel2absPos, abs2relVel, rel2absVel, transpose_mulVec,
      ho.labVec_mulVec]
  · rw [rel2absBatch_sharp h, abs2relBatch_sharp h, List.map_map]
    conv => rhs; rw [← List.map_id buf]
    apply List.map_congr_left
    intro ev _
    have e : labVec m ev.r + d - d = labVec m ev.r := by ext <;> simp
    ext <;> simp [abs2rel, rel2abs, abs2relPos, rel2absPos, abs2relVel, rel2absVel, transpose_mulVec,
      ho.mulVec_labVec, e]

example : Sharp (⟨0, 0, 3⟩ : V3 ℚ) ⟨⟨0, 1, 0⟩, ⟨-1, 0, 0⟩, ⟨0, 0, 1⟩⟩ ∧
    IsOrtho (⟨⟨0, 1, 0⟩, ⟨-1, 0, 0⟩, ⟨0, 0, 1⟩⟩ : M3 ℚ) := by
  refine ⟨⟨?_, ?_⟩, by simp [IsOrtho, V3.dot]⟩
  · rintro ⟨⟨h, -⟩, -⟩; norm_num at h
  · rintro ⟨-, -, h⟩; norm_num at h

/-- **C19** For every displacement and rotation, the batched change of frame keeps the
number and order of neutrons, does not touch spin, time and probability, and
position and velocity deviate from the exact change at most by `10⁻⁸` times
the size of the coordinates (plus the displacement itself if it is skipped). -/
theorem C19_deviation [Field F] [LinearOrder F] [IsStrictOrderedRing F] (d : V3 F) (m : M3 F)
    (buf : List (Event F)) :
    List.Forall₂ (fun ev ev' : Event F =>
      Within (1 / 10 ^ 8 * (norm1 (ev.r - d) + 1)) ev'.r (m.mulVec (ev.r - d)) ∧
      Within (1 / 10 ^ 8 * norm1 ev.v) ev'.v (m.mulVec ev.v) ∧
      ev'.s1 = ev.s1 ∧ ev'.s2 = ev.s2 ∧ ev'.t = ev.t ∧ ev'.p = ev.p)
      buf (abs2relBatch buf d m) := by
  have e0 : (0 : F) ≤ 1 / 10 ^ 8 := by positivity
  have hn : ∀ v : V3 F, 0 ≤ norm1 v := fun v => by unfold norm1; positivity
  have rotOk : NearlyOne m → ∀ v : V3 F, Within (1 / 10 ^ 8 * norm1 v) v (m.mulVec v) := by
    rintro ⟨⟨a1, a2, a3⟩, ⟨b1, b2, b3⟩, c1, c2, c3⟩ v
    refine ⟨?_, ?_, ?_⟩ <;> rw [abs_sub_comm]
    · have := abs_sum3 (x := v.x) (y := v.y) (z := v.z) a1 a2 a3
      rwa [show (m.mulVec v).x - v.x = (m.r0.x - 1) * v.x + m.r0.y * v.y + m.r0.z * v.z by
        simp only [M3.mulVec]; ring]
    · have := abs_sum3 (x := v.x) (y := v.y) (z := v.z) b1 b2 b3
      rwa [show (m.mulVec v).y - v.y = m.r1.x * v.x + (m.r1.y - 1) * v.y + m.r1.z * v.z by
        simp only [M3.mulVec]; ring]
    · have := abs_sum3 (x := v.x) (y := v.y) (z := v.z) c1 c2 c3
      rwa [show (m.mulVec v).z - v.z = m.r2.x * v.x + m.r2.y * v.y + (m.r2.z - 1) * v.z by
        simp only [M3.mulVec]; ring]
  have within_refl : ∀ (e : F) (v : V3 F), 0 ≤ e → Within e v v := by
    intro e v he; simp [Within, he]
  have mono : ∀ (e e' : F) (a b : V3 F), e ≤ e' → Within e a b → Within e' a b :=
    fun e e' a b h w => ⟨w.1.trans h, w.2.1.trans h, w.2.2.trans h⟩
  simp only [abs2relBatch]
  split
  · next h =>
    rw [Bool.and_eq_true, isAlmost0_iff, isAlmostI_iff] at h
    refine List.forall₂_same.mpr fun ev _ => ⟨?_, rotOk h.2 _, rfl, rfl, rfl, rfl⟩
    obtain ⟨w1, w2, w3⟩ := rotOk h.2 (ev.r - d)
    obtain ⟨⟨d1, d2, d3⟩, -⟩ := h
    rw [mul_add, mul_one]
    refine ⟨?_, ?_, ?_⟩
    · have := abs_add_le ((ev.r - d).x - (m.mulVec (ev.r - d)).x) d.x
      rw [show (ev.r - d).x - (m.mulVec (ev.r - d)).x + d.x = ev.r.x - (m.mulVec (ev.r - d)).x by simp; ring] at this
      exact this.trans (add_le_add w1 d1)
    · have := abs_add_le ((ev.r - d).y - (m.mulVec (ev.r - d)).y) d.y
      rw [show (ev.r - d).y - (m.mulVec (ev.r - d)).y + d.y = ev.r.y - (m.mulVec (ev.r - d)).y by simp; ring] at this
      exact this.trans (add_le_add w2 d2)
    · have := abs_add_le ((ev.r - d).z - (m.mulVec (ev.r - d)).z) d.z
      rw [show (ev.r - d).z - (m.mulVec (ev.r - d)).z + d.z = ev.r.z - (m.mulVec (ev.r - d)).z by simp; ring] at this
      exact this.trans (add_le_add w3 d3)
  · split
    · next h =>
      rw [isAlmostI_iff] at h
      refine List.forall₂_map_right_iff.mpr (List.forall₂_same.mpr fun ev _ => ⟨?_, rotOk h _, rfl, rfl, rfl, rfl⟩)
      refine mono _ _ _ _ ?_ (rotOk h (ev.r - d))
      exact mul_le_mul_of_nonneg_left (by simp) e0
    · refine List.forall₂_map_right_iff.mpr (List.forall₂_same.mpr fun ev _ => ⟨?_, ?_, rfl, rfl, rfl, rfl⟩)
      · exact within_refl _ _ (mul_nonneg e0 (add_nonneg (hn _) zero_le_one))
      · exact within_refl _ _ (mul_nonneg e0 (hn _))

example : abs2relBatch [(⟨⟨1, 0, 0⟩, ⟨0, 0, 7⟩, 0, 1, 2, 3⟩ : Event ℚ)] ⟨0, 0, 1 / 10 ^ 9⟩ M3.one =
    [⟨⟨1, 0, 0⟩, ⟨0, 0, 7⟩, 0, 1, 2, 3⟩] := by
  have : isAlmost0 (⟨0, 0, 1 / 10 ^ 9⟩ : V3 ℚ) = true := by
    rw [isAlmost0_iff]; norm_num [NearlyZero]
  have h2 : isAlmostI (M3.one : M3 ℚ) = true := by
    rw [isAlmostI_iff]; norm_num [NearlyOne, NearlyZero, M3.one]
  rw [abs2relBatch, this, h2]; rfl

/-- **C65** (negation) The deviations add up without bound: through a chain of `n`
components each displaced by `10⁻⁸` the neutron is never moved, although its
position relative to the last component has changed by `n·10⁻⁸`. -/
theorem C65_small_displacements_false (n : Nat) (ev : Event ℚ) :
    let frame (i : Nat) : Frame ℚ := ⟨⟨0, 0, (i : ℚ) / 10 ^ 8⟩, ⟨⟨1, 0, 0⟩, ⟨0, 1, 0⟩, ⟨0, 0, 1⟩⟩⟩
    transportChain (frame 0) ((List.range n).map fun i => frame (i + 1)) [ev] = [ev] ∧
    transportExact (frame 0) (frame n) [ev] =
      [{ ev with r := ⟨ev.r.x, ev.r.y, ev.r.z - (n : ℚ) / 10 ^ 8⟩ }] := by
  intro frame
  constructor
  · have key : ∀ (n k : Nat), transportChain (frame k) ((List.range' k n).map fun i => frame (i + 1)) [ev] = [ev] := by
      intro n
      induction n with
      | zero => intro k; rfl
      | succ n ih =>
        intro k
        rw [List.range'_succ, List.map_cons, transportChain]
        have hstep : transport (frame k) (frame (k + 1)) [ev] = [ev] := by
          have hm : (relative (frame k) (frame (k + 1))).2 = M3.one := by
            ext <;> simp [relative, frame, M3.mul, M3.mulVec, M3.transpose, M3.one]
          have h0 : isAlmost0 (relative (frame k) (frame (k + 1))).1 = true := by
            rw [isAlmost0_iff]
            refine ⟨?_, ?_, ?_⟩ <;> simp only [relative, frame, M3.mulVec, V3.sub_x, V3.sub_y, V3.sub_z]
            · norm_num
            · norm_num
            · push_cast; rw [show (0 : ℚ) * (0 - 0) + 0 * (0 - 0) + 1 * (((k : ℚ) + 1) / 10 ^ 8 - (k : ℚ) / 10 ^ 8) = 1 / 10 ^ 8 by ring]
              norm_num
          have hI : isAlmostI (M3.one : M3 ℚ) = true := by
            rw [isAlmostI_iff]; norm_num [NearlyOne, NearlyZero, M3.one]
          simp [transport, abs2relBatch, hm, h0, hI]
        rw [hstep]
        exact ih (k + 1)
    have := key n 0
    rwa [← List.range_eq_range'] at this
  · simp only [transportExact, List.map_cons, List.map_nil, List.cons.injEq, and_true]
    ext <;> simp [abs2rel, abs2relPos, abs2relVel, relative, frame, M3.mul, M3.mulVec, M3.transpose]

/-- **C65** What does hold: if no two consecutive components are nearly (but not
exactly) placed alike, the simulation's chain of frame changes is exactly the direct
change from the first to the last frame.  Missing: nearly coinciding frames. -/
theorem C65_small_displacements_partial [Field F] [LinearOrder F] (fs : List (Frame F)) :
    ∀ (f g : Frame F), IsOrtho f.rot → IsOrtho g.rot → (∀ k ∈ fs, IsOrtho k.rot) →
    List.IsChain (fun a b => Sharp (relative a b).1 (relative a b).2) (f :: (fs ++ [g])) →
    ∀ buf : List (Event F), transportChain f (fs ++ [g]) buf = transportExact f g buf := by
  have step : ∀ (a b : Frame F) buf, Sharp (relative a b).1 (relative a b).2 →
      transport a b buf = transportExact a b buf := fun a b buf h => abs2relBatch_sharp h buf
  induction fs with
  | nil =>
    intro f g _ _ _ hc buf
    simp only [List.nil_append, List.isChain_cons_cons] at hc
    exact step f g buf hc.1
  | cons k fs ih =>
    intro f g hf hg hk hc buf
    simp only [List.cons_append, List.isChain_cons_cons] at hc
    have hk' := hk k (List.mem_cons_self ..)
    simp only [List.cons_append, transportChain]
    rw [ih k g hk' hg (fun k' h => hk k' (List.mem_cons_of_mem _ h)) hc.2, step _ _ _ hc.1]
    simp only [transportExact, List.map_map]
    apply List.map_congr_left
    intro ev _
    simp only [Function.comp, abs2rel_comp hf hk' hg]

example : Sharp (relative (⟨⟨0, 0, 0⟩, M3.one⟩ : Frame ℚ) ⟨⟨0, 0, 1⟩, ⟨⟨0, 1, 0⟩, ⟨-1, 0, 0⟩, ⟨0, 0, 1⟩⟩⟩).1
    (relative (⟨⟨0, 0, 0⟩, M3.one⟩ : Frame ℚ) ⟨⟨0, 0, 1⟩, ⟨⟨0, 1, 0⟩, ⟨-1, 0, 0⟩, ⟨0, 0, 1⟩⟩⟩).2 := by
  refine ⟨?_, ?_⟩
  · rintro ⟨⟨h, -⟩, -⟩; norm_num [relative, M3.mul, M3.transpose, M3.mulVec, M3.one] at h
  · rintro ⟨-, -, h⟩; norm_num [relative, M3.mul, M3.transpose, M3.mulVec, M3.one] at h

/-! ### Angles -/

/-- **C17** Every triple of angles (in degrees) gives a proper rotation: orthonormal rows and
determinant one. -/
theorem C17_proper (a : V3 ℝ) : IsRotation (toMatrix a) := toMatrixRad_rotation _

/-- **C17** The matrix is the one documented: the coordinates in the axes turned
first about x, then about the new y, then about the new z. -/
theorem C17_order (a : V3 ℝ) (v : V3 ℝ) :
    toMatrixRad a =
      (toMatrixRad ⟨0, 0, a.z⟩).mul ((toMatrixRad ⟨0, a.y, 0⟩).mul (toMatrixRad ⟨a.x, 0, 0⟩)) ∧
    (toMatrixRad ⟨a.x, 0, 0⟩).mulVec v =
      ⟨v.x, Real.cos a.x * v.y + Real.sin a.x * v.z, -Real.sin a.x * v.y + Real.cos a.x * v.z⟩ ∧
    (toMatrixRad ⟨0, a.y, 0⟩).mulVec v =
      ⟨Real.cos a.y * v.x - Real.sin a.y * v.z, v.y, Real.sin a.y * v.x + Real.cos a.y * v.z⟩ ∧
    (toMatrixRad ⟨0, 0, a.z⟩).mulVec v =
      ⟨Real.cos a.z * v.x + Real.sin a.z * v.y, -Real.sin a.z * v.x + Real.cos a.z * v.y, v.z⟩ := by
  refine ⟨?_, ?_, ?_, ?_⟩ <;> ext <;>
    simp only [toMatrixRad, matrixCS, M3.mul, M3.mulVec, M3.transpose, Real.cos_zero, Real.sin_zero] <;> ring

/-- **C17** Recovering angles from any proper rotation whose (2,0) entry is not within
`10⁻⁸` of ±1, or is exactly ±1 (gimbal lock), succeeds, and rebuilding the matrix
from the recovered angles gives the same matrix. -/
theorem C17_recover (m : M3 ℝ) (h : IsRotation m)
    (hg : (-(1 - 1 / 10 ^ 8) ≤ m.r2.x ∧ m.r2.x ≤ 1 - 1 / 10 ^ 8) ∨ m.r2.x = 1 ∨ m.r2.x = -1) :
    ∃ a, toAngles m = .ok a ∧ toMatrix a = m := by
  have e : toMatrixRad (rawAngles m) = m := by
    rcases hg with ⟨h1, h2⟩ | hg
    · exact rawAngles_generic h h2 (by linarith)
    · exact rawAngles_gimbal h hg
  refine ⟨⟨todegree (rawAngles m).x, todegree (rawAngles m).y, todegree (rawAngles m).z⟩, ?_, ?_⟩
  · simp only [toAngles, e, checkBad_self, if_false]
  · rw [toMatrix_degrees, e]

example : IsRotation (⟨⟨0, 0, -1⟩, ⟨0, 1, 0⟩, ⟨1, 0, 0⟩⟩ : M3 ℝ) := by
  simp [IsRotation, IsOrtho, V3.dot, M3.det, V3.cross]
example : IsRotation (⟨⟨3 / 5, 4 / 5, 0⟩, ⟨-4 / 5, 3 / 5, 0⟩, ⟨0, 0, 1⟩⟩ : M3 ℝ) := by
  norm_num [IsRotation, IsOrtho, V3.dot, M3.det, V3.cross]

/-- **C66** (negation) There are angles whose matrix `toAngles` refuses: close to, but not
at, gimbal lock. -/
theorem C66_recover_all_angles_false : ∃ a : V3 ℝ, toAngles (toMatrixRad a) = .error .runtimeError := by
  let s : ℝ := 1 - 1 / 10 ^ 9
  have hs : Real.sin (Real.arcsin s) = s := Real.sin_arcsin (by norm_num [s]) (by norm_num [s])
  have hc := sq_add (Real.arcsin s)
  rw [hs] at hc
  have hc0 : 0 ≤ Real.cos (Real.arcsin s) := Real.cos_arcsin_nonneg _
  have hcpos : 1 / 10 ^ 8 ≤ Real.cos (Real.arcsin s) := by
    by_contra hlt
    rw [not_le] at hlt
    have : Real.cos (Real.arcsin s) * Real.cos (Real.arcsin s) ≤ (1 / 10 ^ 8) * (1 / 10 ^ 8) :=
      mul_le_mul hlt.le hlt.le hc0 (by norm_num)
    have e : Real.cos (Real.arcsin s) * Real.cos (Real.arcsin s) = 1 - s * s := by linarith
    rw [e] at this
    norm_num [s] at this
  refine ⟨⟨Real.pi / 2, Real.arcsin s, 0⟩, ?_⟩
  have hm : toMatrixRad ⟨Real.pi / 2, Real.arcsin s, 0⟩ =
      ⟨⟨Real.cos (Real.arcsin s), s, 0⟩, ⟨0, 0, 1⟩, ⟨s, -Real.cos (Real.arcsin s), 0⟩⟩ := by
    ext <;> simp [toMatrixRad, matrixCS, hs]
  rw [hm]
  generalize hcc : Real.cos (Real.arcsin s) = c at *
  have hr : rawAngles (⟨⟨c, s, 0⟩, ⟨0, 0, 1⟩, ⟨s, -c, 0⟩⟩ : M3 ℝ) = ⟨0, Real.arcsin s, arctan2 s 0⟩ := by
    simp only [rawAngles]
    rw [if_pos (by norm_num [s])]
  have hbad : checkBad (⟨⟨c, s, 0⟩, ⟨0, 0, 1⟩, ⟨s, -c, 0⟩⟩ : M3 ℝ) (toMatrixRad ⟨0, Real.arcsin s, arctan2 s 0⟩) := by
    refine Or.inr (Or.inr (Or.inr (Or.inl ?_)))
    simp only [entryBad, toMatrixRad, matrixCS, Real.sin_zero, neg_zero, zero_mul, abs_neg]
    rw [if_neg (by rw [abs_of_nonneg hc0]; exact not_lt.mpr hcpos)]
    have : c ≠ 0 := by intro e; rw [e] at hcpos; norm_num at hcpos
    rw [show (0 - -c) / -c = -1 by field_simp; ring]
    norm_num
  simp only [toAngles, hr, hbad, if_true]

/-- **C66** What does hold: whenever `toAngles` does give angles, also close to gimbal
lock, the matrix rebuilt from them agrees with the given one in every entry within `10⁻⁸`
(absolute for small entries, relative for the others).  Missing: it may give none. -/
theorem C66_recover_all_angles_partial (m : M3 ℝ) (h : IsRotation m) (a : V3 ℝ) (ha : toAngles m = .ok a) :
    Within (1 / 10 ^ 8) (toMatrix a).r0 m.r0 ∧ Within (1 / 10 ^ 8) (toMatrix a).r1 m.r1 ∧
    Within (1 / 10 ^ 8) (toMatrix a).r2 m.r2 := by
  simp only [toAngles] at ha
  split at ha
  · cases ha
  · next hb =>
    injection ha with ha
    rw [← ha, toMatrix_degrees]
    have key : ∀ x y : ℝ, |x| ≤ 1 → ¬ entryBad x y → |y - x| ≤ 1 / 10 ^ 8 := by
      intro x y hx hb
      unfold entryBad at hb
      split at hb
      · exact not_lt.mp hb
      · next hx0 =>
        have hb := not_lt.mp hb
        have hx0 : 0 < |x| := lt_of_lt_of_le (by norm_num) (not_lt.mp hx0)
        rw [abs_div, div_le_iff₀ hx0] at hb
        exact hb.trans (by nlinarith)
    have small : ∀ x y z : ℝ, x * x + y * y + z * z = 1 → |x| ≤ 1 ∧ |y| ≤ 1 ∧ |z| ≤ 1 := by
      intro x y z e
      refine ⟨?_, ?_, ?_⟩ <;> rw [abs_le] <;> constructor <;>
        nlinarith [mul_self_nonneg x, mul_self_nonneg y, mul_self_nonneg z]
    obtain ⟨⟨⟨h0, h1, h2⟩, -⟩, -⟩ := h
    obtain ⟨a0, a1, a2⟩ := small _ _ _ h0
    obtain ⟨b0, b1, b2⟩ := small _ _ _ h1
    obtain ⟨c0, c1, c2⟩ := small _ _ _ h2
    simp only [checkBad, not_or] at hb
    obtain ⟨⟨e0, e1, e2⟩, ⟨f0, f1, f2⟩, g0, g1, g2⟩ := hb
    exact ⟨⟨key _ _ a0 e0, key _ _ a1 e1, key _ _ a2 e2⟩, ⟨key _ _ b0 f0, key _ _ b1 f1, key _ _ b2 f2⟩,
      key _ _ c0 g0, key _ _ c1 g1, key _ _ c2 g2⟩

example : ∃ a, toAngles (toMatrix ⟨30, 90, 20⟩) = .ok a ∧ toMatrix a = toMatrix ⟨30, 90, 20⟩ :=
  C17_recover _ (C17_proper _) (Or.inr (Or.inl (by
    simp only [toMatrix, toMatrixRad, matrixCS, toradian]
    rw [show (90 : ℝ) * Real.pi / 180 = Real.pi / 2 by ring, Real.sin_pi_div_two])))

end Verif.Frames
