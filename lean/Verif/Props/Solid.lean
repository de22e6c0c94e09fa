import Verif.Lemmas.SolidBBox
import Verif.Lemmas.SolidHit
import Mathlib.Tactic.NormNum
/-!
Property theorems about solids and flight paths: C27, C28, C29, C30, C75, C76, C77.
-/

namespace Verif.Solid

/-! ### C27 point location -/

/-- **C27** `inside` is answered only for interior points of the described set. -/
theorem C27_inside {tol : ℝ} (h0 : 0 < tol) (s : Shape) (hw : WF s) (p : V3 ℝ)
    (h : locate tol s p = .ok .inside) : Interior (Mem s) p :=
  (locate_sound h0 s hw p).1 h

/-- **C27** `outside` is answered only for points with a neighbourhood outside of the set. -/
theorem C27_outside {tol : ℝ} (h0 : 0 < tol) (s : Shape) (hw : WF s) (p : V3 ℝ)
    (h : locate tol s p = .ok .outside) : Exterior (Mem s) p :=
  (locate_sound h0 s hw p).2 h

/-- **C27** `onborder` is answered only within the tolerance of the surface of one of the
primitives the shape is made of. -/
theorem C27_border {tol : ℝ} (h0 : 0 < tol) (s : Shape) (hw : WF s) (p : V3 ℝ)
    (h : locate tol s p = .ok .onborder) : ∃ f q, LeafAt s p f q ∧ NearSurface tol f q :=
  locate_border h0 s hw p h

/-- **C27** Every shape that makes sense and every point get one of the three answers. -/
theorem C27_total (tol : ℝ) (s : Shape) (hw : WF s) (p : V3 ℝ) :
    locate tol s p = .ok .inside ∨ locate tol s p = .ok .outside ∨
      locate tol s p = .ok .onborder := by
  obtain ⟨r, hr⟩ := locate_total tol s hw p
  cases r <;> simp [hr]

/-- **C27** A point whose neighbourhoods meet both the set and its complement is never called
inside or outside. -/
theorem C27_boundary {tol : ℝ} (h0 : 0 < tol) (s : Shape) (hw : WF s) (p : V3 ℝ)
    (h1 : ¬ Interior (Mem s) p) (h2 : ¬ Exterior (Mem s) p) : locate tol s p = .ok .onborder := by
  rcases C27_total tol s hw p with h | h | h
  · exact absurd (C27_inside h0 s hw p h) h1
  · exact absurd (C27_outside h0 s hw p h) h2
  · exact h

/-- a block with a spherical hole, moved: inside, outside and border points -/
example :
    let s := Shape.translation (.difference (.box 2 2 2) (.sphere (1 / 2))) ⟨0, 0, 3⟩
    WF s ∧ locate (1 / 1000) s ⟨3 / 4, 0, 3⟩ = .ok .inside ∧
    locate (1 / 1000) s ⟨0, 0, 3⟩ = .ok .outside ∧
    locate (1 / 1000) s ⟨0, 0, 4⟩ = .ok .onborder := by
  refine ⟨?_, ?_, ?_, ?_⟩ <;>
    norm_num [WF, locate, locBox, locSphere, locDifference, bind, Except.bind, abs_of_nonneg] <;>
    simp

/-! ### C28 bounding boxes -/

/-- **C28** The bounding box contains every point of a shape whose rotations are by multiples
of 90 degrees about the axes.  Missing from the full property: other rotations, for which it
is false (C75). -/
theorem C28_encloses_partial (s : Shape) (hw : WF s) (hu : Upright s) (b : BB)
    (hb : bbox s = .ok b) (p : V3 ℝ) (hp : Mem s p) : InBB b p :=
  bbox_encloses s hw hu b hb p hp

/-- a block standing on its side and a sphere, moved: hypotheses and box -/
example :
    let s := Shape.union [.rotation (.box 1 2 4) ⟨⟨0, 0, 1⟩, ⟨0, 1, 0⟩, ⟨-1, 0, 0⟩⟩,
      .translation (.sphere 1) ⟨3, 0, 0⟩]
    WF s ∧ Upright s ∧ Mem s ⟨2, 1, 1 / 2⟩ ∧ ∃ b, bbox s = .ok b ∧ b.sx = 6 := by
  refine ⟨?_, ?_, ?_, ?_⟩
  · norm_num [WF, WFAll, Frames.IsOrtho, V3.dot]
  · norm_num [Upright, UprightAll, AxisAligned]
  · simp only [Mem, MemAny]
    refine .inl ⟨⟨-1 / 2, 1, 2⟩, ?_, ?_⟩
    · norm_num [abs_of_neg, abs_of_pos]
    · apply V3.ext <;> norm_num [M3.mulVec, V3.dot]
  · refine ⟨_, rfl, ?_⟩
    norm_num [uniteBB, M3.mulVec, V3.dot]

/-- **C75** The bounding box of a rotated shape can leave out points of the shape: the code
keeps the longest edge of the box instead of rotating its corners. -/
theorem C75_rotated_false : ¬ ∀ (s : Shape) (b : BB) (p : V3 ℝ), WF s → bbox s = .ok b → Mem s p →
    InBB b p := by
  intro H
  have h := H (.rotation (.box 1 1 1) ⟨⟨4 / 5, 3 / 5, 0⟩, ⟨-3 / 5, 4 / 5, 0⟩, ⟨0, 0, 1⟩⟩)
    ⟨0, 0, 0, 1, 1, 1⟩ ⟨7 / 10, 1 / 10, 0⟩ (by norm_num [WF, Frames.IsOrtho, V3.dot])
    (by
      rw [bbox, bbox]
      norm_num [bind, Except.bind, M3.mulVec, V3.dot])
    (by
      simp only [Mem]
      refine ⟨⟨1 / 2, 1 / 2, 0⟩, ?_, ?_⟩
      · norm_num [abs_of_pos]
      · apply V3.ext <;> norm_num [M3.mulVec, V3.dot])
  have := h.1
  norm_num [abs_of_pos] at this

/-- **C75** What remains: without rotations other than by multiples of 90 degrees about the
axes, nothing is left out. -/
theorem C75_upright_partial (s : Shape) (hw : WF s) (hu : Upright s) (b : BB) (p : V3 ℝ)
    (hb : bbox s = .ok b) (hp : Mem s p) : InBB b p := bbox_encloses s hw hu b hb p hp

/-! ### C29 flight paths -/

/-- **C29** Every reported time is a time at which the path is, within the tolerance, on the
surface of one of the primitives (and for the trees without cones the locator agrees that it is
on the border of the whole shape).  Missing: cones, which are reported within a tolerance
in z only. -/
theorem C29_on_surface_partial {tol par : ℝ} (h0 : 0 < tol) (hpar : 0 < par) (s : Shape)
    (hw : WF s) (hc : ConeFree s) (p v : V3 ℝ) (ts : List ℝ)
    (hi : intersect tol par s p v = .ok ts) (t : ℝ) (ht : t ∈ ts) :
    ∃ f q, LeafAt s (at' p v t) f q ∧ NearSurface tol f q :=
  locate_border h0 s hw _ (intersect_onborder h0 hpar s hw hc p v ts hi t ht)

/-- **C29** No entry into and no exit out of a shape is missed by a path in general position.
Missing: paths through edges of boxes, for which it is false (C76), paths that only touch a
box or cylinder, and cones. -/
theorem C29_none_missed_partial {tol par : ℝ} (h0 : 0 < tol) (hpar : 0 < par) (s : Shape)
    (hw : WF s) (p v : V3 ℝ) (hg : Generic tol par s p v) (ts : List ℝ)
    (hi : intersect tol par s p v = .ok ts) : CatchesAll s p v ts :=
  intersect_catches h0 hpar s hw p v ts hg hi

/-- **C29** The times are in increasing order, whatever the shape. -/
theorem C29_sorted (tol par : ℝ) (s : Shape) (p v : V3 ℝ) (ts : List ℝ)
    (hi : intersect tol par s p v = .ok ts) : ts.Pairwise (· ≤ ·) :=
  intersect_sorted s p v ts hi

/-- **C29** There is no exception for a shape that makes sense. -/
theorem C29_total (tol par : ℝ) (s : Shape) (hw : WF s) (p v : V3 ℝ) :
    ∃ ts, intersect tol par s p v = .ok ts := intersect_total tol par s hw p v

/-- **C29** For a sphere the two times are exactly the ends of the flight through it. -/
theorem C29_sphere (tol par R : ℝ) (p v : V3 ℝ) (hv : v ≠ 0) :
    (intersect tol par (.sphere R) p v = .ok [] ∧ Misses (.sphere R) p v) ∨
    ∃ a b, a ≤ b ∧ intersect tol par (.sphere R) p v = .ok [a, b] ∧
      ∀ t, Mem (.sphere R) (at' p v t) ↔ a ≤ t ∧ t ≤ b := by
  simp only [intersect]
  rcases intersectSphere_spec (R := R) (p := p) hv with ⟨h, hm⟩ | ⟨a, b, hab, h, hm⟩
  · exact .inl ⟨by rw [h], hm⟩
  · exact .inr ⟨a, b, hab, by rw [h], hm⟩

/-- **C29** For a cylinder that is pierced the two times are exactly the ends of the flight
through it (also through the rims). -/
theorem C29_cylinder (tol par R h : ℝ) (p v : V3 ℝ) (hv : v ≠ 0)
    (hp : Pierces (.cylinder R h) p v) :
    ∃ a b, a < b ∧ intersect tol par (.cylinder R h) p v = .ok [a, b] ∧
      ∀ t, Mem (.cylinder R h) (at' p v t) ↔ a ≤ t ∧ t ≤ b := by
  have hv' : isInvalidDirection v = false := by
    cases h' : isInvalidDirection v
    · rfl
    · exact absurd (invalid_iff.1 h') hv
  obtain ⟨a, b, hab, he, hm⟩ := intersectCylinder_pierces (tol := tol) hv' hp
  exact ⟨a, b, hab, by rw [intersect, he], hm⟩

/-- **C29** For a box that is pierced away from its edges the two times are exactly the ends of
the flight through it. -/
theorem C29_box (tol par X Y Z : ℝ) (p v : V3 ℝ) (hv : v ≠ 0)
    (hp : Pierces (.box X Y Z) p v) (he : AvoidsEdges X Y Z p v) :
    ∃ a b, a < b ∧ intersect tol par (.box X Y Z) p v = .ok [a, b] ∧
      ∀ t, Mem (.box X Y Z) (at' p v t) ↔ a ≤ t ∧ t ≤ b := by
  have hv' : isInvalidDirection v = false := by
    cases h' : isInvalidDirection v
    · rfl
    · exact absurd (invalid_iff.1 h') hv
  obtain ⟨a, b, hab, he, hm⟩ := intersectBox_pierces hv' hp he
  exact ⟨a, b, hab, by rw [intersect, he], hm⟩

/-- **C29** Moving shape and path together does not change the times. -/
theorem C29_translation (tol par : ℝ) (s : Shape) (w p v : V3 ℝ) :
    intersect tol par (.translation s w) (p + w) v = intersect tol par s p v := by
  rw [intersect, add_sub_self']

/-- **C29** Turning shape and path together does not change the times. -/
theorem C29_rotation (tol par : ℝ) (s : Shape) (m : M3 ℝ) (hm : Frames.IsOrtho m) (p v : V3 ℝ) :
    intersect tol par (.rotation s m) (m.mulVec p) (m.mulVec v) = intersect tol par s p v := by
  rw [intersect, transpose_mulVec_mulVec hm, transpose_mulVec_mulVec hm]

/-- **C29** Scaling shape and path together does not change the times. -/
theorem C29_dilation (tol par : ℝ) (s : Shape) (k : ℝ) (hk : k ≠ 0) (p v : V3 ℝ) :
    intersect tol par (.dilation s k) (k • p) (k • v) = intersect tol par s p v := by
  rw [intersect, inv_smul_smul' hk, inv_smul_smul' hk]

theorem interior_box_example : Pierces (.box 2 2 2) ⟨0, 0, -5⟩ ⟨0, 0, 1⟩ := by
  refine ⟨5, 1 / 2, by norm_num, fun q hq => ?_⟩
  obtain ⟨h1, h2, h3⟩ := hq
  simp only [at_x, at_y, at_z] at h1 h2 h3
  norm_num at h1 h2 h3
  refine ⟨?_, ?_, ?_⟩ <;> norm_num <;> linarith

theorem interior_cyl_example : Pierces (.cylinder 2 2) ⟨0, 0, -5⟩ ⟨0, 0, 1⟩ := by
  refine ⟨5, 1 / 2, by norm_num, fun q hq => ?_⟩
  obtain ⟨h1, h2, h3⟩ := hq
  simp only [at_x, at_y, at_z] at h1 h2 h3
  norm_num at h1 h2 h3
  rw [abs_lt] at h1 h2 h3
  refine ⟨?_, ?_⟩
  · nlinarith [h1.1, h1.2, h2.1, h2.2]
  · rw [abs_le]; constructor <;> norm_num <;> linarith [h3.1, h3.2]

theorem edges_example : AvoidsEdges 2 2 2 ⟨0, 0, -5⟩ ⟨0, 0, 1⟩ := by
  intro t _
  simp only [at_x, at_y, at_z]
  norm_num

/-- the hypotheses of the theorems for a path down the axis: a block with a cylindrical and a
spherical hole next to a pyramid -/
example :
    let s := Shape.difference (.difference (.box 2 2 2) (.cylinder 2 2)) (.dilation (.sphere 1) 3)
    let p : V3 ℝ := ⟨0, 0, -5⟩
    let v : V3 ℝ := ⟨0, 0, 1⟩
    WF s ∧ ConeFree s ∧ Generic (1 / 1000) (1 / 1000) s p v ∧ v ≠ 0 := by
  refine ⟨?_, ?_, ?_, ?_⟩
  · norm_num [WF]
  · simp [ConeFree]
  · simp only [Generic]
    exact ⟨⟨.inr ⟨interior_box_example, edges_example⟩, .inr interior_cyl_example⟩,
      fun _ _ _ _ => trivial⟩
  · intro h; have := congrArg V3.z h; norm_num at this

/-- general position with respect to a pyramid -/
example : Generic (1 / 1000) (1 / 10) (.pyramid 2 2 1) ⟨0, 0, -5⟩ ⟨0, 0, 1⟩ := by
  have hs : √(8 : ℝ) ≤ 3 := by rw [Real.sqrt_le_left (by norm_num)]; norm_num
  refine .inr ⟨⟨9 / 2, 1 / 8, by norm_num, fun q hq => ?_⟩, ?_, ?_, ?_, ?_, 4, 5, ?_, ?_, ?_⟩
  · obtain ⟨h1, h2, h3⟩ := hq
    simp only [at_x, at_y, at_z] at h1 h2 h3
    norm_num at h1 h2 h3
    rw [abs_lt] at h3
    refine ⟨?_, ?_, ?_, ?_⟩ <;> norm_num <;> linarith [h3.1, h3.2]
  iterate 4
    · norm_num [Across, V3.dot]
      linarith
  · norm_num [Mem, at_x, at_y, at_z]
  · norm_num [Mem, at_x, at_y, at_z]
  · norm_num [V3.dot]

/-- **C76** A path through the interior of a box that passes through two edges is reported to
miss the box: the faces are taken without their edges. -/
theorem C76_edges_false : ¬ ∀ (tol par X Y Z : ℝ) (p v : V3 ℝ), 0 < X → 0 < Y → 0 < Z → v ≠ 0 →
    Pierces (.box X Y Z) p v → intersect tol par (.box X Y Z) p v ≠ .ok [] := by
  intro H
  have hv : (⟨1, 1, 0⟩ : V3 ℝ) ≠ 0 := by
    intro h; have := congrArg V3.x h; norm_num at this
  refine H 1 1 2 2 2 ⟨-5, -5, 0⟩ ⟨1, 1, 0⟩ (by norm_num) (by norm_num) (by norm_num) hv ?_ ?_
  · refine ⟨5, 1 / 2, by norm_num, fun q hq => ?_⟩
    obtain ⟨h1, h2, h3⟩ := hq
    simp only [at_x, at_y, at_z] at h1 h2 h3
    norm_num at h1 h2 h3
    refine ⟨?_, ?_, ?_⟩ <;> norm_num <;> linarith
  · rw [intersect, intersectBox, if_neg (by rw [invalid_iff]; exact hv)]
    norm_num [intersectRectangle]

/-- **C76** What remains: a path that pierces a box and avoids its edges is reported with two
different times. -/
theorem C76_no_edges_partial (tol par X Y Z : ℝ) (p v : V3 ℝ) (hv : v ≠ 0)
    (hp : Pierces (.box X Y Z) p v) (he : AvoidsEdges X Y Z p v) :
    ∃ a b, a < b ∧ intersect tol par (.box X Y Z) p v = .ok [a, b] := by
  obtain ⟨a, b, hab, h, _⟩ := C29_box tol par X Y Z p v hv hp he
  exact ⟨a, b, hab, h⟩

/-! ### C30 the first object hit -/

/-- **C30** The forward intersections are the non-negative ones of all, in the same order. -/
theorem C30_forward (tol par : ℝ) (s : Shape) (p v : V3 ℝ) (ts : List ℝ)
    (hi : intersect tol par s p v = .ok ts) :
    ∃ ds, forwardIntersect tol par s p v = .ok ds ∧ ds.Sublist ts ∧
      (∀ t, t ∈ ds ↔ t ∈ ts ∧ 0 ≤ t) ∧ ds = ts.filter (fun t => decide (0 ≤ t)) := by
  have h : forwardIntersect tol par s p v = .ok (ts.filter (fun t => !decide (t < 0))) := by
    unfold forwardIntersect; rw [hi]; rfl
  obtain ⟨ts', hts', hds⟩ := forwardIntersect_spec h
  rw [hi] at hts'
  cases hts'
  refine ⟨_, h, List.filter_sublist, fun t => ?_, hds⟩
  simp [List.mem_filter]

/-- **C30** An object reported as hit is an object of the list, and the path goes through its
interior at some time that is not in the past. -/
theorem C30_hit_is_real {tol par : ℝ} (h0 : 0 < tol) (shapes : List Shape)
    (hw : ∀ s ∈ shapes, WF s) (p v : V3 ℝ) (i : Nat)
    (h : find1stHit tol par shapes p v = .ok (some i)) :
    ∃ s, shapes[i]? = some s ∧ ∃ t, 0 ≤ t ∧ Interior (Mem s) (at' p v t) := hit_real h0 hw h

/-- **C30** For objects that do not overlap and a path in general position that starts outside
of all of them, the object reported is the first one on the path: the path is in that object
from time `a` to time `b` and in no object before `a`.  Missing: an answer is not always given
(C77). -/
theorem C30_first_partial {tol par : ℝ} (h0 : 0 < tol) (hpar : 0 < par) (shapes : List Shape)
    (hw : ∀ s ∈ shapes, WF s) (hap : Apart shapes) (p v : V3 ℝ)
    (hg : ∀ s ∈ shapes, Generic tol par s p v)
    (hout : ∀ s ∈ shapes, locate tol s p = .ok .outside) (i : Nat)
    (h : find1stHit tol par shapes p v = .ok (some i)) :
    ∃ s, shapes[i]? = some s ∧ ∃ a b, FirstMeets shapes p v s a b :=
  first_from_outside h0 hpar hw hap hg hout h

/-- **C30** For a path that starts inside an object and has an odd number of crossings ahead,
the object reported is the one it starts in. -/
theorem C30_inside_partial {tol par : ℝ} (h0 : 0 < tol) (hpar : 0 < par) (shapes : List Shape)
    (hw : ∀ s ∈ shapes, WF s) (hap : Apart shapes) (p v : V3 ℝ)
    (hg : ∀ s ∈ shapes, Generic tol par s p v) (k : Nat) (sk : Shape)
    (hk : shapes[k]? = some sk) (hin : locate tol sk p = .ok .inside)
    (hnb : ∀ s ∈ shapes, locate tol s p ≠ .ok .onborder) (ds : List ℝ)
    (hds : forwardIntersect tol par (.union shapes) p v = .ok ds) (hodd : ds.length % 2 = 1)
    (i : Nat) (h : find1stHit tol par shapes p v = .ok (some i)) : i = k :=
  first_from_inside h0 hpar hw hap hg hk hin hnb hds hodd h

/-- **C30** When there is no crossing ahead of a path that starts outside of all objects, no
object is reported and none is met. -/
theorem C30_nothing_ahead {tol par : ℝ} (h0 : 0 < tol) (hpar : 0 < par) (shapes : List Shape)
    (hw : ∀ s ∈ shapes, WF s) (p v : V3 ℝ) (hg : ∀ s ∈ shapes, Generic tol par s p v)
    (hout : ∀ s ∈ shapes, locate tol s p = .ok .outside)
    (hds : forwardIntersect tol par (.union shapes) p v = .ok []) :
    find1stHit tol par shapes p v = .ok none ∧
      ∀ t, 0 ≤ t → ∀ s ∈ shapes, ¬ Mem s (at' p v t) := nothing_ahead h0 hpar hw hg hout hds

theorem sphere_axis_example (c : ℝ) : intersectSphere 1 ⟨0, 0, c⟩ ⟨0, 0, 1⟩ = [-c - 1, -c + 1] := by
  have hv : (⟨0, 0, 1⟩ : V3 ℝ) ≠ 0 := by
    intro h; have := congrArg V3.z h; norm_num at this
  unfold intersectSphere
  rw [if_neg (by rw [invalid_iff]; exact hv)]
  norm_num [V3.dot, V3.cross]
  constructor <;> ring

/-- the times of flight through two spheres on the path -/
theorem two_spheres_example : forwardIntersect (1 / 1000) (1 / 1000)
    (.union [.translation (.sphere 1) ⟨0, 0, 5⟩, .sphere 1]) ⟨0, 0, -5⟩ ⟨0, 0, 1⟩ =
      .ok [4, 6, 9, 11] := by
  have e : (⟨0, 0, -5⟩ : V3 ℝ) - ⟨0, 0, 5⟩ = ⟨0, 0, -10⟩ := by
    apply V3.ext <;> norm_num
  simp only [forwardIntersect, intersect, gather, e, sphere_axis_example, bind, Except.bind,
    keepOnBorder, locate, locUnion]
  norm_num [locSphere]
  simp
  norm_num [sort, List.insertionSort, List.orderedInsert]

/-- two spheres on the path: the first one is reported -/
example :
    let shapes := [Shape.translation (.sphere 1) ⟨0, 0, 5⟩, .sphere 1]
    let p : V3 ℝ := ⟨0, 0, -5⟩
    let v : V3 ℝ := ⟨0, 0, 1⟩
    (∀ s ∈ shapes, WF s) ∧ Apart shapes ∧ (∀ s ∈ shapes, Generic (1 / 1000) (1 / 1000) s p v) ∧
    (∀ s ∈ shapes, locate (1 / 1000) s p = .ok .outside) ∧
    find1stHit (1 / 1000) (1 / 1000) shapes p v = .ok (some 1) := by
  have z1 : ∀ q, Mem (.sphere 1) q → |q.z| ≤ 1 := by
    intro q hq
    simp only [Mem] at hq
    rw [abs_le]
    constructor <;> nlinarith [mul_self_nonneg q.x, mul_self_nonneg q.y]
  have z2 : ∀ q, Mem (.translation (.sphere 1) ⟨0, 0, 5⟩) q → |q.z - 5| ≤ 1 := by
    intro q hq
    rw [mem_translation] at hq
    simpa using z1 _ hq
  have far : ∀ q, Mem (.sphere 1) q → Mem (.translation (.sphere 1) ⟨0, 0, 5⟩) q → False := by
    intro q h1 h2
    have a := abs_le.1 (z1 q h1)
    have b := abs_le.1 (z2 q h2)
    linarith [a.2, b.1]
  refine ⟨?_, ?_, ?_, ?_, ?_⟩
  · norm_num [WF]
  · intro i j hij s s' hs hs' q hq hq'
    match i, j with
    | 0, 0 => exact hij rfl
    | 0, 1 =>
      simp only [List.getElem?_cons_zero, List.getElem?_cons_succ, Option.some.injEq] at hs hs'
      subst hs hs'
      exact far q hq'.self hq
    | 1, 0 =>
      simp only [List.getElem?_cons_zero, List.getElem?_cons_succ, Option.some.injEq] at hs hs'
      subst hs hs'
      exact far q hq hq'.self
    | 1, 1 => exact hij rfl
    | i + 2, _ => simp at hs
    | _, j + 2 => simp at hs'
  · intro s hs
    simp only [List.mem_cons, List.not_mem_nil, or_false] at hs
    rcases hs with rfl | rfl <;> simp [Generic]
  · intro s hs
    simp only [List.mem_cons, List.not_mem_nil, or_false] at hs
    rcases hs with rfl | rfl <;> norm_num [locate, locSphere]
  · simp only [find1stHit, two_spheres_example, bind, Except.bind]
    norm_num [findContaining, anyOnBorder, locate, locSphere, bind, Except.bind]
    simp

theorem cylinder_axis_example (R c : ℝ) :
    intersectCylinder (1 / 1000) R 2 ⟨0, 0, c⟩ ⟨0, 0, 1⟩ = [-c - 1, -c + 1] := by
  have hv : (⟨0, 0, 1⟩ : V3 ℝ) ≠ 0 := by
    intro h; have := congrArg V3.z h; norm_num at this
  unfold intersectCylinder
  rw [if_neg (by rw [invalid_iff]; exact hv)]
  have : 0 ≤ R * R := mul_self_nonneg R
  norm_num [intersectCylinderSide, intersectCylinderTopBottom, this, orderedPair]
  constructor <;> ring

/-- the times of flight along the axis of a hollow cylinder and through a sphere behind it -/
theorem hollow_example : forwardIntersect (1 / 1000) (1 / 1000)
    (.union [.difference (.cylinder 2 2) (.cylinder 1 2), .translation (.sphere 1) ⟨0, 0, 5⟩])
      ⟨0, 0, -5⟩ ⟨0, 0, 1⟩ = .ok [4, 4, 6, 6, 9, 11] := by
  have e : (⟨0, 0, -5⟩ : V3 ℝ) - ⟨0, 0, 5⟩ = ⟨0, 0, -10⟩ := by
    apply V3.ext <;> norm_num
  simp only [forwardIntersect, intersect, gather, e, sphere_axis_example,
    cylinder_axis_example, bind, Except.bind,
    keepOnBorder, locate, locUnion]
  norm_num [keepOnBorder, locate, locUnion, locSphere, locCylinder, locDifference, bind,
    Except.bind]
  simp
  norm_num [sort, List.insertionSort, List.orderedInsert]
  simp only [keepOnBorder, locate, locUnion, bind, Except.bind]
  norm_num [locSphere, locCylinder, locDifference]
  simp
  norm_num [List.orderedInsert]

/-- **C77** An object that is straight ahead can go unreported: a path along the axis of a
hollow cylinder crosses the two end planes, each of which is counted twice; the middle of the
first pair of times is then on a border, and the sphere behind is not looked at. -/
theorem C77_missed_false : ¬ ∀ (tol par : ℝ) (shapes : List Shape) (p v : V3 ℝ), 0 < tol →
    0 < par → (∀ s ∈ shapes, WF s) → Apart shapes →
    (∀ s ∈ shapes, locate tol s p = .ok .outside) →
    (∃ s ∈ shapes, ∃ t, 0 ≤ t ∧ Interior (Mem s) (at' p v t)) →
    find1stHit tol par shapes p v ≠ .ok none := by
  intro H
  have z1 : ∀ q, Mem (.difference (.cylinder 2 2) (.cylinder 1 2)) q → |q.z| ≤ 1 := by
    intro q hq
    simp only [Mem] at hq
    norm_num at hq
    exact hq.1.2
  have z2 : ∀ q, Mem (.translation (.sphere 1) ⟨0, 0, 5⟩) q → |q.z - 5| ≤ 1 := by
    intro q hq
    rw [mem_translation] at hq
    simp only [Mem, V3.sub_x, V3.sub_y, V3.sub_z] at hq
    rw [abs_le]
    constructor <;> nlinarith [mul_self_nonneg (q.x - 0), mul_self_nonneg (q.y - 0)]
  have far : ∀ q, Mem (.difference (.cylinder 2 2) (.cylinder 1 2)) q →
      Mem (.translation (.sphere 1) ⟨0, 0, 5⟩) q → False := by
    intro q h1 h2
    have a := abs_le.1 (z1 q h1)
    have b := abs_le.1 (z2 q h2)
    linarith [a.2, b.1]
  refine H (1 / 1000) (1 / 1000)
    [.difference (.cylinder 2 2) (.cylinder 1 2), .translation (.sphere 1) ⟨0, 0, 5⟩]
    ⟨0, 0, -5⟩ ⟨0, 0, 1⟩ (by norm_num) (by norm_num) ?_ ?_ ?_ ?_ ?_
  · norm_num [WF]
  · intro i j hij s s' hs hs' q hq hq'
    match i, j with
    | 0, 0 => exact hij rfl
    | 0, 1 =>
      simp only [List.getElem?_cons_zero, List.getElem?_cons_succ, Option.some.injEq] at hs hs'
      subst hs hs'
      exact far q hq hq'.self
    | 1, 0 =>
      simp only [List.getElem?_cons_zero, List.getElem?_cons_succ, Option.some.injEq] at hs hs'
      subst hs hs'
      exact far q hq'.self hq
    | 1, 1 => exact hij rfl
    | i + 2, _ => simp at hs
    | _, j + 2 => simp at hs'
  · intro s hs
    simp only [List.mem_cons, List.not_mem_nil, or_false] at hs
    rcases hs with rfl | rfl <;>
      norm_num [locate, locSphere, locCylinder, locDifference, bind, Except.bind]
  · refine ⟨.translation (.sphere 1) ⟨0, 0, 5⟩, by simp, 10, by norm_num, ?_⟩
    refine (locate_sound (ret := 1 / 1000) (by norm_num) _ (by norm_num [WF]) _).1 ?_
    norm_num [locate, locSphere, at_x, at_y, at_z]
  · simp only [find1stHit, hollow_example, bind, Except.bind]
    norm_num [findContaining, anyOnBorder, locate, locSphere, locCylinder, locDifference, bind,
      Except.bind]
    simp

/-- **C77** What remains: when the middle of the first two crossings ahead is inside an object,
an object is reported, and that point is inside of it. -/
theorem C77_found_partial {tol par : ℝ} (shapes : List Shape) (hw : ∀ s ∈ shapes, WF s)
    (p v : V3 ℝ) (hout : ∀ s ∈ shapes, locate tol s p = .ok .outside) (d0 d1 : ℝ) (rest : List ℝ)
    (hds : forwardIntersect tol par (.union shapes) p v = .ok (d0 :: d1 :: rest))
    (heven : rest.length % 2 = 0)
    (hin : ∃ s ∈ shapes, locate tol s (p + ((d0 + d1) / 2) • v) = .ok .inside) :
    ∃ i s, find1stHit tol par shapes p v = .ok (some i) ∧ shapes[i]? = some s ∧
      locate tol s (p + ((d0 + d1) / 2) • v) = .ok .inside :=
  found_if_middle_inside hw hout hds heven hin

/-- hypotheses for the two spheres -/
example : locate (1 / 1000) (.sphere 1) ((⟨0, 0, -5⟩ : V3 ℝ) + (((4 : ℝ) + 6) / 2) • ⟨0, 0, 1⟩) =
    .ok .inside := by
  norm_num [locate, locSphere]

end Verif.Solid
