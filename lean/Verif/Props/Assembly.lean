import Verif.Lemmas.Assembly
import Verif.Lemmas.SolidHit
import Mathlib.Tactic.NormNum
/-!
Property theorems about the rendering of Python descriptions of scatterers: C224 – C232.
-/

namespace Verif.Assembly
open Verif.Solid Verif.Frames
open Classical

/-! ### C224 orientations -/

/-- **C224** The matrix of an axis and an angle is a proper rotation; it turns every point by the
angle (in degrees) about the axis, counter-clockwise seen from the tip. -/
theorem C224_axis (axis : V3 ℝ) (h : axis ≠ 0) (angle : ℝ) :
    ∃ m, tomatrix (.axisAngle axis angle) = some m ∧ IsRotation m ∧
      ∀ q, m.mulVec q = turned (along axis) (deg angle) q :=
  matrixAbout_spec h angle

/-- **C224** The matrix of three angles turns every point about x, y' and z'', in the same sense. -/
theorem C224_euler (a q : V3 ℝ) :
    ∃ m, tomatrix (.euler a) = some m ∧ IsOrtho m ∧ m.mulVec q = turnedXYZ a q :=
  ⟨_, rfl, euler_ortho a, euler_turned a q⟩

/-- **C224** The length of the axis does not matter. -/
theorem C224_length (axis : V3 ℝ) (h : axis ≠ 0) (angle k : ℝ) (hk : 0 < k) :
    ∃ m m', tomatrix (.axisAngle axis angle) = some m ∧ tomatrix (.axisAngle (k • axis) angle) = some m' ∧
      ∀ q, m.mulVec q = m'.mulVec q := by
  have h' : k • axis ≠ 0 := by
    intro e
    apply h
    have e1 := congrArg V3.x e
    have e2 := congrArg V3.y e
    have e3 := congrArg V3.z e
    simp only [V3.smul_x, V3.smul_y, V3.smul_z, V3.zero_x, V3.zero_y, V3.zero_z, mul_eq_zero, hk.ne', false_or]
      at e1 e2 e3
    ext <;> assumption
  obtain ⟨m, h1, -, h2⟩ := matrixAbout_spec h angle
  obtain ⟨m', h1', -, h2'⟩ := matrixAbout_spec h' angle
  refine ⟨m, m', h1, h1', fun q => ?_⟩
  rw [h2, h2']
  congr 1
  simp only [along, V3.smul_x, V3.smul_y, V3.smul_z]
  have e : Real.sqrt ((k * axis.x) ^ 2 + (k * axis.y) ^ 2 + (k * axis.z) ^ 2) =
      k * Real.sqrt (axis.x ^ 2 + axis.y ^ 2 + axis.z ^ 2) := by
    rw [show (k * axis.x) ^ 2 + (k * axis.y) ^ 2 + (k * axis.z) ^ 2 =
      k ^ 2 * (axis.x ^ 2 + axis.y ^ 2 + axis.z ^ 2) by ring, Real.sqrt_mul (by positivity),
      Real.sqrt_sq hk.le]
  rw [e]
  ext <;> simp only [V3.smul_x, V3.smul_y, V3.smul_z] <;> field_simp

/-- a quarter turn about the vertical axis brings z to x -/
example : turned (along ⟨0, 5, 0⟩) (deg 90) ⟨0, 0, 1⟩ = (⟨1, 0, 0⟩ : V3 ℝ) ∧ (⟨0, 5, 0⟩ : V3 ℝ) ≠ 0 := by
  have h : deg 90 = Real.pi / 2 := by simp only [deg]; ring
  refine ⟨?_, fun e => by simpa using congrArg V3.y e⟩
  simp only [along, turned, h, V3.cross, V3.dot, Real.cos_pi_div_two, Real.sin_pi_div_two]
  ext <;> simp

/-! ### C225 rendered shapes -/

/-- **C225** Every description that makes sense is rendered, and the C++ shape is the body
described. -/
theorem C225_body (s : PyShape) (hg : Good s) :
    ∃ c, render .mcstas s = .ok c ∧ WF c ∧ ∀ p, Mem c p ↔ Body s p :=
  render_faithful s hg

/-- **C225** The locator applied to the rendered shape answers about the body described. -/
theorem C225_locate {tol : ℝ} (h0 : 0 < tol) (s : PyShape) (hg : Good s) :
    ∃ c, render .mcstas s = .ok c ∧ ∀ p,
      (locate tol c p = .ok .inside → Interior (Body s) p) ∧
      (locate tol c p = .ok .outside → Exterior (Body s) p) := by
  obtain ⟨c, h1, h2, h3⟩ := render_faithful s hg
  have e : Mem c = Body s := funext fun p => propext (h3 p)
  refine ⟨c, h1, fun p => ?_⟩
  have := locate_sound h0 c h2 p
  rwa [e] at this

/-- a can with a lid knocked off: a hollow cylinder and a plate moved up, turned about the beam -/
example : Good (.rotAxis (.union [.hollowCylinder 1 2 10, .translation (.block 4 1 4) ⟨0, 0, 6⟩ false])
    ⟨1, 0, 0⟩ 30 false) ∧ Body (.rotAxis (.union [.hollowCylinder 1 2 10,
      .translation (.block 4 1 4) ⟨0, 0, 6⟩ false]) ⟨1, 0, 0⟩ 0 false) ⟨0, 6, 0⟩ := by
  refine ⟨⟨⟨⟨by norm_num, by norm_num, by norm_num⟩, ⟨by norm_num, by norm_num, by norm_num⟩, trivial⟩,
    fun e => by simpa using congrArg V3.x e⟩, ⟨0, 6, 0⟩, ?_, ?_⟩
  · refine Or.inr (Or.inl ⟨⟨0, 0, 0⟩, ?_, ?_⟩)
    · norm_num [Body]
    · ext <;> simp [labVector]
  · ext <;> simp [turned, deg]

/-! ### C226 the two coordinate systems -/

/-- **C226** (partial) A description without rotations, translations and diagonals is rendered to the same
body in both coordinate systems.  Missing: descriptions with rotations or translations, for which it
is false (`C226_moved_false`). -/
theorem C226_same_partial (s : PyShape) (hg : Good s) (hu : Unturned s) :
    ∃ c c', render .mcstas s = .ok c ∧ render .scientist s = .ok c' ∧
      ∀ beam transversal vertical, Mem c ⟨transversal, vertical, beam⟩ ↔
        Mem c' ⟨beam, transversal, vertical⟩ :=
  render_agree s hg hu

/-- **C226** Rotated and translated shapes are not rendered at all in the coordinate system of the
instrument scientist. -/
theorem C226_moved_false : ¬ ∀ s : PyShape, Good s → ∃ c, render .scientist s = .ok c := by
  intro h
  obtain ⟨c, hc⟩ := h (.translation (.sphere 1) ⟨0, 0, 1⟩ true) (by norm_num [Good])
  simp [render] at hc

/-- **C226** They end in `NotImplementedError`. -/
theorem C226_error (b : PyShape) (v : V3 ℝ) (a : ℝ) (i : Bool) :
    render .scientist (.translation b v i) = .error .notImplemented ∧
    render .scientist (.rotEuler b v) = .error .notImplemented ∧
    render .scientist (.rotAxis b v a i) = .error .notImplemented :=
  ⟨rfl, rfl, rfl⟩

/-- a plate with a conical hole -/
example : Good (.difference (.block 10 10 1) (.cone 1 3)) ∧ Unturned (.difference (.block 10 10 1) (.cone 1 3)) := by
  norm_num [Good, Unturned]

/-! ### C227 hollow shapes -/

/-- **C227** A hollow cylinder is its wall: the hole is open at both ends. -/
theorem C227_cylinder (r1 r2 h : ℝ) (h1 : 0 < r1) (h2 : r1 < r2) (h3 : 0 < h) :
    ∃ c, render .mcstas (.hollowCylinder r1 r2 h) = .ok c ∧
      ∀ p, Mem c p ↔ r1 ^ 2 < p.x ^ 2 + p.z ^ 2 ∧ p.x ^ 2 + p.z ^ 2 ≤ r2 ^ 2 ∧ |p.y| ≤ h / 2 := by
  obtain ⟨c, hc, -, hm⟩ := render_faithful (.hollowCylinder r1 r2 h) ⟨h1.le, h2, h3⟩
  refine ⟨c, hc, fun p => (hm p).trans ?_⟩
  simp [Body, h1.ne']

/-- **C227** A sphere shell is its wall. -/
theorem C227_shell (r1 r2 : ℝ) (h1 : 0 < r1) (h2 : r1 < r2) (cs : CS) :
    ∃ c, render cs (.sphereShell r1 r2) = .ok c ∧
      ∀ p, Mem c p ↔ r1 ^ 2 < p.x ^ 2 + p.y ^ 2 + p.z ^ 2 ∧ p.x ^ 2 + p.y ^ 2 + p.z ^ 2 ≤ r2 ^ 2 := by
  refine ⟨.difference (.sphere r2) (.sphere r1), ?_, fun p => ?_⟩
  · simp only [render, onSphereShell]
    rw [if_neg (not_le.2 h2), if_neg (by simpa using h1.ne')]
  · simp only [Mem, not_le, sq]; tauto

/-- **C227** A wall of no thickness is refused. -/
theorem C227_refused (cs : CS) (r1 r2 h : ℝ) (hr : r2 ≤ r1) :
    render cs (.hollowCylinder r1 r2 h) = .error .runtimeError ∧
    render cs (.sphereShell r1 r2) = .error .runtimeError := by
  simp only [render, onHollowCylinder, onSphereShell]
  exact ⟨if_pos hr, if_pos hr⟩

example : (0 : ℝ) < 1 ∧ (1 : ℝ) < 2 ∧ ((1 : ℝ) ^ 2 < (3 / 2) ^ 2 + 0 ^ 2 ∧ (3 / 2 : ℝ) ^ 2 + 0 ^ 2 ≤ 2 ^ 2) := by norm_num

/-! ### C228 composites -/

/-- **C228** (partial) The shape of a composite that has none of its own is the union of its constituents as
the C++ composite places them.  Missing: composites whose shape was asked for before an element was
added (`C229_stale_false`). -/
theorem C228_union_partial (c : PyComp) (cc : CComp) (h : c.shape = none) (hr : renderComp .mcstas c = .ok cc)
    (p : V3 ℝ) : Mem cc.shape p ↔ ∃ s ∈ cc.placed, Mem s p := by
  rw [renderComp_union h hr, Mem, memAny_iff]

/-- **C228** (partial) A composite of different elements is the union of the bodies of the elements, each turned
and moved as the user said.  Missing: elements added twice (`C229_twice_false`) and copies
(`C229_copy_false`). -/
theorem C228_placed_partial (l : List (PyElem × V3 ℝ × V3 ℝ)) (hd : (l.map (·.1.id)).Nodup)
    (hs : ∀ x ∈ l, ∃ s, x.1.shape = some s ∧ Good s) :
    ∃ cc, renderComp .mcstas (assembled l) = .ok cc ∧
      cc.parts.map (fun x => (x.2.1, x.2.2)) = l.map (fun x => (x.2.1, eulerToMatrix x.2.2)) ∧
      ∀ p, Mem cc.shape p ↔
        ∃ x ∈ l, ∃ s q, x.1.shape = some s ∧ Body s q ∧ p = turnedXYZ x.2.2 q + x.2.1 := by
  -- what the elements are rendered to
  have hfun : ∀ x : PyElem × V3 ℝ × V3 ℝ, ∃ c : Shape, x ∈ l → ∃ s, x.1.shape = some s ∧
      render .mcstas s = .ok c ∧ ∀ p, Mem c p ↔ Body s p := by
    intro x
    by_cases hx : x ∈ l
    · obtain ⟨s, h1, h2⟩ := hs x hx
      obtain ⟨c, h3, -, h4⟩ := render_faithful s h2
      exact ⟨c, fun _ => ⟨s, h1, h3, h4⟩⟩
    · exact ⟨.sphere 1, fun h => absurd h hx⟩
  choose f hf using hfun
  have hparts : (assembled l).elems.mapM (renderPart .mcstas (assembled l)) =
      .ok (l.map fun x => (f x, x.2.1, eulerToMatrix x.2.2)) := by
    have he : (assembled l).elems = l.map (·.1) := by rw [assembled_eq]
    rw [he]
    generalize hA : assembled l = A
    have hpl : ∀ x ∈ l, A.place x.1 = .ok x.2 := fun x hx => hA ▸ place_assembled hd hx
    clear hA he hd hs
    induction l with
    | nil => rfl
    | cons a l ih =>
      obtain ⟨s, h1, h2, h3⟩ := hf a List.mem_cons_self
      rw [List.map_cons, List.mapM_cons, ih (fun x hx => hf x (List.mem_cons_of_mem _ hx))
        (fun x hx => hpl x (List.mem_cons_of_mem _ hx))]
      have : renderPart .mcstas A a.1 = .ok (f a, a.2.1, eulerToMatrix a.2.2) := by
        unfold renderPart
        rw [h1]
        dsimp only
        rw [h2, hpl a List.mem_cons_self]
        rfl
      rw [this]
      rfl
  have hshape : (assembled l).elems.mapM (assembled l).elementShape =
      .ok (l.map fun x => .translation (.rotEuler (x.1.shape.getD (.sphere 1)) x.2.2) x.2.1 true) := by
    have he : (assembled l).elems = l.map (·.1) := by rw [assembled_eq]
    rw [he]
    generalize hA : assembled l = A
    have hpl : ∀ x ∈ l, A.place x.1 = .ok x.2 := fun x hx => hA ▸ place_assembled hd hx
    clear hA he hd hparts hf
    induction l with
    | nil => rfl
    | cons a l ih =>
      obtain ⟨s, h1, h2⟩ := hs a List.mem_cons_self
      rw [List.map_cons, List.mapM_cons, ih (fun x hx => hs x (List.mem_cons_of_mem _ hx))
        (fun x hx => hpl x (List.mem_cons_of_mem _ hx))]
      have : A.elementShape a.1 = .ok (.translation (.rotEuler s a.2.2) a.2.1 true) := by
        unfold PyComp.elementShape
        rw [h1]
        dsimp only
        rw [hpl a List.mem_cons_self]
        rfl
      rw [this, List.map_cons, h1]
      rfl
  have hn : (assembled l).shape = none := by rw [assembled_eq]
  have hren := parts_render _ _ _ hshape hparts
  have hcc : renderComp .mcstas (assembled l) = .ok ⟨.union ((l.map fun x => (f x, x.2.1, eulerToMatrix x.2.2)).map
      fun x => .translation (.rotation x.1 x.2.2) x.2.1), l.map fun x => (f x, x.2.1, eulerToMatrix x.2.2)⟩ := by
    unfold renderComp PyComp.getShape
    rw [hn, hparts, hshape]
    simp only [bind, Except.bind, render, hren]
  refine ⟨_, hcc, ?_, fun p => ?_⟩
  · simp
  · simp only [Mem, memAny_iff, List.mem_map, exists_exists_and_eq_and]
    constructor
    · rintro ⟨x, hx, q, ⟨q1, hq, rfl⟩, rfl⟩
      obtain ⟨s, h1, h2, h3⟩ := hf x hx
      exact ⟨x, hx, s, q1, h1, (h3 q1).1 hq, by rw [euler_turned]⟩
    · rintro ⟨x, hx, s, q, h1, hq, rfl⟩
      obtain ⟨s', h1', h2, h3⟩ := hf x hx
      rw [h1'] at h1
      cases h1
      exact ⟨x, hx, _, ⟨q, (h3 q).2 hq, rfl⟩, by rw [euler_turned]⟩

/-- two cylinders side by side, one of them lying -/
example : let l : List (PyElem × V3 ℝ × V3 ℝ) :=
      [(⟨0, some (.cylinder 1 2)⟩, ⟨0, 0, 0⟩, ⟨0, 0, 0⟩), (⟨1, some (.cylinder 1 2)⟩, ⟨3, 0, 0⟩, ⟨90, 0, 0⟩)]
    (l.map (·.1.id)).Nodup ∧ ∀ x ∈ l, ∃ s, x.1.shape = some s ∧ Good s := by
  refine ⟨by simp, fun x hx => ?_⟩
  simp only [List.mem_cons, List.not_mem_nil, or_false] at hx
  rcases hx with rfl | rfl <;> exact ⟨_, rfl, by norm_num [Good]⟩

/-! ### C229 composites that are not what was put together -/

/-- **C229** (partial) An element added to a composite whose shape was not asked for is in the shape.
Missing: composites whose shape was asked for. -/
theorem C229_fresh_partial (c : PyComp) (e : PyElem) (pos orient : V3 ℝ) (cc : CComp) (h : c.shape = none)
    (hr : renderComp .mcstas (c.addElement e pos orient) = .ok cc) (p : V3 ℝ) (hp : ∃ t ∈ cc.placed, Mem t p) :
    Mem cc.shape p :=
  (C228_union_partial _ cc (by simpa [PyComp.addElement] using h) hr p).2 hp

/-- **C229** The shape of a composite is remembered when it is asked for; an element added later is not
part of it, although the C++ composite has it among its constituents. -/
theorem C229_stale_false : ¬ ∀ (c c1 : PyComp) (s : PyShape) (e : PyElem) (pos orient : V3 ℝ) (cc : CComp),
    c.shape = none → c.getShape = .ok (s, c1) → renderComp .mcstas (c1.addElement e pos orient) = .ok cc →
    ∀ p, (∃ t ∈ cc.placed, Mem t p) → Mem cc.shape p := by
  intro h
  have h1 := h (assembled [(⟨0, some (.sphere 1)⟩, ⟨0, 0, 0⟩, ⟨0, 0, 0⟩)]) _ _ ⟨1, some (.sphere 1)⟩ ⟨0, 0, 10⟩ ⟨0, 0, 0⟩ _
    rfl rfl rfl ⟨0, 0, 10⟩
  have h2 := h1 ⟨_, List.mem_cons_of_mem _ (List.mem_cons_self), by
    rw [mem_translation, mem_rotation (euler_ortho _)]
    norm_num [Mem, M3.mulVec]⟩
  simp only [Mem, MemAny, or_false] at h2
  obtain ⟨q, ⟨q', hq, rfl⟩, e⟩ := h2
  have hz := congrArg V3.z e
  have e0 := euler_turned ⟨0, 0, 0⟩ q'
  have hq2 := (euler_ortho ⟨0, 0, 0⟩).length2_mulVec q'
  simp only [V3.length2] at hq2
  simp only [V3.add_z, explicitVec, if_true] at hz
  nlinarith [mul_self_nonneg ((eulerToMatrix ⟨0, 0, 0⟩).mulVec q').x, mul_self_nonneg ((eulerToMatrix ⟨0, 0, 0⟩).mulVec q').y]

/-- **C229** The same element put in two places is in the last place only. -/
theorem C229_twice_false : ¬ ∀ (l : List (PyElem × V3 ℝ × V3 ℝ)) (cc : CComp),
    renderComp .mcstas (assembled l) = .ok cc →
    ∀ x ∈ l, ∀ s q, x.1.shape = some s → Body s q → Mem cc.shape (turnedXYZ x.2.2 q + x.2.1) := by
  intro h
  have h1 := h [(⟨0, some (.sphere 1)⟩, ⟨0, 0, 0⟩, ⟨0, 0, 0⟩), (⟨0, some (.sphere 1)⟩, ⟨0, 0, 10⟩, ⟨0, 0, 0⟩)] _
    rfl _ List.mem_cons_self (.sphere 1) ⟨0, 0, 0⟩ rfl (by norm_num [Body])
  have e0 : turnedXYZ ⟨0, 0, 0⟩ (⟨0, 0, 0⟩ : V3 ℝ) = ⟨0, 0, 0⟩ := by
    simp only [turnedXYZ, turned, V3.cross, V3.dot]
    ext <;> simp
  have hm : Mem (.translation (.rotation (.sphere 1) (eulerToMatrix ⟨0, 0, 0⟩)) ⟨0, 0, 10⟩)
      ((⟨0, 0, 0⟩ : V3 ℝ) + ⟨0, 0, 0⟩) := by
    simp only [e0] at h1
    simp only [Mem, MemAny, or_false] at h1
    rcases h1 with h1 | h1 <;> simpa [Mem, explicitVec] using h1
  obtain ⟨q, ⟨q', hq, rfl⟩, e⟩ := hm
  have hz := congrArg V3.z e
  have hq2 := (euler_ortho ⟨0, 0, 0⟩).length2_mulVec q'
  simp only [V3.length2] at hq2
  simp only [V3.add_z] at hz
  simp only [Mem] at hq
  nlinarith [mul_self_nonneg ((eulerToMatrix ⟨0, 0, 0⟩).mulVec q').x, mul_self_nonneg ((eulerToMatrix ⟨0, 0, 0⟩).mulVec q').y]

/-- **C229** A composite without a shape of its own that contains a copy has no shape. -/
theorem C229_copy_false (l : List (PyElem × V3 ℝ × V3 ℝ)) (x : PyElem × V3 ℝ × V3 ℝ) (hx : x ∈ l)
    (hc : x.1.shape = none) : ¬ ∃ r, (assembled l).getShape = .ok r := by
  have hn : (assembled l).shape = none := by rw [assembled_eq]
  have hm : x.1 ∈ (assembled l).elems := by rw [assembled_eq]; exact List.mem_map.2 ⟨x, hx, rfl⟩
  rintro ⟨r, hr⟩
  unfold PyComp.getShape at hr
  rw [hn] at hr
  generalize (assembled l) = A at *
  cases e : A.elems.mapM A.elementShape with
  | error y => rw [e] at hr; cases hr
  | ok ss =>
    clear hr
    generalize A.elems = L at hm e
    induction L generalizing ss with
    | nil => cases hm
    | cons a L ih =>
      obtain ⟨b, bs, h1, h2, -⟩ := mapM_cons_inv e
      rcases List.mem_cons.1 hm with h | h
      · rw [← h] at h1
        unfold PyComp.elementShape at h1
        rw [hc] at h1
        cases h1
      · exact ih _ h h2

/-- a tube and its copy -/
example : ∃ x ∈ ([(⟨0, some (.cylinder 1 2)⟩, ⟨0, 0, 0⟩, ⟨0, 0, 0⟩), (⟨1, none⟩, ⟨3, 0, 0⟩, ⟨0, 0, 0⟩)] :
    List (PyElem × V3 ℝ × V3 ℝ)), x.1.shape = none := ⟨_, List.mem_cons_of_mem _ List.mem_cons_self, rfl⟩

/-! ### C230 options that are zero -/

/-- **C230** (partial) Limits of a composite that are given and not zero are used.  Missing: zero
(`C230_zero_false`). -/
theorem C230_limits_partial (among path1 : Nat) (minP : ℝ) (h1 : among ≠ 0) (h2 : path1 ≠ 0) :
    multParams (some among) (some path1) (some minP) = (among, path1, minP) := by
  simp only [multParams, pyOr, if_neg h1, if_neg h2]
  split_ifs with h
  · rw [h]
  · rfl

/-- **C230** A user who asks for no multiple scattering among the scatterers gets five loops. -/
theorem C230_zero_false : ¬ ∀ (among path1 : Nat) (minP : ℝ),
    multParams (some among) (some path1) (some minP) = (among, path1, minP) := by
  intro h
  have := congrArg Prod.fst (h 0 1 0)
  simp [multParams, pyOr] at this

/-- **C230** The limits of a homogeneous scatterer are used whatever they are. -/
theorem C230_homogeneous (loops : Nat) (minP packing : ℝ) :
    homogParams (some loops) (some minP) (some packing) = (loops, minP, packing) := rfl

/-- **C230** What is not given has the default of the documentation: five loops, one on the first path, no least probability, a packing factor of one. -/
theorem C230_defaults : homogParams none none none = (5, 0, 1) ∧ multParams none none none = (5, 1, 0) := ⟨rfl, rfl⟩

/-- **C230** (partial) Weights of kernels that are not zero are used.  Missing: zero
(`C230_weight_false`). -/
theorem C230_weights_partial (w : List ℝ) (h : ∀ x ∈ w, x ≠ 0) : kernelWeights (w.map some) = w := by
  simp only [kernelWeights, List.map_map]
  conv_rhs => rw [← List.map_id w]
  apply List.map_congr_left
  intro x hx
  simp [pyOr, h x hx]

/-- **C230** A kernel switched off by the weight 0 counts as much as one with the weight 1. -/
theorem C230_weight_false : ¬ ∀ w : List ℝ, kernelWeights (w.map some) = w := by
  intro h
  have := h [0, 1]
  simp [kernelWeights, pyOr] at this

example : (5 : Nat) ≠ 0 ∧ ∀ x ∈ ([1 / 2, 3] : List ℝ), x ≠ 0 := by norm_num

/-! ### C231 detector tubes -/

/-- **C231** (partial) An upright tube with pixels can be built: its pixels are the centres of `npixels` equal
parts of its axis.  Missing: the other two directions, for which it is false. -/
theorem C231_upright_partial {tol : ℝ} (h0 : 0 ≤ tol) (cs : CS) (radius height : ℝ) (npixels : Nat) (hn : npixels ≠ 0)
    (hr : tol < radius) (hh : tol < height / (2 * npixels)) :
    ∃ t c, he3tubeWithPixels radius height npixels (upwards cs) = .ok t ∧ renderTube tol cs t = .ok c ∧
      t.pixels = (List.range npixels).map fun i : Nat =>
        (((i : ℝ) + 1 / 2) / npixels * height - height / 2) • dirVec (upwards cs) := by
  have hn' : (0 : ℝ) < npixels := by exact_mod_cast Nat.pos_of_ne_zero hn
  have hh0 : 0 < height := by
    have h1 := lt_of_le_of_lt h0 hh
    rw [lt_div_iff₀ (by positivity)] at h1
    linarith
  have hd : ∀ i : Nat, -((npixels : ℝ) - 1) / 2 / npixels * height + height / npixels * i =
      ((i : ℝ) + 1 / 2) / npixels * height - height / 2 := by
    intro i; field_simp; ring
  have hb : ∀ i ∈ List.range npixels, |((i : ℝ) + 1 / 2) / npixels * height - height / 2| < height / 2 - tol := by
    intro i hi
    have hi' : ((i : ℝ) + 1) ≤ npixels := by exact_mod_cast List.mem_range.1 hi
    have e : ((i : ℝ) + 1 / 2) / npixels * height - height / 2 = (2 * i + 1 - npixels) * (height / (2 * npixels)) := by
      field_simp
    have e2 : height / 2 = npixels * (height / (2 * npixels)) := by field_simp
    rw [e, e2]
    have hk : 0 < height / (2 * npixels) := by positivity
    rw [abs_mul, abs_of_pos hk]
    have : |(2 * (i : ℝ) + 1 - npixels)| ≤ npixels - 1 := by
      rw [abs_le]
      have : (0 : ℝ) ≤ i := Nat.cast_nonneg i
      constructor <;> linarith
    nlinarith
  unfold he3tubeWithPixels renderTube
  rw [if_neg hn]
  cases cs with
  | mcstas =>
    refine ⟨_, onCylinder .mcstas radius height, rfl, ?_, ?_⟩
    · dsimp only [upwards, render]
      simp only [bind, Except.bind]
      rw [checkPixels_ok]
      intro p hp
      obtain ⟨i, hi, rfl⟩ := List.mem_map.1 hp
      rw [locate_onCylinder]
      congr 1
      rcases cyl_inside (h := height) hr (hd i ▸ hb i hi) 0 (-0) rfl neg_zero with h | h
      · exact h
      · linarith
    · simp only [upwards, dirVec, hd]
      apply List.map_congr_left
      intro i _
      ext <;> simp
  | scientist =>
    refine ⟨_, .cylinder radius height, rfl, ?_, ?_⟩
    · dsimp only [upwards, render, onCylinder]
      simp only [bind, Except.bind]
      rw [checkPixels_ok]
      intro p hp
      obtain ⟨i, hi, rfl⟩ := List.mem_map.1 hp
      rw [locate]
      congr 1
      rcases cyl_inside (h := height) hr (hd i ▸ hb i hi) 0 0 rfl rfl with h | h
      · exact h
      · linarith
    · simp only [upwards, dirVec, hd]
      apply List.map_congr_left
      intro i _
      ext <;> simp

/-- **C231** A tube of another direction that is long enough (half of it less half a pixel exceeds the
radius) fails the check of its pixels. -/
theorem C231_lying {tol : ℝ} (h0 : 0 ≤ tol) (cs : CS) (dir : Dir) (hdir : dir ≠ upwards cs)
    (radius height : ℝ) (npixels : Nat) (hn : npixels ≠ 0) (hh : 0 < height)
    (hl : radius + tol < height / 2 - height / (2 * npixels)) :
    ∃ t, he3tubeWithPixels radius height npixels dir = .ok t ∧
      renderTube tol cs t = .error .assertionError := by
  obtain ⟨k, rfl⟩ := Nat.exists_eq_succ_of_ne_zero hn
  have hn' : (0 : ℝ) < (k.succ : ℕ) := by exact_mod_cast Nat.succ_pos k
  have hd : -(((k.succ : ℕ) : ℝ) - 1) / 2 / (k.succ : ℕ) * height + height / (k.succ : ℕ) * ((0 : ℕ) : ℝ) =
      -(height / 2 - height / (2 * (k.succ : ℕ))) := by
    field_simp; push_cast; ring
  have hge : 0 ≤ height / 2 - height / (2 * ((k.succ : ℕ) : ℝ)) := by
    have : (1 : ℝ) ≤ (k.succ : ℕ) := by exact_mod_cast Nat.succ_le_succ (Nat.zero_le k)
    have e : height / (2 * ((k.succ : ℕ) : ℝ)) ≤ height / 2 := by
      apply div_le_div_of_nonneg_left hh.le (by norm_num) (by linarith)
    linarith
  unfold he3tubeWithPixels
  rw [if_neg hn]
  refine ⟨_, rfl, ?_⟩
  dsimp only
  rw [List.range_succ_eq_map, List.map_cons, hd]
  generalize hw : height / 2 - height / (2 * ((k.succ : ℕ) : ℝ)) = w at *
  have hsq : ∀ a b : ℝ, a * a + b * b = w * w → radius + tol < Real.sqrt (a * a + b * b) := by
    intro a b e; rw [e, Real.sqrt_mul_self hge]; exact hl
  unfold renderTube
  cases cs <;> cases dir <;> simp only [upwards, ne_eq, not_true_eq_false] at hdir
  all_goals
    simp only [render, bind, Except.bind, checkPixels]
  rotate_right 2
  · simp only [onCylinder, locate]
    rw [cyl_outside h0 hh (hsq _ _ (by ring))]; simp
  · simp only [onCylinder, locate]
    rw [cyl_outside h0 hh (hsq _ _ (by ring))]; simp
  all_goals simp only [locate_onCylinder]
  · rw [neg_zero, cyl_outside h0 hh (hsq _ _ (by ring))]; simp
  · rw [cyl_outside h0 hh (hsq _ _ (by ring))]; simp

/-- **C231** With the default direction `z`, radius half an inch, length one metre and 128 pixels, a tube cannot be
built in the default coordinate system. -/
theorem C231_default_false : ¬ ∃ t c, he3tubeWithPixels (254 / 20000) 1 128 .z = .ok t ∧
    renderTube (1 / 10 ^ 12) .mcstas t = .ok c := by
  rintro ⟨t, c, h1, h2⟩
  obtain ⟨t', h3, h4⟩ := C231_lying (tol := 1 / 10 ^ 12) (by norm_num) .mcstas .z (by decide) (254 / 20000) 1 128
    (by norm_num) (by norm_num) (by norm_num)
  rw [h3] at h1
  cases h1
  rw [h4] at h2
  cases h2

/-- the upright tube of these dimensions meets the hypotheses -/
example : (128 : Nat) ≠ 0 ∧ (1 / 10 ^ 12 : ℝ) < 254 / 20000 ∧ (1 / 10 ^ 12 : ℝ) < 1 / (2 * (128 : Nat)) := by norm_num

/-! ### C232 copies -/

/-- **C232** (partial) Every scatterer whose copies are copies of composites or tubes is rendered, a copy like
what it copies.  Missing: copies of homogeneous scatterers (`C232_homogeneous_false`). -/
theorem C232_rendered_partial : ∀ s : PyScat, Copyable s → engines s = .ok (pieces s) := by
  intro s
  refine PyScat.rec
    (motive_1 := fun s => (Copyable s → engines s = .ok (pieces s)) ∧ (Copyable (.copy s) → engines (.copy s) = .ok (pieces s)))
    (motive_2 := fun l => CopyableAll l → enginesAll l = .ok (piecesAll l)) ?_ ?_ ?_ ?_ ?_ ?_ s |>.1
  · intro sh; exact ⟨fun _ => by rw [engines, pieces], fun h => by simp [Copyable] at h⟩
  · intro l hl
    exact ⟨fun h => by rw [engines, pieces]; exact hl (by simpa [Copyable] using h),
      fun h => by rw [engines, pieces]; exact hl (by simpa [Copyable] using h)⟩
  · intro sh; exact ⟨fun _ => by rw [engines, pieces], fun _ => by rw [engines, pieces]⟩
  · intro r hr
    exact ⟨fun h => by rw [pieces]; exact hr.2 h, fun h => by simp [Copyable] at h⟩
  · intro _; rw [enginesAll, piecesAll]
  · intro a l ha hl h
    rw [CopyableAll] at h
    rw [enginesAll, piecesAll, ha.1 h.1, hl h.2]
    rfl

/-- **C232** A copy of a homogeneous scatterer cannot be rendered, alone or in a composite. -/
theorem C232_homogeneous_false (shape : PyShape) (before after : List PyScat) (hb : CopyableAll before) :
    engines (.composite (before ++ .copy (.homogeneous shape) :: after)) = .error .attributeError := by
  rw [engines]
  induction before with
  | nil => rw [List.nil_append, enginesAll, engines]; rfl
  | cons a l ih =>
    rw [CopyableAll] at hb
    rw [List.cons_append, enginesAll, C232_rendered_partial a hb.1, ih hb.2]
    rfl

/-- a pack of a tube and a copy of it, and a copy of the pack -/
example : Copyable (.composite [.composite [.he3tube (.cylinder 1 2), .copy (.he3tube (.cylinder 1 2))],
      .copy (.composite [.he3tube (.cylinder 1 2), .copy (.he3tube (.cylinder 1 2))])]) ∧
    pieces (.composite [.composite [.he3tube (.cylinder 1 2), .copy (.he3tube (.cylinder 1 2))],
      .copy (.composite [.he3tube (.cylinder 1 2), .copy (.he3tube (.cylinder 1 2))])]) = 4 := by
  simp [Copyable, CopyableAll, pieces, piecesAll]

end Verif.Assembly
