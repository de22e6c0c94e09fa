import Verif.Spec.Assembly
import Verif.Lemmas.Solid
import Verif.Lemmas.Angles
/-!
Helper lemmas for the rendering of Python shapes.
-/

namespace Verif.Assembly
open Verif.Solid Verif.Frames
open Classical

theorem toradian_eq (a : ℝ) : toradian a = deg a := by simp only [toradian, deg]; ring

/-- the matrix of the angles turns -/
theorem euler_turned (a q : V3 ℝ) : (eulerToMatrix a).mulVec q = turnedXYZ a q := by
  have hx := sq_add (deg a.x)
  have hy := sq_add (deg a.y)
  have hz := sq_add (deg a.z)
  simp only [eulerToMatrix, toMatrix, toradian_eq, toMatrixRad, matrixCS, M3.transpose, M3.mulVec, turnedXYZ,
    turned, V3.cross, V3.dot]
  ext <;> simp only [V3.add_x, V3.add_y, V3.add_z, V3.smul_x, V3.smul_y, V3.smul_z] <;> ring

theorem euler_ortho (a : V3 ℝ) : IsOrtho (eulerToMatrix a) :=
  (toMatrixRad_rotation _).1.cols

theorem matrixAbout_spec {axis : V3 ℝ} (h : axis ≠ 0) (th : ℝ) :
    ∃ m, tomatrix (.axisAngle axis th) = some m ∧ IsRotation m ∧
      ∀ q, m.mulVec q = turned (along axis) (deg th) q := by
  have hpos : 0 < axis.x * axis.x + axis.y * axis.y + axis.z * axis.z := by
    rcases (add_nonneg (add_nonneg (mul_self_nonneg axis.x) (mul_self_nonneg axis.y)) (mul_self_nonneg axis.z)).lt_or_eq with h1 | h1
    · exact h1
    · exfalso; apply h
      have hx : axis.x = 0 := by nlinarith [mul_self_nonneg axis.x, mul_self_nonneg axis.y, mul_self_nonneg axis.z]
      have hy : axis.y = 0 := by nlinarith [mul_self_nonneg axis.x, mul_self_nonneg axis.y, mul_self_nonneg axis.z]
      have hz : axis.z = 0 := by nlinarith [mul_self_nonneg axis.x, mul_self_nonneg axis.y, mul_self_nonneg axis.z]
      ext <;> simpa
  have hn : Real.sqrt (axis.dot axis) ≠ 0 := (Real.sqrt_pos.2 hpos).ne'
  have hs : Real.sqrt (axis.x ^ 2 + axis.y ^ 2 + axis.z ^ 2) = Real.sqrt (axis.dot axis) := by
    congr 1; simp only [V3.dot]; ring
  have hq : Real.sqrt (axis.dot axis) * Real.sqrt (axis.dot axis) = axis.x * axis.x + axis.y * axis.y + axis.z * axis.z :=
    Real.mul_self_sqrt hpos.le
  have hc : Real.cos (deg th) = Real.cos (deg th / 2) * Real.cos (deg th / 2) - Real.sin (deg th / 2) * Real.sin (deg th / 2) := by
    have := Real.cos_two_mul (deg th / 2)
    have h2 := sq_add (deg th / 2)
    rw [mul_div_cancel₀ (deg th) (two_ne_zero)] at this
    rw [this]; nlinarith
  have hsn : Real.sin (deg th) = 2 * Real.sin (deg th / 2) * Real.cos (deg th / 2) := by
    have := Real.sin_two_mul (deg th / 2)
    rwa [mul_div_cancel₀ (deg th) (two_ne_zero)] at this
  have h1 := sq_add (deg th / 2)
  simp only [tomatrix, matrixAbout, if_neg hn, Option.map_some, toradian_eq]
  refine ⟨_, rfl, ?_, ?_⟩
  · set C := Real.cos (deg th / 2)
    set S := Real.sin (deg th / 2)
    set n := Real.sqrt (axis.dot axis)
    have hu : axis.x / n * (axis.x / n) + axis.y / n * (axis.y / n) + axis.z / n * (axis.z / n) = 1 := by
      field_simp; nlinarith
    generalize axis.x / n = u at hu ⊢
    generalize axis.y / n = v at hu ⊢
    generalize axis.z / n = w at hu ⊢
    have e4 : C * C + u * S * (u * S) + v * S * (v * S) + w * S * (w * S) = 1 := by
      linear_combination h1 + S * S * hu
    generalize u * S = b at e4 ⊢
    generalize v * S = c at e4 ⊢
    generalize w * S = d at e4 ⊢
    refine ⟨⟨⟨?_, ?_, ?_⟩, ?_, ?_, ?_⟩, ?_⟩ <;> simp only [V3.dot, M3.transpose, M3.det, V3.cross]
    · linear_combination (C*C + b*b + c*c + d*d + 1) * e4
    · linear_combination (C*C + b*b + c*c + d*d + 1) * e4
    · linear_combination (C*C + b*b + c*c + d*d + 1) * e4
    · ring
    · ring
    · ring
    · linear_combination ((C*C + b*b + c*c + d*d)^2 + (C*C + b*b + c*c + d*d) + 1) * e4
  · intro q
    simp only [along, hs, turned, hc, hsn]
    set C := Real.cos (deg th / 2)
    set S := Real.sin (deg th / 2)
    set n := Real.sqrt (axis.dot axis)
    have hu : axis.x / n * (axis.x / n) + axis.y / n * (axis.y / n) + axis.z / n * (axis.z / n) = 1 := by
      field_simp; nlinarith
    have ex : ∀ a : ℝ, 1 / n * a = a / n := fun a => by ring
    ext <;> simp only [V3.add_x, V3.add_y, V3.add_z, V3.smul_x, V3.smul_y, V3.smul_z, M3.mulVec, M3.transpose,
      V3.cross, V3.dot, ex]
    all_goals
      generalize axis.x / n = u at hu ⊢
      generalize axis.y / n = v at hu ⊢
      generalize axis.z / n = w at hu ⊢
    · linear_combination (u*(u*q.x+v*q.y+w*q.z)) * h1 - S*S*q.x * hu
    · linear_combination (v*(u*q.x+v*q.y+w*q.z)) * h1 - S*S*q.y * hu
    · linear_combination (w*(u*q.x+v*q.y+w*q.z)) * h1 - S*S*q.z * hu

/-- induction over descriptions -/
theorem PyShape.ind {P : PyShape → Prop}
    (blockD : ∀ d, P (.blockD d)) (block : ∀ w h t, P (.block w h t)) (sph : ∀ r, P (.sphere r))
    (cyl : ∀ r h, P (.cylinder r h)) (pyr : ∀ t w h, P (.pyramid t w h)) (cone : ∀ r h, P (.cone r h))
    (hc : ∀ r1 r2 h, P (.hollowCylinder r1 r2 h)) (ss : ∀ r1 r2, P (.sphereShell r1 r2))
    (union : ∀ l, (∀ s ∈ l, P s) → P (.union l)) (inter : ∀ l, (∀ s ∈ l, P s) → P (.intersection l))
    (diff : ∀ a b, P a → P b → P (.difference a b)) (dil : ∀ b s, P b → P (.dilation b s))
    (re : ∀ b a, P b → P (.rotEuler b a)) (ra : ∀ b x a i, P b → P (.rotAxis b x a i))
    (tr : ∀ b v i, P b → P (.translation b v i)) : ∀ s, P s := by
  intro s
  refine PyShape.rec (motive_1 := P) (motive_2 := fun l => ∀ s ∈ l, P s) blockD block sph cyl pyr cone
    hc ss union inter diff dil re ra tr ?_ ?_ s
  · intro s hs; cases hs
  · intro a l ha hl s hs
    rcases List.mem_cons.1 hs with rfl | h
    · exact ha
    · exact hl s h

theorem euler_m90 (q : V3 ℝ) : (eulerToMatrix ⟨-90, 0, 0⟩).mulVec q = ⟨q.x, q.z, -q.y⟩ := by
  have h : deg (-90) = -(Real.pi / 2) := by simp only [deg]; ring
  have h0 : deg 0 = 0 := by simp [deg]
  simp only [eulerToMatrix, toMatrix, toradian_eq, toMatrixRad, matrixCS, M3.transpose, M3.mulVec, h, h0,
    Real.cos_neg, Real.sin_neg, Real.cos_pi_div_two, Real.sin_pi_div_two, Real.cos_zero, Real.sin_zero]
  ext <;> simp

theorem euler_y90 (q : V3 ℝ) : (eulerToMatrix ⟨0, -90, 0⟩).mulVec q = ⟨-q.z, q.y, q.x⟩ := by
  have h : deg (-90) = -(Real.pi / 2) := by simp only [deg]; ring
  have h0 : deg 0 = 0 := by simp [deg]
  simp only [eulerToMatrix, toMatrix, toradian_eq, toMatrixRad, matrixCS, M3.transpose, M3.mulVec, h, h0,
    Real.cos_neg, Real.sin_neg, Real.cos_pi_div_two, Real.sin_pi_div_two, Real.cos_zero, Real.sin_zero]
  ext <;> simp

/-- a shape along z, turned to y -/
theorem mem_m90 (s : Shape) (p : V3 ℝ) :
    Mem (.rotation s (eulerToMatrix ⟨-90, 0, 0⟩)) p ↔ Mem s ⟨p.x, -p.z, p.y⟩ := by
  simp only [Mem, euler_m90]
  constructor
  · rintro ⟨q, hq, rfl⟩
    simpa using hq
  · intro h
    exact ⟨_, h, by simp⟩

theorem mem_y90 (s : Shape) (p : V3 ℝ) :
    Mem (.rotation s (eulerToMatrix ⟨0, -90, 0⟩)) p ↔ Mem s ⟨p.z, p.y, -p.x⟩ := by
  simp only [Mem, euler_y90]
  constructor
  · rintro ⟨q, hq, rfl⟩
    simpa using hq
  · intro h
    exact ⟨_, h, by simp⟩

theorem mem_onCylinder (r h : ℝ) (p : V3 ℝ) :
    Mem (onCylinder .mcstas r h) p ↔ p.x ^ 2 + p.z ^ 2 ≤ r ^ 2 ∧ |p.y| ≤ h / 2 := by
  simp only [onCylinder, mem_m90, Mem]
  rw [show p.x * p.x + -p.z * -p.z = p.x ^ 2 + p.z ^ 2 by ring, show r * r = r ^ 2 by ring]

theorem mem_onPyramid {t w h : ℝ} (hh : 0 < h) (p : V3 ℝ) :
    Mem (onPyramid .mcstas t w h) p ↔
      -h ≤ p.y ∧ p.y ≤ 0 ∧ |p.x| ≤ -p.y / h * (w / 2) ∧ |p.z| ≤ -p.y / h * (t / 2) := by
  simp only [onPyramid]
  rw [mem_y90, mem_m90]
  simp only [Mem, neg_neg]
  have e : ∀ a b : ℝ, a ≤ -p.y / h * (b / 2) ↔ 2 * h * a ≤ -p.y * b := by
    intro a b
    rw [show -p.y / h * (b / 2) = -p.y * b / (2 * h) by field_simp, le_div_iff₀ (by positivity)]
    constructor <;> intro h <;> linarith
  rw [e, e]
  tauto

theorem mem_onCone {r h : ℝ} (hh : 0 < h) (p : V3 ℝ) :
    Mem (onCone .mcstas r h) p ↔
      -h ≤ p.y ∧ p.y ≤ 0 ∧ p.x ^ 2 + p.z ^ 2 ≤ (-p.y / h * r) ^ 2 := by
  simp only [onCone, mem_m90, Mem]
  have e : ∀ a : ℝ, a ≤ (-p.y / h * r) ^ 2 ↔ h * h * a ≤ p.y * p.y * (r * r) := by
    intro a
    rw [show (-p.y / h * r) ^ 2 = p.y * p.y * (r * r) / (h * h) by field_simp, le_div_iff₀ (by positivity)]
    constructor <;> intro h <;> linarith
  rw [e, show p.x * p.x + -p.z * -p.z = p.x ^ 2 + p.z ^ 2 by ring]

theorem goodAll_iff (l : List PyShape) : GoodAll l ↔ ∀ s ∈ l, Good s := by
  induction l with
  | nil => simp [GoodAll]
  | cons a l ih => simp [GoodAll, ih]

theorem bodyAny_iff (l : List PyShape) (p : V3 ℝ) : BodyAny l p ↔ ∃ s ∈ l, Body s p := by
  induction l with
  | nil => simp [BodyAny]
  | cons a l ih => simp [BodyAny, ih]

theorem bodyAll_iff (l : List PyShape) (p : V3 ℝ) : BodyAll l p ↔ ∀ s ∈ l, Body s p := by
  induction l with
  | nil => simp [BodyAll]
  | cons a l ih => simp [BodyAll, ih]

theorem explicitVec_eq (i : Bool) (v : V3 ℝ) : explicitVec i v = labVector i v := by
  cases i <;> rfl

theorem labVector_ne {i : Bool} {v : V3 ℝ} (h : v ≠ 0) : labVector i v ≠ 0 := by
  cases i
  · intro e
    apply h
    simp only [labVector] at e
    have e1 := congrArg V3.x e
    have e2 := congrArg V3.y e
    have e3 := congrArg V3.z e
    ext
    · exact e3
    · exact e1
    · exact e2
  · exact h

/-- what a rendered shape is to satisfy -/
def Faithful (s : PyShape) : Prop :=
  Good s → ∃ c, render .mcstas s = .ok c ∧ WF c ∧ ∀ p, Mem c p ↔ Body s p

theorem renderAll_spec (l : List PyShape) (hl : ∀ s ∈ l, Faithful s) (hg : GoodAll l) :
    ∃ cl, renderAll .mcstas l = .ok cl ∧ WFAll cl ∧ ∀ p, (MemAny cl p ↔ BodyAny l p) ∧ (MemAll cl p ↔ BodyAll l p) := by
  induction l with
  | nil => exact ⟨[], rfl, trivial, fun p => ⟨Iff.rfl, Iff.rfl⟩⟩
  | cons a l ih =>
    obtain ⟨c, hc, hw, hm⟩ := hl a List.mem_cons_self hg.1
    obtain ⟨cl, hcl, hwl, hml⟩ := ih (fun s hs => hl s (List.mem_cons_of_mem _ hs)) hg.2
    refine ⟨c :: cl, ?_, ⟨hw, hwl⟩, fun p => ?_⟩
    · rw [renderAll, hc]; simp only [bind, Except.bind]; rw [hcl]
    · simp only [MemAny, BodyAny, MemAll, BodyAll, hm, hml p, and_self]

theorem onCylinder_wf {r h : ℝ} (cs : CS) (hr : 0 < r) (hh : 0 < h) : WF (onCylinder cs r h) := by
  cases cs
  · exact ⟨⟨hr, hh⟩, euler_ortho _⟩
  · exact ⟨hr, hh⟩

theorem render_faithful : ∀ s, Faithful s := by
  apply PyShape.ind
  · intro d hg; exact ⟨_, rfl, hg, fun p => Iff.rfl⟩
  · intro w h t hg; exact ⟨_, rfl, hg, fun p => Iff.rfl⟩
  · intro r hg
    refine ⟨_, rfl, hg, fun p => ?_⟩
    simp only [Mem, Body, sq]
  · intro r h hg
    refine ⟨_, rfl, onCylinder_wf _ hg.1 hg.2, fun p => ?_⟩
    rw [mem_onCylinder]; rfl
  · intro t w h hg
    refine ⟨_, rfl, ⟨⟨hg, euler_ortho _⟩, euler_ortho _⟩, fun p => ?_⟩
    rw [mem_onPyramid hg.2.2]; rfl
  · intro r h hg
    refine ⟨_, rfl, ⟨hg, euler_ortho _⟩, fun p => ?_⟩
    rw [mem_onCone hg.2]; rfl
  · intro r1 r2 h ⟨h1, h2, h3⟩
    simp only [render, onHollowCylinder, if_neg (not_le.2 h2), zero_mul]
    by_cases h0 : r1 = 0
    · rw [if_pos h0]
      refine ⟨_, rfl, onCylinder_wf _ (by linarith) h3, fun p => ?_⟩
      rw [mem_onCylinder]; simp [Body, h0]
    · rw [if_neg h0]
      have hp : 0 < r1 := lt_of_le_of_ne h1 (Ne.symm h0)
      refine ⟨_, rfl, ⟨onCylinder_wf _ (by linarith) h3, onCylinder_wf _ hp (by linarith)⟩, fun p => ?_⟩
      rw [Mem, mem_onCylinder, mem_onCylinder]
      simp only [Body, h0, false_or]
      constructor
      · rintro ⟨⟨a, b⟩, c⟩
        refine ⟨?_, a, b⟩
        by_contra hn
        exact c ⟨not_lt.1 hn, by linarith⟩
      · rintro ⟨a, b, c⟩
        exact ⟨⟨b, c⟩, fun hn => absurd hn.1 (not_le.2 a)⟩
  · intro r1 r2 ⟨h1, h2⟩
    simp only [render, onSphereShell, if_neg (not_le.2 h2), zero_mul]
    by_cases h0 : r1 = 0
    · rw [if_pos h0]
      refine ⟨_, rfl, (by rw [WF]; linarith), fun p => ?_⟩
      simp only [Mem, Body, h0, true_or, true_and, sq]
    · rw [if_neg h0]
      have hp : 0 < r1 := lt_of_le_of_ne h1 (Ne.symm h0)
      refine ⟨_, rfl, ⟨(by rw [WF]; linarith), hp⟩, fun p => ?_⟩
      simp only [Mem, Body, h0, false_or, sq, not_le]
      tauto
  · intro l hl hg
    obtain ⟨cl, hcl, hw, hm⟩ := renderAll_spec l hl hg
    exact ⟨.union cl, by rw [render, hcl]; rfl, hw, fun p => (hm p).1⟩
  · intro l hl hg
    obtain ⟨cl, hcl, hw, hm⟩ := renderAll_spec l hl hg
    exact ⟨.intersection cl, by rw [render, hcl]; rfl, hw, fun p => (hm p).2⟩
  · intro a b ha hb hg
    obtain ⟨ca, hca, hwa, hma⟩ := ha hg.1
    obtain ⟨cb, hcb, hwb, hmb⟩ := hb hg.2
    refine ⟨.difference ca cb, by rw [render, hca, hcb]; rfl, ⟨hwa, hwb⟩, fun p => ?_⟩
    simp only [Mem, Body, hma, hmb]
  · intro b s hb hg
    obtain ⟨c, hc, hw, hm⟩ := hb hg.1
    refine ⟨.dilation c s, by rw [render, hc]; rfl, ⟨hw, hg.2⟩, fun p => ?_⟩
    simp only [Mem, Body, hm]
  · intro b a hb hg
    obtain ⟨c, hc, hw, hm⟩ := hb hg
    refine ⟨.rotation c (eulerToMatrix a), by rw [render, hc]; rfl, ⟨hw, euler_ortho _⟩, fun p => ?_⟩
    simp only [Mem, Body, hm, euler_turned]
  · intro b x a i hb hg
    obtain ⟨c, hc, hw, hm⟩ := hb hg.1
    obtain ⟨m, hm1, hm2, hm3⟩ := matrixAbout_spec (labVector_ne (i := i) hg.2) a
    refine ⟨.rotation c m, ?_, ⟨hw, hm2.1⟩, fun p => ?_⟩
    · simp only [render]; rw [explicitVec_eq, hm1]; simp only []; rw [hc]; rfl
    · simp only [Mem, Body, hm, hm3]
  · intro b v i hb hg
    obtain ⟨c, hc, hw, hm⟩ := hb hg
    refine ⟨.translation c (explicitVec i v), by rw [render, hc]; rfl, hw, fun p => ?_⟩
    simp only [Mem, Body, hm, explicitVec_eq]

/-! ### the two coordinate systems -/

/-- what the two renderings have to do with each other -/
def Agree (s : PyShape) : Prop :=
  Good s → Unturned s → ∃ c c', render .mcstas s = .ok c ∧ render .scientist s = .ok c' ∧
    ∀ b t v, Mem c ⟨t, v, b⟩ ↔ Mem c' ⟨b, t, v⟩

theorem cyl_agree (r h b t v : ℝ) :
    Mem (onCylinder .mcstas r h) ⟨t, v, b⟩ ↔ Mem (onCylinder .scientist r h) ⟨b, t, v⟩ := by
  rw [mem_onCylinder]
  simp only [onCylinder, Mem, sq, add_comm]

theorem renderAll_agree (l : List PyShape) (hl : ∀ s ∈ l, Agree s) (hg : GoodAll l) (hu : UnturnedAll l) :
    ∃ cl cl', renderAll .mcstas l = .ok cl ∧ renderAll .scientist l = .ok cl' ∧
      ∀ b t v, (MemAny cl ⟨t, v, b⟩ ↔ MemAny cl' ⟨b, t, v⟩) ∧ (MemAll cl ⟨t, v, b⟩ ↔ MemAll cl' ⟨b, t, v⟩) := by
  induction l with
  | nil => exact ⟨[], [], rfl, rfl, fun _ _ _ => ⟨Iff.rfl, Iff.rfl⟩⟩
  | cons a l ih =>
    obtain ⟨c, c', hc, hc', hm⟩ := hl a List.mem_cons_self hg.1 hu.1
    obtain ⟨cl, cl', hcl, hcl', hml⟩ := ih (fun s hs => hl s (List.mem_cons_of_mem _ hs)) hg.2 hu.2
    refine ⟨c :: cl, c' :: cl', ?_, ?_, fun b t v => ?_⟩
    · rw [renderAll, hc]; simp only [bind, Except.bind]; rw [hcl]
    · rw [renderAll, hc']; simp only [bind, Except.bind]; rw [hcl']
    · simp only [MemAny, MemAll, hm b t v, hml b t v, and_self]

theorem render_agree : ∀ s, Agree s := by
  apply PyShape.ind
  · intro d _ hu; exact hu.elim
  · intro w h t _ _
    refine ⟨_, _, rfl, rfl, fun b t v => ?_⟩
    simp only [onBlock, Mem]; tauto
  · intro r _ _
    refine ⟨_, _, rfl, rfl, fun b t v => ?_⟩
    simp only [Mem]
    rw [show t * t + v * v + b * b = b * b + t * t + v * v by ring]
  · intro r h _ _
    exact ⟨_, _, rfl, rfl, fun b t v => cyl_agree r h b t v⟩
  · intro t w h hg _
    refine ⟨_, _, rfl, rfl, fun b t v => ?_⟩
    simp only [onPyramid]
    rw [mem_y90, mem_m90]
    simp only [Mem, neg_neg]
  · intro r h hg _
    refine ⟨_, _, rfl, rfl, fun b t v => ?_⟩
    simp only [onCone]
    rw [mem_m90]
    simp only [Mem]
    rw [show t * t + -b * -b = b * b + t * t by ring]
  · intro r1 r2 h ⟨h1, h2, h3⟩ _
    simp only [render, onHollowCylinder, if_neg (not_le.2 h2), zero_mul]
    by_cases h0 : r1 = 0
    · simp only [if_pos h0]
      exact ⟨_, _, rfl, rfl, fun b t v => cyl_agree r2 h b t v⟩
    · simp only [if_neg h0]
      refine ⟨_, _, rfl, rfl, fun b t v => ?_⟩
      rw [Mem, Mem, cyl_agree, cyl_agree]
  · intro r1 r2 ⟨h1, h2⟩ _
    simp only [render, onSphereShell, if_neg (not_le.2 h2), zero_mul]
    have e : ∀ b t v : ℝ, t * t + v * v + b * b = b * b + t * t + v * v := fun b t v => by ring
    by_cases h0 : r1 = 0
    · simp only [if_pos h0]
      refine ⟨_, _, rfl, rfl, fun b t v => ?_⟩
      simp only [Mem, e b t v]
    · simp only [if_neg h0]
      refine ⟨_, _, rfl, rfl, fun b t v => ?_⟩
      simp only [Mem, e b t v]
  · intro l hl hg hu
    obtain ⟨cl, cl', h1, h2, h3⟩ := renderAll_agree l hl hg hu
    exact ⟨.union cl, .union cl', by rw [render, h1]; rfl, by rw [render, h2]; rfl, fun b t v => (h3 b t v).1⟩
  · intro l hl hg hu
    obtain ⟨cl, cl', h1, h2, h3⟩ := renderAll_agree l hl hg hu
    exact ⟨.intersection cl, .intersection cl', by rw [render, h1]; rfl, by rw [render, h2]; rfl,
      fun b t v => (h3 b t v).2⟩
  · intro a b ha hb hg hu
    obtain ⟨ca, ca', h1, h2, h3⟩ := ha hg.1 hu.1
    obtain ⟨cb, cb', k1, k2, k3⟩ := hb hg.2 hu.2
    refine ⟨.difference ca cb, .difference ca' cb', by rw [render, h1, k1]; rfl, by rw [render, h2, k2]; rfl,
      fun b t v => ?_⟩
    rw [Mem, Mem, h3, k3]
  · intro b s hb hg hu
    obtain ⟨c, c', h1, h2, h3⟩ := hb hg.1 hu
    refine ⟨.dilation c s, .dilation c' s, by rw [render, h1]; rfl, by rw [render, h2]; rfl, fun b t v => ?_⟩
    rw [Mem, Mem]
    constructor
    · rintro ⟨q, hq, e⟩
      refine ⟨⟨q.z, q.x, q.y⟩, (h3 q.z q.x q.y).1 hq, ?_⟩
      have e1 := congrArg V3.x e
      have e2 := congrArg V3.y e
      have e3 := congrArg V3.z e
      ext
      · exact e3
      · exact e1
      · exact e2
    · rintro ⟨q, hq, e⟩
      refine ⟨⟨q.y, q.z, q.x⟩, (h3 q.x q.y q.z).2 hq, ?_⟩
      have e1 := congrArg V3.x e
      have e2 := congrArg V3.y e
      have e3 := congrArg V3.z e
      ext
      · exact e2
      · exact e3
      · exact e1
  · intro b a _ _ hu; exact hu.elim
  · intro b x a i _ _ hu; exact hu.elim
  · intro b v i _ _ hu; exact hu.elim

/-! ### composites -/

theorem mapM_ok {α β : Type} {f : α → Except Err β} {g : α → β} (l : List α) (h : ∀ a ∈ l, f a = .ok (g a)) :
    l.mapM f = .ok (l.map g) := by
  induction l with
  | nil => rfl
  | cons a l ih =>
    rw [List.mapM_cons, h a List.mem_cons_self, ih (fun b hb => h b (List.mem_cons_of_mem _ hb))]
    rfl

theorem mapM_cons_inv {α β : Type} {f : α → Except Err β} {a : α} {l : List α} {r : List β}
    (h : (a :: l).mapM f = .ok r) : ∃ b bs, f a = .ok b ∧ l.mapM f = .ok bs ∧ r = b :: bs := by
  rw [List.mapM_cons] at h
  cases e1 : f a with
  | error x => rw [e1] at h; cases h
  | ok b =>
    cases e2 : l.mapM f with
    | error x => rw [e1, e2] at h; cases h
    | ok bs => rw [e1, e2] at h; exact ⟨b, bs, rfl, rfl, (Except.ok.inj h).symm⟩

theorem place_render {c : PyComp} {e : PyElem} {s : PyShape} {x : Shape × V3 ℝ × M3 ℝ}
    (hs : c.elementShape e = .ok s) (hx : renderPart .mcstas c e = .ok x) :
    render .mcstas s = .ok (.translation (.rotation x.1 x.2.2) x.2.1) := by
  unfold PyComp.elementShape at hs
  unfold renderPart at hx
  cases e0 : e.shape with
  | none => rw [e0] at hs; cases hs
  | some s0 =>
    rw [e0] at hs hx
    cases e1 : c.place e with
    | error y => rw [e1] at hs; cases hs
    | ok po =>
      rw [e1] at hs hx
      dsimp only at hs hx
      cases e2 : render .mcstas s0 with
      | error y => rw [e2] at hx; cases hx
      | ok cs =>
        rw [e2] at hx
        cases hs
        cases hx
        simp only [render, e2, bind, Except.bind, explicitVec_eq, labVector]

theorem parts_render {c : PyComp} : ∀ (l : List PyElem) (ss : List PyShape) (xs : List (Shape × V3 ℝ × M3 ℝ)),
    l.mapM c.elementShape = .ok ss → l.mapM (renderPart .mcstas c) = .ok xs →
    renderAll .mcstas ss = .ok (xs.map fun x => .translation (.rotation x.1 x.2.2) x.2.1)
  | [], ss, xs, h1, h2 => by
    cases h1; cases h2; rfl
  | e :: l, ss, xs, h1, h2 => by
    obtain ⟨s, ss', a1, a2, rfl⟩ := mapM_cons_inv h1
    obtain ⟨x, xs', b1, b2, rfl⟩ := mapM_cons_inv h2
    rw [renderAll, place_render a1 b1, parts_render l ss' xs' a2 b2]
    rfl

theorem renderComp_union {c : PyComp} {cc : CComp} (h : c.shape = none) (hr : renderComp .mcstas c = .ok cc) :
    cc.shape = .union cc.placed := by
  unfold renderComp PyComp.getShape at hr
  rw [h] at hr
  cases e1 : c.elems.mapM (renderPart .mcstas c) with
  | error x => rw [e1] at hr; cases hr
  | ok xs =>
    cases e2 : c.elems.mapM c.elementShape with
    | error x => rw [e1, e2] at hr; cases hr
    | ok ss =>
      rw [e1, e2] at hr
      have := parts_render _ _ _ e2 e1
      simp only [bind, Except.bind, render, this] at hr
      cases hr
      rfl

theorem assembled_aux (l : List (PyElem × V3 ℝ × V3 ℝ)) (c : PyComp) :
    l.foldl (fun c x => c.addElement x.1 x.2.1 x.2.2) c =
      ⟨c.elems ++ l.map (·.1), (l.map fun x => (x.1.id, x.2.1, x.2.2)).reverse ++ c.geom, c.shape⟩ := by
  induction l generalizing c with
  | nil => simp
  | cons a l ih => rw [List.foldl_cons, ih]; simp [PyComp.addElement]

theorem assembled_eq (l : List (PyElem × V3 ℝ × V3 ℝ)) :
    assembled l = ⟨l.map (·.1), (l.map fun x => (x.1.id, x.2.1, x.2.2)).reverse, none⟩ := by
  rw [assembled, assembled_aux]; simp [PyComp.new]

theorem place_assembled {l : List (PyElem × V3 ℝ × V3 ℝ)} (hd : (l.map (·.1.id)).Nodup)
    {x : PyElem × V3 ℝ × V3 ℝ} (hx : x ∈ l) : (assembled l).place x.1 = .ok x.2 := by
  have hf : (assembled l).geom.find? (fun r => decide (r.1 = x.1.id)) = some (x.1.id, x.2.1, x.2.2) := by
    rw [assembled_eq]
    show List.find? _ (List.reverse _) = _
    have hmem : (x.1.id, x.2.1, x.2.2) ∈ (l.map fun x => (x.1.id, x.2.1, x.2.2)).reverse := by
      rw [List.mem_reverse]; exact List.mem_map.2 ⟨x, hx, rfl⟩
    cases e : List.find? (fun r => decide (r.1 = x.1.id)) (l.map fun x => (x.1.id, x.2.1, x.2.2)).reverse with
    | none =>
      have := List.find?_eq_none.1 e _ hmem
      simp at this
    | some r =>
      have h1 : r.1 = x.1.id := by simpa using List.find?_some e
      have h2 := List.mem_of_find?_eq_some e
      rw [List.mem_reverse] at h2
      obtain ⟨y, hy, rfl⟩ := List.mem_map.1 h2
      have : y = x := List.inj_on_of_nodup_map hd hy hx h1
      rw [this]
  rw [PyComp.place, hf]

/-! ### tubes -/

theorem locate_onCylinder (tol r h : ℝ) (p : V3 ℝ) :
    locate tol (onCylinder .mcstas r h) p = .ok (locCylinder tol r h ⟨p.x, -p.z, p.y⟩) := by
  simp only [onCylinder, locate]
  congr 2
  have h1 := transpose_mulVec_mulVec (euler_ortho ⟨-90, 0, 0⟩) ⟨p.x, -p.z, p.y⟩
  rw [euler_m90] at h1
  simpa using h1

theorem cyl_inside {tol r h z : ℝ} (h1 : tol < r) (h2 : |z| < h / 2 - tol) :
    ∀ x y : ℝ, x = 0 → y = 0 → locCylinder tol r h ⟨x, y, z⟩ = .inside ∨ tol < 0 := by
  rintro x y rfl rfl
  by_cases h0 : tol < 0
  · exact Or.inr h0
  left
  simp only [locCylinder, mul_zero, add_zero, Real.sqrt_zero, zero_sub, sub_zero]
  rw [if_neg (by linarith), if_neg (by linarith), if_pos ⟨by linarith, by linarith⟩]

theorem cyl_outside {tol r h x y : ℝ} (h0 : 0 ≤ tol) (hh : 0 < h) (h1 : r + tol < Real.sqrt (x * x + y * y)) :
    locCylinder tol r h ⟨x, y, 0⟩ = .outside := by
  simp only [locCylinder, abs_zero]
  rw [if_neg (by linarith), if_pos (by linarith)]

theorem checkPixels_ok {tol : ℝ} {s : Shape} : ∀ (l : List (V3 ℝ)), (∀ p ∈ l, locate tol s p = .ok .inside) →
    checkPixels tol s l = .ok ()
  | [], _ => rfl
  | p :: l, h => by
    rw [checkPixels, h p List.mem_cons_self]
    simp only [bind, Except.bind]
    rw [if_pos trivial]
    exact checkPixels_ok l (fun q hq => h q (List.mem_cons_of_mem _ hq))

end Verif.Assembly
