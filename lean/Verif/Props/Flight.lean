import Verif.Lemmas.Flight
import Mathlib.Tactic.NormNum
/-!
Property theorems about attenuation and propagation: C31, C32, C78.
-/

namespace Verif.Flight
open Solid

/-! ### C31 attenuation -/

/-- **C31** The attenuation of a flight for the time `T` is
`exp(-(absorption + scattering coefficient) * length of the path in the shape)`, the length
being speed times Lebesgue measure of the times spent in the shape.  For paths in general
position; see C76 for paths through edges. -/
theorem C31_transmission_partial {tol par : ℝ} (h0 : 0 < tol) (hpar : 0 < par) (s : Shape)
    (hw : WF s) (hb : Bounded s) (mu sigma : ℝ) (ev : Ev) (hv : ev.v ≠ 0)
    (hg : Generic tol par s ev.r ev.v) (T : ℝ) (hT : 0 ≤ T) (ts : List ℝ)
    (hts : intersect tol par s ev.r ev.v = .ok ts) (hcl : ClearMiddles tol s ev.r ev.v T ts) :
    attenuation tol par s mu sigma ev (at' ev.r ev.v T) =
      .ok (Real.exp (-(mu + sigma) * lengthIn s ev.r ev.v T)) := by
  unfold attenuation
  rw [pathLength_eq h0 hpar hw hb hv hg hT hts hcl]
  rfl

/-- **C31** For any shape, path and end point the attenuation is a number between that of a
flight wholly inside the material and 1. -/
theorem C31_range (tol par : ℝ) (s : Shape) (mu sigma : ℝ) (hms : 0 ≤ mu + sigma) (ev : Ev)
    (hv : ev.v ≠ 0) (endp : V3 ℝ) (a : ℝ) (h : attenuation tol par s mu sigma ev endp = .ok a) :
    Real.exp (-(mu + sigma) * √((endp - ev.r).dot (endp - ev.r))) ≤ a ∧ a ≤ 1 := by
  unfold attenuation at h
  cases hl : pathLength tol par s ev endp with
  | error e => rw [hl] at h; cases h
  | ok l =>
    rw [hl] at h
    cases h
    obtain ⟨h1, h2⟩ := pathLength_bounds hv hl
    rw [length_eq] at h2
    constructor
    · apply Real.exp_le_exp.2; nlinarith
    · apply Real.exp_le_one_iff.2; nlinarith

/-- **C31** There is an attenuation for every shape that makes sense. -/
theorem C31_total {tol par : ℝ} (s : Shape) (hw : WF s) (mu sigma : ℝ) (ev : Ev) (endp : V3 ℝ) :
    ∃ a, attenuation tol par s mu sigma ev endp = .ok a := by
  have key : ∀ (ds : List ℝ) (spd T prev len : ℝ),
      ∃ r, pathLoop tol s ev.r ev.v spd T prev len ds = .ok r := by
    intro ds
    induction ds with
    | nil => intro _ _ _ len; exact ⟨len, rfl⟩
    | cons t l ih =>
      intro spd T prev len
      rw [pathLoop]
      obtain ⟨loc, hl⟩ := locate_total tol s hw
        (ev.r + (((if t > T then T else t) + prev) / 2) • ev.v)
      simp only [hl, bind, Except.bind]
      exact ih ..
  obtain ⟨ts, hts⟩ := intersect_total tol par s hw ev.r ev.v
  unfold attenuation pathLength forwardIntersect
  rw [hts]
  simp only [bind, Except.bind]
  obtain ⟨r, hr⟩ := key (ts.filter fun t => !decide (t < 0)) (length ev.v)
    (length (endp - ev.r) / length ev.v) 0 0
  rw [hr]
  exact ⟨_, rfl⟩

/-- **C31** No attenuation when the flight does not meet the shape. -/
theorem C31_miss_partial {tol par : ℝ} (h0 : 0 < tol) (hpar : 0 < par) (s : Shape)
    (hw : WF s) (hb : Bounded s) (mu sigma : ℝ) (ev : Ev) (hv : ev.v ≠ 0)
    (hg : Generic tol par s ev.r ev.v) (T : ℝ) (hT : 0 ≤ T) (ts : List ℝ)
    (hts : intersect tol par s ev.r ev.v = .ok ts) (hcl : ClearMiddles tol s ev.r ev.v T ts)
    (hmiss : ∀ t, 0 < t → t ≤ T → ¬ Mem s (at' ev.r ev.v t)) :
    attenuation tol par s mu sigma ev (at' ev.r ev.v T) = .ok 1 := by
  rw [C31_transmission_partial h0 hpar s hw hb mu sigma ev hv hg T hT ts hts hcl]
  have : timesIn s ev.r ev.v T = ∅ := by
    ext t
    simp only [timesIn, Set.mem_ofPred_eq, Set.mem_empty_iff_false, iff_false]
    rintro ⟨h1, h2, h3⟩
    exact hmiss t h1 h2 h3
  simp [lengthIn, this]

/-- **C31** The attenuation of a path cut in two is the product of the two attenuations. -/
theorem C31_cut_partial {tol par : ℝ} (h0 : 0 < tol) (hpar : 0 < par) (s : Shape)
    (hw : WF s) (hb : Bounded s) (mu sigma : ℝ) (ev : Ev) (hv : ev.v ≠ 0) (t1 t2 : ℝ)
    (h1 : 0 ≤ t1) (h2 : 0 ≤ t2) (hg : Generic tol par s ev.r ev.v)
    (hg' : Generic tol par s (at' ev.r ev.v t1) ev.v) (ts ts' : List ℝ)
    (hts : intersect tol par s ev.r ev.v = .ok ts)
    (hts' : intersect tol par s (at' ev.r ev.v t1) ev.v = .ok ts')
    (hcl1 : ClearMiddles tol s ev.r ev.v t1 ts) (hcl : ClearMiddles tol s ev.r ev.v (t1 + t2) ts)
    (hcl2 : ClearMiddles tol s (at' ev.r ev.v t1) ev.v t2 ts') :
    ∃ a b, attenuation tol par s mu sigma ev (at' ev.r ev.v t1) = .ok a ∧
      attenuation tol par s mu sigma (propagate ev t1) (at' ev.r ev.v (t1 + t2)) = .ok b ∧
      attenuation tol par s mu sigma ev (at' ev.r ev.v (t1 + t2)) = .ok (a * b) := by
  refine ⟨_, Real.exp (-(mu + sigma) * lengthIn s (at' ev.r ev.v t1) ev.v t2),
    C31_transmission_partial h0 hpar s hw hb mu sigma ev hv hg t1 h1 ts hts hcl1, ?_, ?_⟩
  · rw [← at_at]
    exact C31_transmission_partial h0 hpar s hw hb mu sigma (propagate ev t1) hv hg' t2 h2 ts' hts' hcl2
  · rw [C31_transmission_partial h0 hpar s hw hb mu sigma ev hv hg _ (add_nonneg h1 h2) ts hts hcl,
      lengthIn_cut s ev.r ev.v h1 h2, ← Real.exp_add]
    congr 2
    ring

/-- **C31** The attenuation to a given end point does not depend on the speed (apart from the
coefficients, which are given here). -/
theorem C31_speed_partial {tol par : ℝ} (h0 : 0 < tol) (hpar : 0 < par) (s : Shape)
    (hw : WF s) (hb : Bounded s) (mu sigma : ℝ) (ev : Ev) (hv : ev.v ≠ 0) (k : ℝ) (hk : 0 < k)
    (hg : Generic tol par s ev.r ev.v) (hg' : Generic tol par s ev.r (k • ev.v)) (T : ℝ)
    (hT : 0 ≤ T) (ts ts' : List ℝ) (hts : intersect tol par s ev.r ev.v = .ok ts)
    (hts' : intersect tol par s ev.r (k • ev.v) = .ok ts')
    (hcl : ClearMiddles tol s ev.r ev.v T ts)
    (hcl' : ClearMiddles tol s ev.r (k • ev.v) (T / k) ts') :
    attenuation tol par s mu sigma { ev with v := k • ev.v } (at' ev.r ev.v T) =
      attenuation tol par s mu sigma ev (at' ev.r ev.v T) := by
  have he : at' ev.r ev.v T = at' ev.r (k • ev.v) (T / k) := by
    apply V3.ext <;> simp [at'] <;> field_simp
  have hv' : k • ev.v ≠ 0 := by
    intro h
    apply hv
    have hx := congrArg V3.x h
    have hy := congrArg V3.y h
    have hz := congrArg V3.z h
    simp only [V3.smul_x, V3.smul_y, V3.smul_z, V3.zero_x, V3.zero_y, V3.zero_z,
      mul_eq_zero, hk.ne', false_or] at hx hy hz
    exact V3.ext hx hy hz
  rw [C31_transmission_partial h0 hpar s hw hb mu sigma ev hv hg T hT ts hts hcl, he,
    C31_transmission_partial h0 hpar s hw hb mu sigma { ev with v := k • ev.v } hv' hg' (T / k)
      (div_nonneg hT hk.le) ts' hts' hcl', lengthIn_speed s ev.r ev.v hk]

/-- a neutron flying down to the unit sphere -/
def down : Ev := ⟨⟨0, 0, -5⟩, ⟨0, 0, 2⟩, 0, 0, 0, 1⟩

theorem down_v : down.v ≠ 0 := by
  intro h; have := congrArg V3.z h; norm_num [down] at this

theorem sphere_down : intersect (1 / 1000) (1 / 1000) (.sphere 1) down.r down.v = .ok [2, 3] := by
  rw [intersect, intersectSphere, if_neg (by rw [invalid_iff]; exact down_v)]
  have : √(4 : ℝ) = 2 := by rw [show (4 : ℝ) = 2 ^ 2 by norm_num]; exact Real.sqrt_sq (by norm_num)
  norm_num [down, V3.dot, V3.cross, this]

theorem sphere_bounded : Bounded (.sphere 1) := by
  refine ⟨1, fun q hq => ?_⟩
  simp only [Mem] at hq
  refine ⟨?_, ?_, ?_⟩ <;> rw [abs_le] <;> constructor <;>
    nlinarith [mul_self_nonneg q.x, mul_self_nonneg q.y, mul_self_nonneg q.z]

theorem sphere_clear {q : V3 ℝ} (h : 1 / 1000 < |q.x ^ 2 + q.y ^ 2 + q.z ^ 2 - 1 ^ 2|) :
    Clear (1 / 1000) (.sphere 1) q := by
  rintro ⟨f, q', hl, hn⟩
  cases hl with
  | prim => simp only [NearSurface] at hn; linarith

/-- the hypotheses hold for a flight through the sphere, and the path length is 2 -/
example : WF (.sphere 1) ∧ Bounded (.sphere 1) ∧ down.v ≠ 0 ∧
    Generic (1 / 1000) (1 / 1000) (.sphere 1) down.r down.v ∧
    ClearMiddles (1 / 1000) (.sphere 1) down.r down.v 3 [2, 3] ∧
    pathLength (1 / 1000) (1 / 1000) (.sphere 1) down (at' down.r down.v 3) = .ok 2 := by
  refine ⟨by norm_num [WF], sphere_bounded, down_v, by simp [Generic], ?_, ?_⟩
  · intro t0 t1 h0 h1 hlt hno
    apply sphere_clear
    simp only [Mark, List.mem_cons, List.not_mem_nil, or_false] at h0 h1
    have e0 : t0 = 0 ∨ t0 = 2 ∨ t0 = 3 := by tauto
    have e1 : t1 = 0 ∨ t1 = 2 ∨ t1 = 3 := by tauto
    have hno' := hno 2 (by simp)
    rcases e0 with rfl | rfl | rfl <;> rcases e1 with rfl | rfl | rfl <;>
      first
      | (exfalso; norm_num at hlt; done)
      | (exfalso; norm_num at hno'; done)
      | norm_num [at_x, at_y, at_z, down, abs_of_pos, abs_of_neg]
  · have h4 : √(4 : ℝ) = 2 := by
      rw [show (4 : ℝ) = 2 ^ 2 by norm_num]; exact Real.sqrt_sq (by norm_num)
    have h36 : √(36 : ℝ) = 6 := by
      rw [show (36 : ℝ) = 6 ^ 2 by norm_num]; exact Real.sqrt_sq (by norm_num)
    unfold pathLength forwardIntersect
    rw [sphere_down]
    norm_num [bind, Except.bind, pathLoop, down, length, V3.length2, at', V3.dot, locate,
      locSphere, h4, h36]
    simp

/-! ### C32 propagation -/

/-- **C32** Going to the next incident surface is a flight forward along the straight line; it
changes nothing but position and time. -/
theorem C32_incident_forward (tol par : ℝ) (s : Shape) (ev ev' : Ev)
    (h : toIncident tol par s ev = .ok ev') : ∃ τ, 0 ≤ τ ∧ FliesFor ev ev' τ := toIncident_flies h

/-- **C32** So is going to the next exiting surface. -/
theorem C32_exit_forward (tol par : ℝ) (s : Shape) (ev ev' : Ev)
    (h : toExit tol par s ev = .ok ev') : ∃ τ, 0 ≤ τ ∧ FliesFor ev ev' τ := toExit_flies h

/-- **C32** From outside, the neutron stays out of the shape on the whole way to the incident
surface and arrives at a surface; when it is not moved it never meets the shape. -/
theorem C32_incident_first_partial {tol par : ℝ} (h0 : 0 < tol) (hpar : 0 < par) (s : Shape) (hw : WF s)
    (hcf : ConeFree s) (ev ev' : Ev) (hg : Generic tol par s ev.r ev.v)
    (hl : locate tol s ev.r = .ok .outside) (h : toIncident tol par s ev = .ok ev') :
    (∃ τ, 0 ≤ τ ∧ FliesFor ev ev' τ ∧ locate tol s ev'.r = .ok .onborder ∧
      ∀ u, 0 ≤ u → u < τ → ¬ Mem s (at' ev.r ev.v u)) ∨
    (ev' = ev ∧ ∀ u, 0 ≤ u → ¬ Mem s (at' ev.r ev.v u)) := by
  obtain ⟨ts, hts⟩ := intersect_total tol par s hw ev.r ev.v
  have hc := intersect_catches h0 hpar s hw _ _ ts hg hts
  obtain ⟨ds, hf, hcase⟩ := toIncident_cases h
  rcases hcase with ⟨-, rfl, rfl⟩ | ⟨-, t, l, rfl, rfl⟩ | ⟨hb, -⟩
  · exact .inr ⟨rfl, fun u hu => outside_until h0 hw hts hc hf hl hu (by simp)⟩
  · refine .inl ⟨t, forward_nonneg hf t (by simp), propagate_flies _ _, ?_, fun u hu hlt => ?_⟩
    · exact intersect_onborder h0 hpar s hw hcf _ _ ts hts t ((forward_mem hts hf t).1 (by simp)).1
    · refine outside_until h0 hw hts hc hf hl hu fun x hx => ?_
      rcases List.mem_cons.1 hx with rfl | hx
      · exact hlt
      · have := (List.pairwise_cons.1 (List.pairwise_cons.1 (forward_sorted hf)).2).1 x hx
        linarith
  · rw [hl] at hb; cases hb

/-- **C32** From inside, the neutron stays in the shape on the whole way to the exiting surface
and arrives at a surface. -/
theorem C32_exit_inside_partial {tol par : ℝ} (h0 : 0 < tol) (hpar : 0 < par) (s : Shape) (hw : WF s)
    (hcf : ConeFree s) (ev ev' : Ev) (hg : Generic tol par s ev.r ev.v)
    (hl : locate tol s ev.r = .ok .inside) (h : toExit tol par s ev = .ok ev') :
    ∃ τ, 0 ≤ τ ∧ FliesFor ev ev' τ ∧ locate tol s ev'.r = .ok .onborder ∧
      ∀ u, 0 ≤ u → u < τ → Mem s (at' ev.r ev.v u) := by
  obtain ⟨ts, hts⟩ := intersect_total tol par s hw ev.r ev.v
  have hc := intersect_catches h0 hpar s hw _ _ ts hg hts
  rcases toExit_cases h with ⟨-, t, l, hf, rfl⟩ | ⟨ev1, h1, -⟩
  · refine ⟨t, forward_nonneg hf t (by simp), propagate_flies _ _, ?_, fun u hu hlt => ?_⟩
    · exact intersect_onborder h0 hpar s hw hcf _ _ ts hts t ((forward_mem hts hf t).1 (by simp)).1
    · refine inside_until h0 hw hts hc hf hl hu fun x hx => ?_
      rcases List.mem_cons.1 hx with rfl | hx
      · exact hlt
      · have := (List.pairwise_cons.1 (List.pairwise_cons.1 (forward_sorted hf)).2).1 x hx
        linarith
  · rcases h1 with ⟨h1, -⟩ | ⟨h1, -⟩ <;> rw [hl] at h1 <;> cases h1

/-- **C32** From a surface, the neutron either is in the shape on the whole way to the exiting
surface, or it is not moved and its path is out of the shape right after. -/
theorem C32_exit_border_partial {tol par : ℝ} (h0 : 0 < tol) (hpar : 0 < par) (s : Shape) (hw : WF s)
    (hcf : ConeFree s) (hb : Bounded s) (ev ev' : Ev) (hv : ev.v ≠ 0)
    (hg : Generic tol par s ev.r ev.v) (ts : List ℝ)
    (hts : intersect tol par s ev.r ev.v = .ok ts) (hcl : ClearAhead tol s ev.r ev.v ts)
    (hl : locate tol s ev.r = .ok .onborder) (h : toExit tol par s ev = .ok ev') :
    locate tol s ev'.r = .ok .onborder ∧
    ((∃ τ, 0 < τ ∧ FliesFor ev ev' τ ∧ ∀ u, 0 < u → u < τ → Mem s (at' ev.r ev.v u)) ∨
    (ev' = ev ∧ ∃ ε > 0, ∀ u, 0 < u → u < ε → ¬ Mem s (at' ev.r ev.v u))) := by
  have hc := intersect_catches h0 hpar s hw _ _ ts hg hts
  rcases exit_from_border h0 hw hb hv hts hc hcl hl h with ⟨τ, h1, h2, h3, h4⟩ | ⟨rfl, h1⟩
  · refine ⟨?_, .inl ⟨τ, h1, h3, h4⟩⟩
    rw [h3.1]
    exact intersect_onborder h0 hpar s hw hcf _ _ ts hts τ h2
  · exact ⟨hl, .inr ⟨rfl, h1⟩⟩

/-- **C32** The flight time before exit that is reported is the time of the flight to the
exiting surface. -/
theorem C32_tof (tol par : ℝ) (s : Shape) (ev : Ev) (τ : ℝ)
    (h : tofBeforeExit tol par s ev = .ok τ) :
    0 ≤ τ ∧ ∃ ev', toExit tol par s ev = .ok ev' ∧ FliesFor ev ev' τ := by
  obtain ⟨h1, h2⟩ := tofBeforeExit_toExit h
  exact ⟨h1, _, h2, propagate_flies _ _⟩

/-- **C32** A neutron that is said to be exiting never meets the shape again, and one that is
inside is never said to be exiting. -/
theorem C32_exiting_partial {tol par : ℝ} (h0 : 0 < tol) (hpar : 0 < par) (s : Shape) (hw : WF s)
    (hb : Bounded s) (ev : Ev) (hv : ev.v ≠ 0) (hg : Generic tol par s ev.r ev.v) (ts : List ℝ)
    (hts : intersect tol par s ev.r ev.v = .ok ts) (hcl : ClearAhead tol s ev.r ev.v ts) :
    (isExiting tol par s ev = .ok true → ∀ u, 0 < u → ¬ Mem s (at' ev.r ev.v u)) ∧
    (locate tol s ev.r = .ok .inside → isExiting tol par s ev = .ok false) :=
  ⟨fun h _ hu => isExiting_never h0 hw hb hv hts (intersect_catches h0 hpar s hw _ _ ts hg hts) hcl
    h hu, isExiting_of_inside⟩

/-- a neutron outside, at the surface and inside of the unit sphere -/
example :
    locate (1 / 1000) (.sphere 1) down.r = .ok .outside ∧
    toIncident (1 / 1000) (1 / 1000) (.sphere 1) down = .ok (propagate down 2) ∧
    locate (1 / 1000) (.sphere 1) (propagate down 2).r = .ok .onborder ∧
    toExit (1 / 1000) (1 / 1000) (.sphere 1) (propagate down (5 / 2)) =
      .ok (propagate (propagate down (5 / 2)) (1 / 2)) ∧
    ConeFree (.sphere 1) := by
  have h4 : √(4 : ℝ) = 2 := by
    rw [show (4 : ℝ) = 2 ^ 2 by norm_num]; exact Real.sqrt_sq (by norm_num)
  refine ⟨?_, ?_, ?_, ?_, by simp [ConeFree]⟩
  · norm_num [locate, locSphere, down]
  · unfold toIncident forwardIntersect
    rw [sphere_down]
    norm_num [locate, locSphere, down, bind, Except.bind]
    simp
  · norm_num [locate, locSphere, down, propagate]
  · have hi : intersect (1 / 1000) (1 / 1000) (.sphere 1) (propagate down (5 / 2)).r
        (propagate down (5 / 2)).v = .ok [-1 / 2, 1 / 2] := by
      rw [intersect, intersectSphere, if_neg (by rw [invalid_iff]; exact down_v)]
      norm_num [down, propagate, V3.dot, V3.cross, h4]
    unfold toExit forwardIntersect
    rw [hi]
    norm_num [locate, locSphere, down, bind, Except.bind, propagate]

/-! ### C78 propagation out of a shape -/

/-- **C78** Propagation out of a shape can move a neutron backward in time: it goes to the last
of all crossings of the line, also when that one is behind. -/
theorem C78_backward_false : ¬ ∀ (tol par : ℝ) (s : Shape) (ev ev' : Ev), 0 < tol → 0 < par →
    WF s → ev.v ≠ 0 → propagateOut tol par s ev = .ok ev' → ev.t ≤ ev'.t := by
  intro H
  have h4 : √(4 : ℝ) = 2 := by
    rw [show (4 : ℝ) = 2 ^ 2 by norm_num]; exact Real.sqrt_sq (by norm_num)
  have := H (1 / 1000) (1 / 1000) (.sphere 1) ⟨⟨0, 0, 5⟩, ⟨0, 0, 2⟩, 0, 0, 0, 1⟩
    ⟨⟨0, 0, 1⟩, ⟨0, 0, 2⟩, 0, 0, -2, 1⟩ (by norm_num) (by norm_num) (by norm_num [WF]) down_v (by
      unfold propagateOut
      rw [intersect, intersectSphere, if_neg (by rw [invalid_iff]; exact down_v)]
      norm_num [V3.dot, V3.cross, h4, bind, Except.bind, propagate]
      apply V3.ext <;> norm_num)
  norm_num at this

/-- **C78** What remains: it is a motion along the line that changes nothing but position and
time, and from inside of a shape it is forward and to the last exit. -/
theorem C78_inside_partial {tol par : ℝ} (h0 : 0 < tol) (hpar : 0 < par) (s : Shape) (hw : WF s)
    (hb : Bounded s) (ev ev' : Ev) (hv : ev.v ≠ 0) (hg : Generic tol par s ev.r ev.v)
    (h : propagateOut tol par s ev = .ok ev') :
    ∃ τ, FliesFor ev ev' τ ∧ (locate tol s ev.r = .ok .inside → 0 ≤ τ ∧
      ∀ u, τ < u → ¬ Mem s (at' ev.r ev.v u)) := by
  obtain ⟨ts, hts, hcase⟩ := propagateOut_cases h
  have hc := intersect_catches h0 hpar s hw _ _ ts hg hts
  have hcross : locate tol s ev.r = .ok .inside → ∃ t ∈ ts, 0 ≤ t := by
    intro hl
    have h1 : Mem s (at' ev.r ev.v 0) := by
      rw [at_zero_eq]; exact ((locate_sound h0 s hw _).1 hl).self
    obtain ⟨w, hw', hnw⟩ := far_away hb hv (p := ev.r) 0
    obtain ⟨t, ht, h2, -⟩ := hc 0 w hw'.le (fun hh => hnw (hh.1 h1))
    exact ⟨t, ht, h2⟩
  rcases hcase with ⟨rfl, rfl⟩ | ⟨t, ht, rfl⟩
  · refine ⟨0, .refl _, fun hl => ?_⟩
    obtain ⟨t, ht, -⟩ := hcross hl
    simp at ht
  · refine ⟨t, propagate_flies _ _, fun hl => ?_⟩
    have hmax := getLast_max (intersect_sorted s _ _ ts hts) ht
    obtain ⟨x, hx, h2⟩ := hcross hl
    exact ⟨h2.trans (hmax x hx), fun u hu => never_after hb hv hc hmax hu⟩

/-- a neutron inside of the unit sphere -/
example : locate (1 / 1000) (.sphere 1) (propagate down (5 / 2)).r = .ok .inside := by
  norm_num [locate, locSphere, down, propagate]

end Verif.Flight
