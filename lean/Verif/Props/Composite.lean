import Verif.Lemmas.Composite
import Verif.Props.Flight
import Verif.Props.Solid
import Mathlib.Tactic.NormNum
/-!
Property theorems about composite scatterers: C33, C81, C82, C83, C84, C85, C86.
-/

namespace Verif.Composite
open Solid Flight Homog

variable {S : Type}

/-! ### C33 multiple scattering among the constituents -/

/-- **C33** Multiple scattering among the constituents creates no intensity of its own: if no
interaction with a constituent multiplies the intensity by more than `κ`, the total probability of
the outgoing neutrons is at most `κ ^ (number of rounds)` times that of the incoming neutron, and no
outgoing probability is negative. -/
theorem C33_intensity (c : Comp S) (tol par κ : ℝ) (hκ : 1 ≤ κ) (hc : ∀ e ∈ c.elems, Gain κ e)
    (s s' : S) (ev : Ev) (hp : 0 ≤ ev.p) (out : List Ev) (h : c.scatterM tol par s ev = .ok (s', out)) :
    (∀ n ∈ out, 0 ≤ n.p) ∧ total out ≤ κ ^ (c.maxAmong * c.maxPath) * ev.p := by
  have g : Good c tol par κ (fun p => p) (fun p => 0 ≤ p) (fun a => 0 ≤ a ∧ a ≤ 1) (fun _ => True)
      (fun _ _ => True) :=
    { one_le := hκ
      nonneg := fun p h => h
      less := fun p a hp ha => ⟨mul_nonneg hp ha.1, by nlinarith [ha.2]⟩
      att_one := by norm_num
      att_mul := fun a b ha hb => ⟨mul_nonneg ha.1 hb.1, by nlinarith [ha.1, ha.2, hb.1, hb.2]⟩
      att := fun e he ev q a h => (hc e he).atten ev q a h
      hits := fun _ _ _ _ _ => trivial
      calls := fun e he s ev s' new i _ hp _ _ h =>
        ⟨trivial, (hc e he).interactM s ev s' new i hp h⟩ }
  exact (g.scatterM_ok trivial hp h).2

/-- **C33** If no interaction with a constituent multiplies the intensity, neither does the
composite, whatever the limits of the loops. -/
theorem C33_no_gain (c : Comp S) (tol par : ℝ) (hc : ∀ e ∈ c.elems, Gain 1 e)
    (s s' : S) (ev : Ev) (hp : 0 ≤ ev.p) (out : List Ev) (h : c.scatterM tol par s ev = .ok (s', out)) :
    total out ≤ ev.p := by
  have := (C33_intensity c tol par 1 le_rfl hc s s' ev hp out h).2
  simpa using this

/-- **C33** The number of outgoing neutrons is bounded: `k ^ (maxAmong * maxPath)` if an interaction
with a constituent gives at most `k` of them. -/
theorem C33_count (c : Comp S) (tol par : ℝ) (k : Nat) (hk : 1 ≤ k)
    (hc : ∀ e ∈ c.elems, ∀ s ev s' new i, e.interactM s ev = .ok (s', new, i) → new.length ≤ k)
    (s s' : S) (ev : Ev) (out : List Ev) (h : c.scatterM tol par s ev = .ok (s', out)) :
    out.length ≤ k ^ (c.maxAmong * c.maxPath) := by
  have len : ∀ l : List Ev, sumW (fun _ => 1) l = l.length := by
    intro l; simp [sumW]
  have g : Good c tol par k (fun _ => 1) (fun _ => True) (fun _ => True) (fun _ => True)
      (fun _ _ => True) :=
    { one_le := by exact_mod_cast hk
      nonneg := by simp
      less := by simp
      att_one := trivial
      att_mul := by simp
      att := by simp
      hits := by simp
      calls := fun e he s ev s' new i _ _ _ _ h => ⟨trivial, by simp, by
        rw [len]; simpa using hc e he s ev s' new i h⟩ }
  have := (g.scatterM_ok trivial trivial h).2.2
  rw [len] at this
  simp only [mul_one] at this
  exact_mod_cast this

/-- **C33** A constituent is asked to scatter only neutrons that are not below the probability
threshold and whose path, in the frame of the constituent, goes through its interior: whatever
such calls cannot destroy holds at the end. -/
theorem C33_calls (c : Comp S) {tol par : ℝ} (h0 : 0 < tol) (hw : ∀ e ∈ c.elems, WF e.shape)
    (I : S → Prop) (hI : ∀ e ∈ c.elems, KeptByCalls c.minP I e)
    (s s' : S) (ev : Ev) (out : List Ev) (hs : I s) (h : c.scatterM tol par s ev = .ok (s', out)) : I s' := by
  have g : Good c tol par 1 (fun _ => 0) (fun _ => True) (fun _ => True) I (fun e ev => Traverses e.shape ev) :=
    { one_le := le_rfl
      nonneg := by simp
      less := by simp
      att_one := trivial
      att_mul := by simp
      att := by simp
      hits := fun ev i e hh he => hit_traverses h0 hw hh he
      calls := fun e he s ev s' new i hs _ hl ht h => ⟨hI e he s ev s' new i hs hl ht h, by simp, by simp [sumW]⟩ }
  exact (g.scatterM_ok hs trivial h).1

/-- **C33** In the single mode likewise, and a neutron is either lost (probability -1) or leaves with
a probability between 0 and the one it came with. -/
theorem C33_single (c : Comp S) {tol par : ℝ} (h0 : 0 < tol) (hw : ∀ e ∈ c.elems, WF e.shape)
    (hc : ∀ e ∈ c.elems, Lossy e) (I : S → Prop) (hI : ∀ e ∈ c.elems, KeptByCalls1 I e) (fuel : Nat)
    (s s' : S) (ev ev' : Ev) (hs : I s) (hp : 0 ≤ ev.p) (h : c.scatter tol par fuel s ev = .ok (s', ev')) :
    I s' ∧ (ev'.p = -1 ∨ (0 ≤ ev'.p ∧ ev'.p ≤ ev.p)) :=
  scatter_ok h0 hw hc hI fuel hs ⟨hp, le_rfl⟩ h

/-- **C33** A neutron of a probability below the threshold, or at rest, is dropped. -/
theorem C33_dropped (c : Comp S) (tol par : ℝ) (hn : 1 ≤ c.maxAmong) (s : S) (ev : Ev)
    (h : (0 ≤ ev.p ∧ ev.p < c.minP) ∨ √(ev.v.dot ev.v) ≤ 1 / 1000000) :
    c.scatterM tol par s ev = .ok (s, []) := by
  have hr : c.roundAll tol par s [] [ev] = .ok (s, [], []) := by
    unfold Comp.roundAll
    by_cases h1 : c.low ev
    · simp only [h1, if_true, Comp.roundAll]
    · rw [if_neg h1]
      have h2 : ¬ isMoving ev := by
        rcases h with h | h
        · exact absurd h h1
        · simp only [isMoving, length, V3.length2, decide_eq_true_eq, not_lt, gt_iff_lt]
          exact h
      rw [if_pos h2]; rfl
  obtain ⟨n, hn⟩ : ∃ n, c.maxAmong = n + 1 := ⟨c.maxAmong - 1, by omega⟩
  have hl : c.amongLoop tol par n s [] = .ok (s, [], []) := by cases n <;> rfl
  unfold Comp.scatterM
  rw [hn, Comp.amongLoop, hr]
  simp only [bind, Except.bind, hl]
  rfl

/-- **C33** A neutron that is leaving the composite is passed on as it is, in both modes. -/
theorem C33_leaving (c : Comp S) (tol par : ℝ) (hn : 1 ≤ c.maxAmong) (s : S) (ev : Ev)
    (hlow : ¬ (0 ≤ ev.p ∧ ev.p < c.minP)) (hm : 1 / 1000000 < √(ev.v.dot ev.v))
    (hex : isExiting tol par c.shape ev = .ok true) :
    c.scatterM tol par s ev = .ok (s, [ev]) ∧ ∀ fuel, c.scatter tol par (fuel + 1) s ev = .ok (s, ev) := by
  have hmov : isMoving ev = true := by
    simp only [isMoving, length, V3.length2, decide_eq_true_eq, gt_iff_lt]; exact hm
  constructor
  · have hr : c.roundAll tol par s [] [ev] = .ok (s, [ev], []) := by
      unfold Comp.roundAll
      rw [if_neg (show ¬ c.low ev from hlow)]
      simp only [hmov, not_true_eq_false, if_false, hex, bind, Except.bind, Comp.roundAll, if_true]
    obtain ⟨n, hn⟩ : ∃ n, c.maxAmong = n + 1 := ⟨c.maxAmong - 1, by omega⟩
    have hl : c.amongLoop tol par n s [] = .ok (s, [], []) := by cases n <;> rfl
    unfold Comp.scatterM
    rw [hn, Comp.amongLoop, hr]
    simp only [bind, Except.bind, hl]
    rfl
  · intro fuel
    unfold Comp.scatter
    simp only [hmov, not_true_eq_false, if_false, hex, bind, Except.bind, if_true]

/-- **C33** The neutron given to a constituent is the same flight in the frame of the constituent:
at any time it is in the constituent's own shape exactly when the flight is in the shape as placed
in the composite; and neutrons come back to the place they were at. -/
theorem C33_frames (e : Elem S) (he : Frames.IsOrtho e.rot) (ev : Ev) :
    (∀ t, Mem e.shape (at' (e.toLocal ev).r (e.toLocal ev).v t) ↔
      Mem (.translation (.rotation e.shape e.rot) e.pos) (at' ev.r ev.v t)) ∧
    e.toGlobal (e.toLocal ev) = ev ∧ e.toLocal (e.toGlobal ev) = ev ∧
    (e.toLocal ev).v.dot (e.toLocal ev).v = ev.v.dot ev.v := by
  refine ⟨fun t => ?_, toGlobal_toLocal he ev, toLocal_toGlobal he ev, ?_⟩
  · rw [toLocal_at]
    rw [mem_translation, mem_rotation he]
  · have := he.cols.length2_mulVec ev.v
    simpa [V3.length2, V3.dot, Elem.toLocal] using this

/-! ### a pane -/

theorem sphere_on_axis {R : ℝ} (hR : 0 ≤ R) (c : ℝ) :
    intersectSphere R ⟨0, 0, c⟩ ⟨0, 0, 1⟩ = [-c - R, -c + R] := by
  have hv : (⟨0, 0, 1⟩ : V3 ℝ) ≠ 0 := by
    intro h; have := congrArg V3.z h; norm_num at this
  unfold intersectSphere
  rw [if_neg (by rw [invalid_iff]; exact hv)]
  have h1 : √(R * R) = R := Real.sqrt_mul_self hR
  have h2 : ¬ R * R < 0 := not_lt.2 (mul_self_nonneg R)
  norm_num [V3.dot, V3.cross, h1, h2]
  constructor <;> ring

/-- a neutron on the z axis that moves along the axis with the speed 1 -/
noncomputable def onAxis (z t p : ℝ) : Ev := ⟨⟨0, 0, z⟩, ⟨0, 0, 1⟩, 0, 0, t, p⟩

theorem propagate_onAxis (z t p τ : ℝ) : propagate (onAxis z t p) τ = onAxis (z + τ) (t + τ) p := by
  have : (⟨0, 0, z⟩ : V3 ℝ) + τ • ⟨0, 0, 1⟩ = ⟨0, 0, z + τ⟩ := by apply V3.ext <;> simp
  simp [propagate, onAxis, this]

theorem forward_onAxis {R : ℝ} (hR : 0 ≤ R) (z t p : ℝ) :
    forwardIntersect (1 / 1000) (1 / 1000) (.sphere R) (onAxis z t p).r (onAxis z t p).v =
      .ok ([-z - R, -z + R].filter fun t => !decide (t < 0)) := by
  unfold forwardIntersect
  simp only [intersect, onAxis, sphere_on_axis hR, bind, Except.bind]

theorem locate_onAxis (R z t p : ℝ) : locate (1 / 1000) (.sphere R) (onAxis z t p).r =
    .ok (locSphere (1 / 1000) R ⟨0, 0, z⟩) := by
  simp [locate, onAxis]

/-- a sphere of radius 1 that lets every neutron through, leaves a fraction `q` of its probability,
and keeps a record of who was called -/
noncomputable def pane (name : Nat) (q : ℝ) (z : ℝ) : Elem (List Nat) where
  shape := .sphere 1
  pos := ⟨0, 0, z⟩
  rot := M3.one
  interact1 := fun s ev => do
    let ev' ← toExit (1 / 1000) (1 / 1000) (.sphere 1) ev
    .ok (s ++ [name], { ev' with p := ev'.p * q }, .none)
  interactM := fun s ev => do
    let ev' ← toExit (1 / 1000) (1 / 1000) (.sphere 1) ev
    .ok (s ++ [name], [{ ev' with p := ev'.p * q }], .none)
  atten := fun _ _ => .ok q

theorem pane_gain (name : Nat) (q z : ℝ) (h0 : 0 ≤ q) (h1 : q ≤ 1) : Gain 1 (pane name q z) where
  interactM := by
    intro s ev s' new i hp h
    obtain ⟨ev', h2, h⟩ := bind_ok.1 h
    cases h
    obtain ⟨τ, -, hf⟩ := toExit_flies h2
    have : ev'.p = ev.p := hf.2.2.2.2.2
    simp only [List.mem_singleton, forall_eq, total, List.map_cons, List.map_nil, List.sum_cons, List.sum_nil, this]
    exact ⟨mul_nonneg hp h0, by nlinarith⟩
  atten := by
    intro ev p a h
    cases h
    exact ⟨h0, h1⟩

theorem pane_lossy (name : Nat) (q z : ℝ) (h0 : 0 ≤ q) (h1 : q ≤ 1) : Lossy (pane name q z) where
  interact1 := by
    intro s ev s' ev2 i hp h hi
    obtain ⟨ev', h2, h⟩ := bind_ok.1 h
    cases h
    obtain ⟨τ, -, hf⟩ := toExit_flies h2
    have : ev'.p = ev.p := hf.2.2.2.2.2
    simp only [this]
    exact ⟨mul_nonneg hp h0, by nlinarith⟩
  atten := by
    intro ev p a h
    cases h
    exact ⟨h0, h1⟩

theorem pane_calls (name : Nat) (q z minP : ℝ) : KeptByCalls minP (fun l => ∀ k ∈ l, k = name) (pane name q z) := by
  intro s ev s' new i hs _ _ h
  obtain ⟨ev', h2, h⟩ := bind_ok.1 h
  cases h
  intro k hk
  rcases List.mem_append.1 hk with hk | hk
  · exact hs k hk
  · simpa using hk

/-- two panes on the axis in a sphere of radius 20 -/
noncomputable def two (q : ℝ) : List (Elem (List Nat)) := [pane 0 q 0, pane 1 q 5]

theorem toLocal_pane (name : Nat) (q w z t p : ℝ) :
    (pane name q w).toLocal (onAxis z t p) = onAxis (z - w) t p := by
  have h1 : (M3.one : M3 ℝ).transpose.mulVec (⟨0, 0, z⟩ - ⟨0, 0, w⟩) = ⟨0, 0, z - w⟩ := by
    apply V3.ext <;> simp [M3.one, M3.transpose, M3.mulVec]
  have h2 : (M3.one : M3 ℝ).transpose.mulVec ⟨0, 0, 1⟩ = ⟨0, 0, 1⟩ := by
    apply V3.ext <;> simp [M3.one, M3.transpose, M3.mulVec]
  simp only [Elem.toLocal, pane, onAxis, h1, h2]

theorem toGlobal_pane (name : Nat) (q w z t p : ℝ) :
    (pane name q w).toGlobal (onAxis z t p) = onAxis (z + w) t p := by
  have h1 : (M3.one : M3 ℝ).mulVec ⟨0, 0, z⟩ + ⟨0, 0, w⟩ = ⟨0, 0, z + w⟩ := by
    apply V3.ext <;> simp [M3.one, M3.mulVec]
  have h2 : (M3.one : M3 ℝ).mulVec ⟨0, 0, 1⟩ = ⟨0, 0, 1⟩ := by
    apply V3.ext <;> simp [M3.one, M3.mulVec]
  simp only [Elem.toGlobal, pane, onAxis, h1, h2]

/-- a neutron 5 in front of a pane comes out of it at its back -/
theorem exit_pane (t p : ℝ) : toExit (1 / 1000) (1 / 1000) (.sphere 1) (onAxis (-5) t p) =
    .ok (onAxis 1 (t + 6) p) := by
  have h1 : toIncident (1 / 1000) (1 / 1000) (.sphere 1) (onAxis (-5) t p) = .ok (onAxis (-1) (t + 4) p) := by
    unfold toIncident
    rw [forward_onAxis (by norm_num), locate_onAxis]
    norm_num [locSphere, bind, Except.bind]
    simp
    rw [propagate_onAxis]; norm_num
  have h2 : exitFromFront (1 / 1000) (1 / 1000) (.sphere 1) (onAxis (-1) (t + 4) p) =
      .ok (onAxis 1 (t + 6) p) := by
    unfold exitFromFront
    rw [forward_onAxis (by norm_num), locate_onAxis]
    norm_num [locSphere, bind, Except.bind, borderLoop, locate, onAxis]
    simp
    norm_num [propagate]
    refine ⟨?_, by ring⟩
    apply V3.ext <;> norm_num
  unfold toExit
  rw [locate_onAxis]
  norm_num [locSphere, bind, Except.bind, h1, h2]
  simp

theorem exit_big (z t p : ℝ) (h : |z| ≤ 19) : toExit (1 / 1000) (1 / 1000) (.sphere 20) (onAxis z t p) =
    .ok (onAxis 20 (t + (20 - z)) p) := by
  obtain ⟨h1, h2⟩ := abs_le.1 h
  have hl : locSphere (1 / 1000) 20 ⟨0, 0, z⟩ = .inside := by
    unfold locSphere
    rw [if_neg (by simp only [gt_iff_lt, not_lt]; nlinarith), if_pos (by simp only [gt_iff_lt]; nlinarith)]
  unfold toExit
  rw [forward_onAxis (by norm_num), locate_onAxis, hl]
  have a : -z - 20 < 0 := by linarith
  have b : ¬ -z + 20 < 0 := by linarith
  simp only [bind, Except.bind, if_true, List.filter, a, b, decide_true, decide_false, Bool.not_true,
    Bool.not_false]
  rw [propagate_onAxis]
  congr 2 <;> ring

theorem hit_two (q t p : ℝ) : find1stHit (1 / 1000) (1 / 1000) (construct (.sphere 20) (two q)).shapes
    (onAxis (-5) t p).r (onAxis (-5) t p).v = .ok (some 0) := by
  have e1 : ∀ v : V3 ℝ, (M3.one : M3 ℝ).transpose.mulVec v = v := by
    intro v; apply V3.ext <;> simp [M3.one, M3.transpose, M3.mulVec]
  have e2 : ∀ z w : ℝ, (⟨0, 0, z⟩ : V3 ℝ) - ⟨0, 0, w⟩ = ⟨0, 0, z - w⟩ := by
    intro z w; apply V3.ext <;> simp
  have hf : forwardIntersect (1 / 1000) (1 / 1000) (.union (construct (.sphere 20) (two q)).shapes)
      (onAxis (-5) t p).r (onAxis (-5) t p).v = .ok [4, 6, 9, 11] := by
    simp only [forwardIntersect, Comp.shapes, construct, two, List.map, intersect, gather, onAxis, pane, e1, e2,
      sphere_axis_example, bind, Except.bind, keepOnBorder, locate, locUnion]
    norm_num [locSphere]
    simp
    norm_num [sort, List.insertionSort, List.orderedInsert]
  simp only [find1stHit, hf, bind, Except.bind]
  norm_num [findContaining, anyOnBorder, locate, locSphere, bind, Except.bind, Comp.shapes, construct, two, pane, e1, onAxis]
  simp

theorem exiting_big (t p : ℝ) : isExiting (1 / 1000) (1 / 1000) (.sphere 20) (onAxis 20 t p) = .ok true := by
  unfold isExiting
  rw [forward_onAxis (by norm_num), locate_onAxis]
  norm_num [locSphere, bind, Except.bind, exitLoop, onAxis, locate]
  simp

theorem moving_onAxis (z t p : ℝ) : isMoving (onAxis z t p) = true := by
  norm_num [isMoving, length, V3.length2, onAxis]

theorem locate_big (z t p : ℝ) (h : |z| ≤ 19) : locate (1 / 1000) (.sphere 20) (onAxis z t p).r = .ok .inside := by
  obtain ⟨h1, h2⟩ := abs_le.1 h
  rw [locate_onAxis]
  unfold locSphere
  rw [if_neg (by simp only [gt_iff_lt, not_lt]; nlinarith), if_pos (by simp only [gt_iff_lt]; nlinarith)]

/-- what happens to a neutron that flies towards the two panes: it goes through the first one, and is
then moved out of the composite -/
theorem run_two : (construct (.sphere 20) (two (1 / 2))).scatterM (1 / 1000) (1 / 1000) [] (onAxis (-5) 0 1) =
    .ok ([0], [onAxis 20 25 (1 / 8)]) := by
  obtain ⟨c, hc⟩ : ∃ c, c = construct (.sphere 20) (two (1 / 2)) := ⟨_, rfl⟩
  have hsh : c.shape = .sphere 20 := by rw [hc]; rfl
  have low : ∀ z t p : ℝ, 0 ≤ p → ¬ c.low (onAxis z t p) := by
    intro z t p hp h
    rw [hc] at h
    have : p < 0 := h.2
    linarith
  have step : c.step (1 / 1000) (1 / 1000) [] (onAxis (-5) 0 1) = .ok ([0], [], [onAxis 1 6 (1 / 2)]) := by
    unfold Comp.step
    rw [if_neg (low _ _ _ (by norm_num)), hc, hit_two]
    have e0 : (construct (.sphere 20) (two (1 / 2))).elems[0]? = some (pane 0 (1 / 2) 0) := rfl
    have e1 : (pane 0 (1 / 2) 0).interactM [] (onAxis (-5) 0 1) = .ok ([0], [onAxis 1 6 (1 / 2)], .none) := by
      simp only [pane, exit_pane, bind, Except.bind]
      norm_num [onAxis]
    simp only [bind, Except.bind, Option.bind_some, e0, toLocal_pane, sub_zero, e1, List.map, toGlobal_pane, add_zero]
    rw [← hc, hsh]
    simp only [sortNew, locate_big 1 6 (1 / 2) (by norm_num), bind, Except.bind]
    simp
  have att : ∀ ev q, c.atten ev q = .ok (1 / 4) := by
    intro ev q
    rw [hc]
    norm_num [Comp.atten, construct, two, pane, bind, Except.bind, List.foldlM, pure, Except.pure]
  have inter : c.interactM (1 / 1000) (1 / 1000) [] (onAxis (-5) 0 1) = .ok ([0], [onAxis 20 25 (1 / 8)]) := by
    unfold Comp.interactM
    have hmp : c.maxPath = 1 := by rw [hc]; rfl
    rw [hsh, locate_big _ _ _ (by norm_num), hmp]
    simp only [bind, Except.bind, Comp.pathLoop, Comp.stepAll, step, Comp.leftPath, hsh, List.nil_append,
      List.append_nil]
    rw [exit_big _ _ _ (by norm_num)]
    simp only [att]
    norm_num [onAxis]
    simp
  have hr1 : c.roundAll (1 / 1000) (1 / 1000) [] [] [onAxis (-5) 0 1] = .ok ([0], [], [onAxis 20 25 (1 / 8)]) := by
    unfold Comp.roundAll
    rw [if_neg (low _ _ _ (by norm_num)), moving_onAxis, hsh]
    have : isExiting (1 / 1000) (1 / 1000) (.sphere 20) (onAxis (-5) 0 1) = .ok false := by
      unfold isExiting
      rw [locate_big _ _ _ (by norm_num)]
      simp [bind, Except.bind]
    rw [this]
    simp only [bind, Except.bind, inter, Comp.roundAll]
    norm_num [nudge, onAxis]
  have hr2 : c.roundAll (1 / 1000) (1 / 1000) [0] [] [onAxis 20 25 (1 / 8)] = .ok ([0], [onAxis 20 25 (1 / 8)], []) := by
    unfold Comp.roundAll
    rw [if_neg (low _ _ _ (by norm_num)), moving_onAxis, hsh, exiting_big]
    simp [bind, Except.bind, Comp.roundAll]
  rw [← hc]
  unfold Comp.scatterM
  have hma : c.maxAmong = 5 := by rw [hc]; rfl
  rw [hma]
  simp only [Comp.amongLoop, bind, Except.bind, hr1, hr2, Comp.leftOut]
  simp

theorem two_wf (q : ℝ) : ∀ e ∈ two q, WF e.shape ∧ Frames.IsOrtho e.rot := by
  intro e he
  simp only [two, List.mem_cons, List.not_mem_nil, or_false] at he
  rcases he with rfl | rfl <;> exact ⟨by norm_num [pane, WF], Frames.one_ortho⟩

/-- the hypotheses of the theorems hold for the two panes, and the neutron leaves with 1/8 of its
probability -/
example : let c := construct (.sphere 20) (two (1 / 2))
    (∀ e ∈ c.elems, Gain 1 e ∧ Lossy e ∧ WF e.shape ∧ Frames.IsOrtho e.rot) ∧ 1 ≤ c.maxAmong ∧
    c.scatterM (1 / 1000) (1 / 1000) [] (onAxis (-5) 0 1) = .ok ([0], [onAxis 20 25 (1 / 8)]) ∧
    isExiting (1 / 1000) (1 / 1000) c.shape (onAxis 20 25 (1 / 8)) = .ok true := by
  refine ⟨?_, by norm_num [construct], run_two, exiting_big _ _⟩
  intro e he
  refine ⟨?_, ?_, two_wf _ e he⟩
  all_goals
    simp only [construct, two, List.mem_cons, List.not_mem_nil, or_false] at he
    rcases he with rfl | rfl
    all_goals first
      | exact pane_gain _ _ _ (by norm_num) (by norm_num)
      | exact pane_lossy _ _ _ (by norm_num) (by norm_num)

/-- a property kept by the calls of a pane -/
example : KeptByCalls 0 (fun l => ∀ k ∈ l, k = 0) (pane 0 (1 / 2) 0) := pane_calls 0 _ _ _

/-- a neutron below the threshold, and one at rest -/
example : (0 ≤ (onAxis 0 0 1).p ∧ (onAxis 0 0 1).p < (standalone (pane 0 1 0) 2).minP) ∧
    √((0 : V3 ℝ).dot 0) ≤ 1 / 1000000 := by
  norm_num [onAxis, standalone, V3.dot]

/-! ### C81 attenuation from one constituent to the surface of the composite -/

/-- a neutron on the axis in front of a homogeneous sphere of radius 1 -/
noncomputable def grey : Scat Unit where
  shape := .sphere 1
  wT := 1
  wA := 1
  wS := 1
  packing := 1
  mu0 := fun _ => 1
  sigma0 := fun _ => 1
  kscatter := fun k ev => .ok (k, ev)
  kabsorb := fun k _ => .ok k
  maxLoops := 1
  minP := 0

theorem path_grey {a T : ℝ} (h : a < -1) (t p : ℝ) (hT : 0 ≤ T) :
    pathLength (1 / 1000) (1 / 1000) (.sphere 1) (onAxis a t p) ⟨0, 0, a + T⟩ =
      Flight.pathLoop (1 / 1000) (.sphere 1) ⟨0, 0, a⟩ ⟨0, 0, 1⟩ 1 T 0 0 [-a - 1, -a + 1] := by
  unfold pathLength
  rw [forward_onAxis (by norm_num)]
  have e1 : ¬ -a - 1 < 0 := by linarith
  have e2 : ¬ -a + 1 < 0 := by linarith
  have e3 : length (onAxis a t p).v = 1 := by norm_num [length, V3.length2, onAxis]
  have e4 : length (⟨0, 0, a + T⟩ - (onAxis a t p).r) = T := by
    simp only [length, V3.length2, onAxis, V3.sub_x, V3.sub_y, V3.sub_z]
    rw [show (0 - 0) * (0 - 0) + (0 - 0) * (0 - 0) + (a + T - a) * (a + T - a) = T * T by ring]
    exact Real.sqrt_mul_self hT
  simp only [List.filter, e1, e2, decide_false, Bool.not_false, bind, Except.bind, e3, e4, div_one]
  rfl

/-- **C81** is false: the attenuation between two points of a composite does not account for a
constituent that is not at the origin; the end point is taken as if it were given in the frame of
the constituent.  A flight of length 8 through a sphere (2 of it inside) is not attenuated at
all. -/
theorem C81_endpoint_false : ¬ ∀ (h : Scat Unit) (pos : V3 ℝ) (rot : M3 ℝ) (shape : Shape) (tol par : ℝ) (ev : Ev)
    (endp : V3 ℝ), 0 < tol → 0 < par → WF h.shape → Frames.IsOrtho rot →
    (construct shape [ofHomog tol par h pos rot]).atten ev endp =
      attenuation tol par (.translation (.rotation h.shape rot) pos) (h.mu ev) (h.sigma ev) ev endp := by
  intro H
  have h1 := H grey ⟨0, 0, -4⟩ M3.one (.sphere 20) (1 / 1000) (1 / 1000) (onAxis (-10) 0 1) ⟨0, 0, -2⟩
    (by norm_num) (by norm_num) (by norm_num [grey, WF]) Frames.one_ortho
  obtain ⟨e, he⟩ : ∃ e, e = ofHomog (1 / 1000) (1 / 1000) grey ⟨0, 0, -4⟩ M3.one := ⟨_, rfl⟩
  have hl : e.toLocal (onAxis (-10) 0 1) = onAxis (-6) 0 1 := by
    have h1 : (M3.one : M3 ℝ).transpose.mulVec (⟨0, 0, -10⟩ - ⟨0, 0, -4⟩) = ⟨0, 0, -6⟩ := by
      apply V3.ext <;> norm_num [M3.one, M3.transpose, M3.mulVec]
    have h2 : (M3.one : M3 ℝ).transpose.mulVec ⟨0, 0, 1⟩ = ⟨0, 0, 1⟩ := by
      apply V3.ext <;> simp [M3.one, M3.transpose, M3.mulVec]
    rw [he]
    simp only [Elem.toLocal, ofHomog, onAxis, h1, h2]
  have hend : e.rot.transpose.mulVec (⟨0, 0, -2⟩ - e.pos) = ⟨0, 0, 2⟩ := by
    rw [he]
    apply V3.ext <;> norm_num [M3.one, M3.transpose, M3.mulVec, ofHomog]
  have hleft : (construct (.sphere 20) [e]).atten (onAxis (-10) 0 1) ⟨0, 0, -2⟩ = .ok 1 := by
    unfold Comp.atten
    simp only [construct, List.foldlM, hl]
    have : e.atten (onAxis (-6) 0 1) ⟨0, 0, -2⟩ = .ok 1 := by
      rw [he]
      simp only [ofHomog, Scat.atten, attenuation, grey]
      have := path_grey (a := -6) (T := 4) (by norm_num) 0 1 (by norm_num)
      norm_num at this
      rw [this]
      norm_num [Flight.pathLoop, locate, locSphere, bind, Except.bind]
      simp
    rw [this]
    simp [bind, Except.bind, pure, Except.pure]
  have hright : attenuation (1 / 1000) (1 / 1000) (.translation (.rotation grey.shape M3.one) ⟨0, 0, -4⟩)
      (grey.mu (onAxis (-10) 0 1)) (grey.sigma (onAxis (-10) 0 1)) (onAxis (-10) 0 1) ⟨0, 0, -2⟩ =
        .ok (Real.exp (-4)) := by
    have h2 := attenuation_placed e (by rw [he]; exact Frames.one_ortho) (1 / 1000) (1 / 1000)
      (grey.mu (onAxis (-10) 0 1)) (grey.sigma (onAxis (-10) 0 1)) (onAxis (-10) 0 1) ⟨0, 0, -2⟩
    rw [hl, hend] at h2
    have e1 : e.shape = grey.shape := by rw [he]; rfl
    have e2 : e.rot = M3.one := by rw [he]; rfl
    have e3 : e.pos = ⟨0, 0, -4⟩ := by rw [he]; rfl
    rw [e1, e2, e3] at h2
    rw [h2]
    simp only [attenuation, grey]
    have := path_grey (a := -6) (T := 8) (by norm_num) 0 1 (by norm_num)
    norm_num at this
    rw [this]
    norm_num [Flight.pathLoop, locate, locSphere, bind, Except.bind, Scat.mu, Scat.sigma]
    simp
    norm_num
  rw [← he, hleft, hright] at h1
  have h3 : (1 : ℝ) = Real.exp (-4) := by injection h1
  have h4 := (Real.exp_lt_exp.2 (show (-4 : ℝ) < 0 by norm_num)).trans_eq Real.exp_zero
  linarith

/-- **C81** what remains: the attenuation in a composite is the product of those in its
constituents as placed, if the end point has the same coordinates in their frames as in that of
the composite (in particular if the constituents are at the origin and not rotated). -/
theorem C81_endpoint_partial (shape : Shape) (l : List (Scat Unit × V3 ℝ × M3 ℝ)) (tol par : ℝ) (ev : Ev) (endp : V3 ℝ)
    (ho : ∀ x ∈ l, Frames.IsOrtho x.2.2) (hend : ∀ x ∈ l, x.2.2.transpose.mulVec (endp - x.2.1) = endp)
    (hmu : ∀ x ∈ l, ∀ e1 e2 : Ev, e1.v.dot e1.v = e2.v.dot e2.v →
      x.1.mu0 e1 = x.1.mu0 e2 ∧ x.1.sigma0 e1 = x.1.sigma0 e2)
    (as : List ℝ) (has : l.mapM (fun x => attenuation tol par (.translation (.rotation x.1.shape x.2.2) x.2.1)
      (x.1.mu ev) (x.1.sigma ev) ev endp) = .ok as) :
    (construct shape (l.map fun x => ofHomog tol par x.1 x.2.1 x.2.2)).atten ev endp = .ok as.prod := by
  have key : ∀ (l : List (Scat Unit × V3 ℝ × M3 ℝ)) (as : List ℝ) (x0 : ℝ),
      (∀ x ∈ l, Frames.IsOrtho x.2.2) → (∀ x ∈ l, x.2.2.transpose.mulVec (endp - x.2.1) = endp) →
      (∀ x ∈ l, ∀ e1 e2 : Ev, e1.v.dot e1.v = e2.v.dot e2.v →
        x.1.mu0 e1 = x.1.mu0 e2 ∧ x.1.sigma0 e1 = x.1.sigma0 e2) →
      l.mapM (fun x => attenuation tol par (.translation (.rotation x.1.shape x.2.2) x.2.1)
        (x.1.mu ev) (x.1.sigma ev) ev endp) = .ok as →
      (l.map fun x => ofHomog tol par x.1 x.2.1 x.2.2).foldlM (fun ret e => do
        let a ← e.atten (e.toLocal ev) endp
        Except.ok (ret * a)) x0 = Except.ok (ε := Err) (x0 * as.prod) := by
    intro l
    induction l with
    | nil =>
      intro as x0 _ _ _ h
      cases h
      simp [pure, Except.pure]
    | cons x l ih =>
      intro as x0 ho hend hmu h
      rw [List.mapM_cons] at h
      obtain ⟨a, h1, h⟩ := bind_ok.1 h
      obtain ⟨as', h2, h⟩ := bind_ok.1 h
      cases h
      rw [List.map_cons, List.foldlM_cons]
      have h3 := attenuation_placed (ofHomog tol par x.1 x.2.1 x.2.2) (ho x (by simp)) tol par
        (x.1.mu ev) (x.1.sigma ev) ev endp
      have e1 : (ofHomog tol par x.1 x.2.1 x.2.2).rot.transpose.mulVec
          (endp - (ofHomog tol par x.1 x.2.1 x.2.2).pos) = endp := hend x (by simp)
      rw [e1] at h3
      have h4 : attenuation tol par x.1.shape (x.1.mu ev) (x.1.sigma ev)
          ((ofHomog tol par x.1 x.2.1 x.2.2).toLocal ev) endp = .ok a := h3.symm.trans h1
      have h5 := hmu x (by simp) ((ofHomog tol par x.1 x.2.1 x.2.2).toLocal ev) ev
        (C33_frames (ofHomog tol par x.1 x.2.1 x.2.2) (ho x (by simp)) ev).2.2.2
      have h6 : (ofHomog tol par x.1 x.2.1 x.2.2).atten ((ofHomog tol par x.1 x.2.1 x.2.2).toLocal ev) endp =
          .ok a := by
        rw [← h4]
        show attenuation tol par x.1.shape (x.1.mu0 ((ofHomog tol par x.1 x.2.1 x.2.2).toLocal ev) * x.1.packing)
          (x.1.sigma0 ((ofHomog tol par x.1 x.2.1 x.2.2).toLocal ev) * x.1.packing) _ _ = _
        rw [h5.1, h5.2]
        rfl
      rw [h6]
      simp only [bind, Except.bind]
      have h7 := ih as' (x0 * a) (fun y hy => ho y (List.mem_cons_of_mem _ hy))
        (fun y hy => hend y (List.mem_cons_of_mem _ hy)) (fun y hy => hmu y (List.mem_cons_of_mem _ hy)) h2
      simp only [bind, Except.bind] at h7
      rw [h7, List.prod_cons, mul_assoc]
  have := key l as 1 ho hend hmu has
  rw [one_mul] at this
  exact this

/-- hypotheses for a sphere at the origin -/
example : Frames.IsOrtho (M3.one : M3 ℝ) ∧
    (M3.one : M3 ℝ).transpose.mulVec ((⟨0, 0, 2⟩ : V3 ℝ) - ⟨0, 0, 0⟩) = ⟨0, 0, 2⟩ ∧
    (∀ e1 e2 : Ev, e1.v.dot e1.v = e2.v.dot e2.v → grey.mu0 e1 = grey.mu0 e2 ∧ grey.sigma0 e1 = grey.sigma0 e2) ∧
    ∃ a, attenuation (1 / 1000) (1 / 1000) (.translation (.rotation grey.shape M3.one) ⟨0, 0, 0⟩)
      (grey.mu (onAxis (-6) 0 1)) (grey.sigma (onAxis (-6) 0 1)) (onAxis (-6) 0 1) ⟨0, 0, 2⟩ = .ok a := by
  refine ⟨Frames.one_ortho, ?_, fun _ _ _ => ⟨rfl, rfl⟩, ?_⟩
  · apply V3.ext <;> simp [M3.one, M3.transpose, M3.mulVec]
  · exact C31_total _ (by norm_num [WF, grey, Frames.one_ortho]) _ _ _ _

/-! ### C82 composites in composites -/

/-- **C82** is false: a composite that is a constituent of another one does not interact; the
wrappers return nothing where a result is expected, and it never attenuates. -/
theorem C82_nested_false : ¬ ∀ (S : Type) (inner : Comp S) (pos : V3 ℝ) (rot : M3 ℝ) (shape : Shape) (ev : Ev) (endp : V3 ℝ)
    (a : ℝ), Frames.IsOrtho rot → inner.atten ((ofComp inner pos rot).toLocal ev) (rot.transpose.mulVec (endp - pos)) = .ok a →
    (construct shape [ofComp inner pos rot]).atten ev endp = .ok a := by
  intro H
  have h1 := H (List Nat) (construct (.sphere 20) (two (1 / 2))) 0 M3.one (.sphere 20) (onAxis (-5) 0 1) 0 (1 / 4)
    Frames.one_ortho (by norm_num [Comp.atten, construct, two, pane, bind, Except.bind, List.foldlM, pure, Except.pure])
  norm_num [Comp.atten, construct, ofComp, bind, Except.bind, List.foldlM, pure, Except.pure] at h1

/-- **C82** and any neutron that meets a composite inside of a composite leads to undefined
behaviour. -/
theorem C82_undefined_false (c inner : Comp S) (tol par : ℝ) (pos : V3 ℝ) (rot : M3 ℝ) (s : S) (ev : Ev) (i : Nat)
    (ha : 1 ≤ c.maxAmong) (hp : 1 ≤ c.maxPath) (hlow : ¬ (0 ≤ ev.p ∧ ev.p < c.minP))
    (hm : 1 / 1000000 < √(ev.v.dot ev.v)) (hin : locate tol c.shape ev.r = .ok .inside)
    (hh : find1stHit tol par c.shapes ev.r ev.v = .ok (some i)) (he : c.elems[i]? = some (ofComp inner pos rot)) :
    ∀ r, c.scatterM tol par s ev ≠ .ok r := by
  intro r hr
  have hmov : isMoving ev = true := by
    simp only [isMoving, length, V3.length2, decide_eq_true_eq, gt_iff_lt]; exact hm
  obtain ⟨s', out⟩ := r
  have : (fun _ : S => False) s' := by
    refine first_called (κ := 1) (I := fun _ => False) ?_ ha hp hlow hmov hin hh he (s := s) ?_ hr
    · exact
        { one_le := le_rfl, nonneg := by simp, less := by simp, att_one := trivial, att_mul := by simp
          att := by simp, hits := by simp, calls := by simp }
    · intro s1 new it h
      cases h
  exact this

/-- **C82** what remains: as long as a simulation of a composite ends normally, what the other
constituents cannot destroy holds at the end: composites among the constituents have no say. -/
theorem C82_others_partial (c : Comp S) {tol par : ℝ} (h0 : 0 < tol) (hw : ∀ e ∈ c.elems, WF e.shape)
    (I : S → Prop) (hI : ∀ e ∈ c.elems, (∃ inner pos rot, e = ofComp inner pos rot) ∨ KeptByCalls c.minP I e)
    (s s' : S) (ev : Ev) (out : List Ev) (hs : I s) (h : c.scatterM tol par s ev = .ok (s', out)) : I s' := by
  refine C33_calls c h0 hw I ?_ s s' ev out hs h
  intro e he
  rcases hI e he with ⟨inner, pos, rot, rfl⟩ | hk
  · intro s ev s' new i _ _ _ h
    cases h
  · exact hk

/-- a composite of a pane and of a composite of two panes -/
example : ∀ e ∈ [pane 0 (1 / 2) 0, ofComp (construct (.sphere 20) (two (1 / 2))) 0 M3.one], WF e.shape ∧
    ((∃ inner pos rot, e = ofComp inner pos rot) ∨ KeptByCalls 0 (fun l => ∀ k ∈ l, k = 0) e) := by
  intro e he
  simp only [List.mem_cons, List.not_mem_nil, or_false] at he
  rcases he with rfl | rfl
  · exact ⟨by norm_num [WF, pane], .inr (pane_calls 0 _ _ _)⟩
  · exact ⟨by norm_num [WF, ofComp, construct], .inl ⟨_, _, _, rfl⟩⟩

/-- and a neutron that meets it: it is the only constituent, a sphere of radius 20 -/
example : let inner := construct (.sphere 20) (two (1 / 2))
    let c := construct (.sphere 40) [ofComp inner 0 M3.one]
    1 ≤ c.maxAmong ∧ 1 ≤ c.maxPath ∧ ¬ (0 ≤ (onAxis 0 0 1).p ∧ (onAxis 0 0 1).p < c.minP) ∧
    1 / 1000000 < √((onAxis 0 0 1).v.dot (onAxis 0 0 1).v) ∧
    locate (1 / 1000) c.shape (onAxis 0 0 1).r = .ok .inside ∧
    find1stHit (1 / 1000) (1 / 1000) c.shapes (onAxis 0 0 1).r (onAxis 0 0 1).v = .ok (some 0) ∧
    c.elems[0]? = some (ofComp inner 0 M3.one) := by
  have e1 : ∀ v : V3 ℝ, (M3.one : M3 ℝ).transpose.mulVec v = v := by
    intro v; apply V3.ext <;> simp [M3.one, M3.transpose, M3.mulVec]
  have e2 : ∀ v : V3 ℝ, v - 0 = v := by
    intro v; apply V3.ext <;> simp
  have hf : forwardIntersect (1 / 1000) (1 / 1000)
      (.union (construct (.sphere 40) [ofComp (construct (.sphere 20) (two (1 / 2))) 0 M3.one]).shapes)
      (onAxis 0 0 1).r (onAxis 0 0 1).v = .ok [20] := by
    simp only [forwardIntersect, Comp.shapes, construct, List.map, intersect, gather, onAxis, ofComp, e1, e2,
      sphere_on_axis (show (0 : ℝ) ≤ 20 by norm_num), bind, Except.bind, keepOnBorder, locate, locUnion]
    norm_num [locSphere]
    simp
    norm_num [sort, List.insertionSort, List.orderedInsert]
  refine ⟨by norm_num [construct], by norm_num [construct], by norm_num [construct, onAxis],
    by norm_num [onAxis, V3.dot], by norm_num [construct, onAxis, locate, locSphere], ?_, rfl⟩
  simp only [find1stHit, hf, bind, Except.bind]
  norm_num [findContaining, anyOnBorder, locate, locSphere, bind, Except.bind, Comp.shapes, construct, ofComp, e1, e2, onAxis]
  simp

/-! ### C83 a scatterer on its own -/

/-- **C83** is false: what a stand-alone scatterer does in the multiple scattering mode depends on a
number that is never set. -/
theorem C83_uninitialised_false : ¬ ∀ (e : Elem (List Nat)) (g1 g2 : ℝ) (tol par : ℝ) (s : List Nat) (ev : Ev),
    (standalone e g1).scatterM tol par s ev = (standalone e g2).scatterM tol par s ev := by
  intro H
  have h1 := H (pane 0 1 0) 2 0 (1 / 1000) (1 / 1000) [] (onAxis 5 0 1)
  rw [C33_dropped (standalone (pane 0 1 0) 2) (1 / 1000) (1 / 1000) (by norm_num [standalone]) [] (onAxis 5 0 1)
    (.inl (by norm_num [standalone, onAxis]))] at h1
  have hex : isExiting (1 / 1000) (1 / 1000) (standalone (pane 0 1 0) 0).shape (onAxis 5 0 1) = .ok true := by
    unfold isExiting
    show (do
      let loc ← locate (1 / 1000) (.sphere 1) (onAxis 5 0 1).r
      if loc = .inside then .ok false
      else
        let tofs ← forwardIntersect (1 / 1000) (1 / 1000) (.sphere 1) (onAxis 5 0 1).r (onAxis 5 0 1).v
        match tofs with
        | [] => .ok true
        | _ :: _ => if loc = .outside then .ok false else
          exitLoop (1 / 1000) (.sphere 1) (onAxis 5 0 1) 0 tofs) = Except.ok true
    rw [locate_onAxis, forward_onAxis (by norm_num)]
    norm_num [bind, Except.bind, locSphere]
    simp
  rw [(C33_leaving (standalone (pane 0 1 0) 0) (1 / 1000) (1 / 1000) (by norm_num [standalone]) [] (onAxis 5 0 1)
    (by norm_num [standalone, onAxis]) (by norm_num [onAxis, V3.dot]) hex).1] at h1
  simp at h1

/-- **C83** what remains: the number does not matter if it is not positive. -/
theorem C83_uninitialised_partial (e : Elem S) (g1 g2 : ℝ) (h1 : g1 ≤ 0) (h2 : g2 ≤ 0) (tol par : ℝ) (s : S) (ev : Ev) :
    (standalone e g1).scatterM tol par s ev = (standalone e g2).scatterM tol par s ev := by
  have hl : ∀ ev, (standalone e g2).low ev ↔ ({ standalone e g2 with minP := g1 } : Comp S).low ev := by
    intro ev
    constructor
    · rintro ⟨a, b⟩
      have : ev.p < g2 := b
      linarith
    · rintro ⟨a, b⟩
      have : ev.p < g1 := b
      linarith
  exact scatterM_minP hl tol par s ev

example : (-1 : ℝ) ≤ 0 ∧ (0 : ℝ) ≤ 0 := by norm_num

/-! ### C84 the overlap check and the places of the constituents -/

/-- a sphere whose own shape is away from its origin, moved back by its placement -/
noncomputable def offset : Elem (List Nat) where
  shape := .translation (.sphere 1) ⟨0, 0, 5⟩
  pos := ⟨0, 0, -5⟩
  rot := M3.one
  interact1 := (pane 1 1 0).interact1
  interactM := (pane 1 1 0).interactM
  atten := (pane 1 1 0).atten

/-- five random numbers that give a ray from the centre along the axis -/
noncomputable def axisRay : Fin 5 → ℝ := ![1 / 2, 1 / 2, 1 / 2, 1, 0]

theorem ray_axis (R : ℝ) : ray ⟨0, 0, 0, R * 2, R * 2, R * 2⟩ axisRay = (⟨0, 0, 0⟩, ⟨0, 0, 1⟩) := by
  have e0 : axisRay 0 = 1 / 2 := rfl
  have e1 : axisRay 1 = 1 / 2 := rfl
  have e2 : axisRay 2 = 1 / 2 := rfl
  have e3 : axisRay 3 = 1 := rfl
  have e4 : axisRay 4 = 0 := rfl
  simp only [ray, random, e0, e1, e2, e3, e4]
  norm_num
  ring

theorem on_sphere {R : ℝ} (hR : 0 < R) (p v : V3 ℝ) : ∃ ts, intersect (1 / 1000) (1 / 1000) (.sphere R) p v = .ok ts ∧
    ∀ t ∈ ts, |(at' p v t).x * (at' p v t).x + (at' p v t).y * (at' p v t).y + (at' p v t).z * (at' p v t).z - R * R| ≤
      1 / 1000 := by
  obtain ⟨ts, hts⟩ := C29_total (1 / 1000) (1 / 1000) (.sphere R) (by simpa [WF] using hR) p v
  refine ⟨ts, hts, fun t ht => ?_⟩
  have := intersect_onborder (tol := 1 / 1000) (par := 1 / 1000) (by norm_num) (by norm_num) (.sphere R) (by simpa [WF] using hR)
    (by simp [ConeFree]) p v ts hts t ht
  simp only [locate, locSphere, Except.ok.injEq] at this
  split at this
  · cases this
  · split at this
    · cases this
    · rename_i h1 h2
      rw [abs_le]
      simp only [gt_iff_lt, not_lt] at h1 h2
      constructor <;> linarith

/-- **C84** is false: the check for overlapping constituents ignores where they are placed.  Two
spheres of radius 1, placed 10 apart, are reported. -/
theorem C84_alarm_false : ¬ ∀ (c : Comp (List Nat)) (tol par : ℝ) (us : Nat → Nat → List (Fin 5 → ℝ)), 0 < tol → 0 < par →
    (∀ e ∈ c.elems, WF e.shape ∧ Frames.IsOrtho e.rot) → Apart c.shapes → c.checkShapeOverlap tol par us = .ok () := by
  intro H
  have h1 := H (construct (.sphere 20) [pane 0 1 0, pane 1 1 10]) (1 / 1000) (1 / 1000) (fun _ _ => [axisRay])
    (by norm_num) (by norm_num) (by
      intro e he
      simp only [construct, List.mem_cons, List.not_mem_nil, or_false] at he
      rcases he with rfl | rfl <;> exact ⟨by norm_num [pane, WF], Frames.one_ortho⟩) (by
      have z : ∀ w q, Mem (.translation (.rotation (.sphere 1) M3.one) ⟨0, 0, w⟩) q → |q.z - w| ≤ 1 := by
        intro w q hq
        rw [mem_translation, mem_rotation Frames.one_ortho] at hq
        simp only [Mem, M3.one, M3.transpose, M3.mulVec, V3.sub_x, V3.sub_y, V3.sub_z] at hq
        rw [abs_le]
        constructor <;> nlinarith [mul_self_nonneg (q.x - 0), mul_self_nonneg (q.y - 0)]
      have far : ∀ q, Mem (.translation (.rotation (.sphere 1) M3.one) ⟨0, 0, 0⟩) q →
          Mem (.translation (.rotation (.sphere 1) M3.one) ⟨0, 0, 10⟩) q → False := by
        intro q ha hb
        have a := abs_le.1 (z _ q ha)
        have b := abs_le.1 (z _ q hb)
        linarith [a.2, b.1]
      intro i j hij s s' hs hs' q hq hq'
      match i, j with
      | 0, 0 => exact hij rfl
      | 0, 1 =>
        simp only [Comp.shapes, construct, List.map, List.getElem?_cons_zero, List.getElem?_cons_succ,
          Option.some.injEq] at hs hs'
        subst hs hs'
        exact far q hq hq'.self
      | 1, 0 =>
        simp only [Comp.shapes, construct, List.map, List.getElem?_cons_zero, List.getElem?_cons_succ,
          Option.some.injEq] at hs hs'
        subst hs hs'
        exact far q hq'.self hq
      | 1, 1 => exact hij rfl
      | i + 2, _ => simp [Comp.shapes, construct] at hs
      | _, j + 2 => simp [Comp.shapes, construct] at hs')
  have h2 := overlapOuter_ok _ 0 h1 0 1 (pane 0 1 0) (pane 1 1 10) ⟨0, 0, 0, 1 * 2, 1 * 2, 1 * 2⟩ (by norm_num) rfl rfl
    (by simp [pane, bbox])
  have h3 : hasOverlap (1 / 1000) (1 / 1000) (pane 0 1 0).shape (pane 1 1 10).shape ⟨0, 0, 0, 1 * 2, 1 * 2, 1 * 2⟩ [axisRay] =
      .ok true := by
    simp only [hasOverlap, ray_axis, pane, intersect, sphere_on_axis (show (0 : ℝ) ≤ 1 by norm_num), bind, Except.bind]
    norm_num [anyNotOutside, locate, locSphere, bind, Except.bind]
    simp
  rw [h3] at h2
  cases h2

/-- **C84** and two spheres at the same spot go unnoticed, whatever the random numbers, if one of
them gets there by its placement. -/
theorem C84_unnoticed_false : ¬ ∀ (c : Comp (List Nat)) (tol par : ℝ), 0 < tol → 0 < par →
    (∀ e ∈ c.elems, WF e.shape ∧ Frames.IsOrtho e.rot) →
    (∃ (i j : Nat) (s1 s2 : Shape), i < j ∧ c.shapes[i]? = some s1 ∧ c.shapes[j]? = some s2 ∧ ∀ q, Mem s1 q ↔ Mem s2 q) →
    ∃ us, c.checkShapeOverlap tol par us ≠ .ok () := by
  intro H
  obtain ⟨us, hus⟩ := H (construct (.sphere 20) [pane 0 1 0, offset]) (1 / 1000) (1 / 1000) (by norm_num) (by norm_num) (by
      intro e he
      simp only [construct, List.mem_cons, List.not_mem_nil, or_false] at he
      rcases he with rfl | rfl
      · exact ⟨by norm_num [pane, WF], Frames.one_ortho⟩
      · exact ⟨by norm_num [offset, WF], Frames.one_ortho⟩) (by
      refine ⟨0, 1, _, _, by norm_num, rfl, rfl, fun q => ?_⟩
      simp only [pane, offset]
      rw [mem_translation, mem_rotation Frames.one_ortho, mem_translation, mem_rotation Frames.one_ortho, mem_translation]
      have : (M3.one : M3 ℝ).transpose.mulVec (q - ⟨0, 0, -5⟩) - ⟨0, 0, 5⟩ =
          (M3.one : M3 ℝ).transpose.mulVec (q - ⟨0, 0, 0⟩) := by
        apply V3.ext <;> simp [M3.one, M3.transpose, M3.mulVec]
      rw [this])
  obtain ⟨m, n, e1, e2, b, hmn, he1, he2, hb, hov⟩ := overlapOuter_error _ (by
      intro e he
      simp only [construct, List.mem_cons, List.not_mem_nil, or_false] at he
      rcases he with rfl | rfl
      · norm_num [pane, WF]
      · norm_num [offset, WF]) (by
      intro e he
      simp only [construct, List.mem_cons, List.not_mem_nil, or_false] at he
      rcases he with rfl | rfl
      · exact ⟨_, by simp only [pane, bbox]; rfl⟩
      · exact ⟨_, by simp only [offset, bbox, bind, Except.bind]; rfl⟩) 0
    (fun s hs p v => C29_total _ _ s hs p v) (fun s hs p => locate_total _ s hs p) hus
  have hm : m = 0 ∧ n = 1 := by
    have h1 := (List.getElem?_eq_some_iff.1 he2).1
    simp only [construct, List.length_cons, List.length_nil] at h1
    omega
  obtain ⟨rfl, rfl⟩ := hm
  simp only [construct, List.getElem?_cons_zero, List.getElem?_cons_succ, Option.some.injEq] at he1 he2
  subst he1 he2
  rw [hasOverlap_false] at hov
  · cases hov
  · intro p v
    obtain ⟨ts, h1, h2⟩ := on_sphere (R := 1) (by norm_num) p v
    refine ⟨ts, h1, fun t ht => ?_⟩
    have h3 := (abs_le.1 (h2 t ht)).2
    obtain ⟨q, hq⟩ : ∃ q, q = at' p v t := ⟨_, rfl⟩
    rw [← hq] at h3 ⊢
    simp only [offset, locate, locSphere, V3.sub_x, V3.sub_y, V3.sub_z]
    rw [if_pos]
    simp only [gt_iff_lt]
    have hz : q.z ≤ 2 := by nlinarith [mul_self_nonneg q.x, mul_self_nonneg q.y]
    nlinarith [mul_self_nonneg q.x, mul_self_nonneg q.y]

/-- **C84** what remains: an overlap that is reported is one of the shapes in their own frames: there
are two constituents and a point that is on the border of the first one's shape and not outside of
the second one's, up to the tolerance of the locator. -/
theorem C84_reported_partial (c : Comp S) {tol par : ℝ} (h0 : 0 < tol) (hpar : 0 < par)
    (us : Nat → Nat → List (Fin 5 → ℝ)) (hw : ∀ e ∈ c.elems, WF e.shape ∧ ConeFree e.shape)
    (hb : ∀ e ∈ c.elems, ∃ b, bbox e.shape = .ok b) (h : c.checkShapeOverlap tol par us ≠ .ok ()) :
    ∃ (i j : Nat) (e1 e2 : Elem S) (q : V3 ℝ), i < j ∧ c.elems[i]? = some e1 ∧ c.elems[j]? = some e2 ∧
      locate tol e1.shape q = .ok .onborder ∧ locate tol e2.shape q ≠ .ok .outside := by
  obtain ⟨m, n, e1, e2, b, hmn, he1, he2, hb, hov⟩ := overlapOuter_error _ (fun e he => (hw e he).1) hb 0
    (fun s hs p v => C29_total _ _ s hs p v) (fun s hs p => locate_total _ s hs p) h
  obtain ⟨p, v, ts, hts, t, ht, l, hl, hloc⟩ := hasOverlap_true _ hov
  have h1 := hw e1 (List.mem_of_getElem? he1)
  refine ⟨m, n, e1, e2, at' p v t, hmn, he1, he2, intersect_onborder h0 hpar _ h1.1 h1.2 p v ts hts t ht, ?_⟩
  rw [hloc]
  simpa using hl

/-- hypotheses for the two panes -/
example : ∀ e ∈ two 1, (WF e.shape ∧ ConeFree e.shape) ∧ ∃ b, bbox e.shape = .ok b := by
  intro e he
  simp only [two, List.mem_cons, List.not_mem_nil, or_false] at he
  rcases he with rfl | rfl <;> exact ⟨by norm_num [pane, WF, ConeFree], _, by simp only [pane, bbox]; rfl⟩

/-! ### C85 the overlap check and nested shapes -/

/-- a sphere of radius 2 -/
noncomputable def bigPane : Elem (List Nat) := { pane 0 1 0 with shape := .sphere 2 }

/-- **C85** is false: a constituent that lies wholly inside of one that comes before it in the list
is never noticed, whatever the random numbers, even if all of them are at the origin. -/
theorem C85_nested_false : ¬ ∀ (c : Comp (List Nat)) (tol par : ℝ), 0 < tol → 0 < par →
    (∀ e ∈ c.elems, WF e.shape ∧ e.pos = 0 ∧ e.rot = M3.one) →
    (∃ (i j : Nat) (e1 e2 : Elem (List Nat)), i < j ∧ c.elems[i]? = some e1 ∧ c.elems[j]? = some e2 ∧
      (∃ q, Interior (Mem e2.shape) q) ∧ ∀ q, Mem e2.shape q → Mem e1.shape q) →
    ∃ us, c.checkShapeOverlap tol par us ≠ .ok () := by
  intro H
  have z0 : (⟨0, 0, 0⟩ : V3 ℝ) = 0 := rfl
  obtain ⟨us, hus⟩ := H (construct (.sphere 20) [bigPane, pane 1 1 0]) (1 / 1000) (1 / 1000) (by norm_num) (by norm_num) (by
      intro e he
      simp only [construct, List.mem_cons, List.not_mem_nil, or_false] at he
      rcases he with rfl | rfl
      · exact ⟨by norm_num [bigPane, WF], rfl, rfl⟩
      · exact ⟨by norm_num [pane, WF], rfl, rfl⟩) (by
      refine ⟨0, 1, _, _, by norm_num, rfl, rfl, ⟨⟨0, 0, 0⟩, ?_⟩, fun q hq => ?_⟩
      · exact (locate_sound (ret := 1 / 1000) (by norm_num) _ (by norm_num [pane, WF]) _).1
          (by norm_num [pane, locate, locSphere])
      · simp only [pane, bigPane, Mem] at hq ⊢
        nlinarith)
  obtain ⟨m, n, e1, e2, b, hmn, he1, he2, hb, hov⟩ := overlapOuter_error _ (by
      intro e he
      simp only [construct, List.mem_cons, List.not_mem_nil, or_false] at he
      rcases he with rfl | rfl
      · norm_num [bigPane, WF]
      · norm_num [pane, WF]) (by
      intro e he
      simp only [construct, List.mem_cons, List.not_mem_nil, or_false] at he
      rcases he with rfl | rfl
      · exact ⟨_, by simp only [bigPane, bbox]; rfl⟩
      · exact ⟨_, by simp only [pane, bbox]; rfl⟩) 0
    (fun s hs p v => C29_total _ _ s hs p v) (fun s hs p => locate_total _ s hs p) hus
  have hm : m = 0 ∧ n = 1 := by
    have h1 := (List.getElem?_eq_some_iff.1 he2).1
    simp only [construct, List.length_cons, List.length_nil] at h1
    omega
  obtain ⟨rfl, rfl⟩ := hm
  simp only [construct, List.getElem?_cons_zero, List.getElem?_cons_succ, Option.some.injEq] at he1 he2
  subst he1 he2
  rw [hasOverlap_false] at hov
  · cases hov
  · intro p v
    obtain ⟨ts, h1, h2⟩ := on_sphere (R := 2) (by norm_num) p v
    refine ⟨ts, h1, fun t ht => ?_⟩
    have h3 := (abs_le.1 (h2 t ht)).1
    simp only [pane, locate, locSphere]
    rw [if_pos]
    simp only [gt_iff_lt]
    linarith

/-- **C85** what remains: if one of the rays through a constituent's shape crosses its surface at a
point that is not outside of the shape of a constituent later in the list, the overlap is
reported. -/
theorem C85_crossing_partial (c : Comp S) {tol par : ℝ} (us : Nat → Nat → List (Fin 5 → ℝ))
    (hw : ∀ e ∈ c.elems, WF e.shape) (i j : Nat) (e1 e2 : Elem S) (hij : i < j) (he1 : c.elems[i]? = some e1)
    (he2 : c.elems[j]? = some e2) (b : BB) (hb : bbox e1.shape = .ok b) (u : Fin 5 → ℝ) (hu : u ∈ us i j)
    (ts : List ℝ) (t : ℝ) (hts : intersect tol par e1.shape (ray b u).1 (ray b u).2 = .ok ts) (ht : t ∈ ts)
    (hl : locate tol e2.shape (at' (ray b u).1 (ray b u).2 t) ≠ .ok .outside) :
    c.checkShapeOverlap tol par us ≠ .ok () := by
  intro h
  have h1 := overlapOuter_ok _ 0 h i j e1 e2 b hij he1 he2 hb
  rw [zero_add, zero_add, hasOverlap_of (fun p v => C29_total _ _ _ (hw e1 (List.mem_of_getElem? he1)) p v)
    (fun p => locate_total _ _ (hw e2 (List.mem_of_getElem? he2)) p) b _ hu hts ht hl] at h1
  cases h1

/-- hypotheses for two spheres at the same place and the ray along the axis -/
example : intersect (1 / 1000) (1 / 1000) (pane 0 1 0).shape (ray ⟨0, 0, 0, 1 * 2, 1 * 2, 1 * 2⟩ axisRay).1
      (ray ⟨0, 0, 0, 1 * 2, 1 * 2, 1 * 2⟩ axisRay).2 = .ok [-0 - 1, -0 + 1] ∧
    bbox (pane 0 1 0).shape = .ok ⟨0, 0, 0, 1 * 2, 1 * 2, 1 * 2⟩ ∧
    locate (1 / 1000) (pane 1 1 0).shape (at' ⟨0, 0, 0⟩ ⟨0, 0, 1⟩ 1) ≠ .ok .outside := by
  refine ⟨?_, by simp only [pane, bbox], ?_⟩
  · simp only [ray_axis, pane, intersect, sphere_on_axis (show (0 : ℝ) ≤ 1 by norm_num)]
  · norm_num [pane, locate, locSphere, at_x, at_y, at_z]
    simp

/-! ### C86 two constituents in line -/

/-- the constituent lets every neutron through on its line, with a positive probability, and its
call is recorded -/
def Transparent (i : Nat) (e : Elem (List Nat)) : Prop :=
  ∀ s ev s' new it, e.interactM s ev = .ok (s', new, it) → s' = s ++ [i] ∧
    ∃ n τ q, new = [n] ∧ 0 ≤ τ ∧ FliesFor ev { n with p := ev.p } τ ∧ 0 < q ∧ n.p = ev.p * q

/-- **C86** is false: with the loop limits that the constructor sets, a neutron that goes through one
constituent cannot be scattered by the next one on its path; it is moved to the surface of the
composite. -/
theorem C86_second_false : ¬ ∀ (shape : Shape) (elems : List (Elem (List Nat))) (tol par : ℝ) (ev : Ev) (s' : List Nat)
    (out : List Ev), 0 < tol → 0 < par → 0 < ev.p →
    (∀ i e, elems[i]? = some e → WF e.shape ∧ Frames.IsOrtho e.rot ∧ Transparent i e) →
    (construct shape elems).scatterM tol par [] ev = .ok (s', out) →
    ∀ i e, elems[i]? = some e → Traverses e.shape (e.toLocal ev) → i ∈ s' := by
  intro H
  have ht : ∀ i z, Transparent i (pane i (1 / 2) z) := by
    intro i z s ev s' new it h
    obtain ⟨ev', h2, h⟩ := bind_ok.1 h
    cases h
    obtain ⟨τ, h0, hf⟩ := toExit_flies h2
    have hp : ev'.p = ev.p := hf.2.2.2.2.2
    refine ⟨rfl, _, τ, 1 / 2, rfl, h0, ?_, by norm_num, ?_⟩
    · simpa [FliesFor, hp] using hf
    · simp only [hp]
  have h1 := H (.sphere 20) (two (1 / 2)) (1 / 1000) (1 / 1000) (onAxis (-5) 0 1) [0] [onAxis 20 25 (1 / 8)]
    (by norm_num) (by norm_num) (by norm_num [onAxis]) (by
      intro i e he
      have := two_wf _ e (List.mem_of_getElem? he)
      refine ⟨this.1, this.2, ?_⟩
      match i with
      | 0 =>
        simp only [two, List.getElem?_cons_zero, Option.some.injEq] at he
        subst he; exact ht 0 0
      | 1 =>
        simp only [two, List.getElem?_cons_zero, List.getElem?_cons_succ, Option.some.injEq] at he
        subst he; exact ht 1 5
      | i + 2 => simp [two] at he) run_two 1 (pane 1 (1 / 2) 5) rfl (by
      rw [toLocal_pane]
      refine ⟨10, by norm_num, (locate_sound (ret := 1 / 1000) (by norm_num) _ (by norm_num [pane, WF]) _).1 ?_⟩
      norm_num [pane, locate, locSphere, at_x, at_y, at_z, onAxis])
  simp at h1

/-- **C86** what remains: the constituent that is hit first is always called. -/
theorem C86_first_partial (c : Comp S) (tol par : ℝ) (ha : 1 ≤ c.maxAmong) (hp : 1 ≤ c.maxPath) (s s' : S) (ev : Ev)
    (out : List Ev) (hlow : ¬ (0 ≤ ev.p ∧ ev.p < c.minP)) (hm : 1 / 1000000 < √(ev.v.dot ev.v))
    (hin : locate tol c.shape ev.r = .ok .inside) (i : Nat) (e : Elem S)
    (hh : find1stHit tol par c.shapes ev.r ev.v = .ok (some i)) (he : c.elems[i]? = some e) (I : S → Prop)
    (hI : ∀ s1 new it, e.interactM s (e.toLocal ev) = .ok (s1, new, it) → I s1)
    (hk : ∀ e ∈ c.elems, ∀ s ev s' new it, I s → e.interactM s ev = .ok (s', new, it) → I s')
    (h : c.scatterM tol par s ev = .ok (s', out)) : I s' := by
  have hmov : isMoving ev = true := by
    simp only [isMoving, length, V3.length2, decide_eq_true_eq, gt_iff_lt]; exact hm
  refine first_called (κ := 1) (I := I) ?_ ha hp hlow hmov hin hh he hI h
  exact
    { one_le := le_rfl, nonneg := by simp, less := by simp, att_one := trivial, att_mul := by simp
      att := by simp, hits := by simp
      calls := fun e he s ev s' new i hs _ _ _ h => ⟨hk e he s ev s' new i hs h, by simp, by simp [sumW]⟩ }

/-- the hypotheses hold for the two panes, with the property that the first one was called -/
example : let c := construct (.sphere 20) (two (1 / 2))
    ¬ (0 ≤ (onAxis (-5) 0 1).p ∧ (onAxis (-5) 0 1).p < c.minP) ∧
    1 / 1000000 < √((onAxis (-5) 0 1).v.dot (onAxis (-5) 0 1).v) ∧
    locate (1 / 1000) c.shape (onAxis (-5) 0 1).r = .ok .inside ∧
    find1stHit (1 / 1000) (1 / 1000) c.shapes (onAxis (-5) 0 1).r (onAxis (-5) 0 1).v = .ok (some 0) ∧
    (∀ e ∈ c.elems, ∀ s ev s' new it, 0 ∈ s → e.interactM s ev = .ok (s', new, it) → 0 ∈ s') := by
  refine ⟨by norm_num [construct, onAxis], by norm_num [onAxis, V3.dot], locate_big _ _ _ (by norm_num), hit_two _ _ _, ?_⟩
  intro e he s ev s' new it hs h
  simp only [construct, two, List.mem_cons, List.not_mem_nil, or_false] at he
  rcases he with rfl | rfl
  all_goals
    obtain ⟨ev', h2, h⟩ := bind_ok.1 h
    cases h
    exact List.mem_append_left _ hs

end Verif.Composite
