import Verif.Spec.CKernel
import Verif.Lemmas.Homog
import Mathlib.Algebra.BigOperators.Intervals
/-!
Lemmas for the composite kernel.
-/

namespace Verif.CKernel
open Flight Homog MeasureTheory

variable {S : Type}

theorem getD_get {l : List ℝ} {j : Nat} (h : j < l.length) : l.getD j 0 = l[j] := by
  rw [List.getD_eq_getElem?_getD, List.getElem?_eq_getElem h]; rfl

/-- expectation of a value attached to the selected index, `i` being the index of the head -/
noncomputable def expect (A : Option Nat → ℝ) : Nat → List ℝ → ℝ
  | _, [] => 0
  | i, w :: ws => w * A (some i) + expect A (i + 1) ws

theorem selectLoop_eq {x : ℝ} : ∀ (ws : List ℝ) (i : Nat) (t : ℝ), x < t → (∀ w ∈ ws, 0 ≤ w) → ws ≠ [] →
    selectLoop x i t ws = some i
  | [], _, _, _, _, h => absurd rfl h
  | w :: ws, i, t, hx, hw, _ => by
    have := hw w (by simp)
    unfold selectLoop
    rw [if_pos (by linarith)]

theorem piece {f : ℝ → ℝ} {x y c : ℝ} (hxy : x ≤ y) (hf : ∀ u, x < u → u < y → f u = c) :
    IntervalIntegrable f volume x y ∧ ∫ u in x..y, f u = (y - x) * c := by
  have hae : (fun _ : ℝ => c) =ᵐ[volume.restrict (Set.uIoc x y)] f := by
    rw [Set.uIoc_of_le hxy, ← restrict_Ioo_eq_restrict_Ioc]
    filter_upwards [ae_restrict_mem measurableSet_Ioo] with u hu
    exact (hf u hu.1 hu.2).symm
  constructor
  · exact (intervalIntegrable_const (c := c)).congr_ae hae
  · have : ∫ u in x..y, f u = ∫ _u in x..y, c := by
      apply intervalIntegral.integral_congr_ae_restrict
      exact hae.symm
    rw [this, intervalIntegral.integral_const, smul_eq_mul]

theorem loop_integral (A : Option Nat → ℝ) : ∀ (ws : List ℝ) (i : Nat) (t : ℝ), (∀ w ∈ ws, 0 ≤ w) →
    IntervalIntegrable (fun x => A (selectLoop x i t ws)) volume t (t + ws.sum) ∧
    ∫ x in t..(t + ws.sum), A (selectLoop x i t ws) = expect A i ws
  | [], i, t, _ => by simp [expect]
  | w :: ws, i, t, hw => by
    have hw0 : 0 ≤ w := hw w (by simp)
    have hws : ∀ w ∈ ws, 0 ≤ w := fun v hv => hw v (by simp [hv])
    have hs : 0 ≤ ws.sum := List.sum_nonneg hws
    obtain ⟨i1, e1⟩ := piece (f := fun x => A (selectLoop x i t (w :: ws))) (x := t) (y := t + w)
      (c := A (some i)) (by linarith) (fun u _ hu => by simp only [selectLoop]; rw [if_pos hu])
    obtain ⟨i2, e2⟩ := loop_integral A ws (i + 1) (t + w) hws
    have hae : (fun x => A (selectLoop x (i + 1) (t + w) ws)) =ᵐ[volume.restrict
        (Set.uIoc (t + w) (t + w + ws.sum))] fun x => A (selectLoop x i t (w :: ws)) := by
      rw [Set.uIoc_of_le (by linarith), ← restrict_Ioo_eq_restrict_Ioc]
      filter_upwards [ae_restrict_mem measurableSet_Ioo] with u hu
      simp only [selectLoop]
      rw [if_neg (by linarith [hu.1])]
    have i3 := i2.congr_ae hae
    have e3 := intervalIntegral.integral_congr_ae_restrict hae
    rw [List.sum_cons, ← add_assoc]
    refine ⟨i1.trans i3, ?_⟩
    rw [← intervalIntegral.integral_add_adjacent_intervals i1 i3, e1, ← e3, e2, expect]
    ring

theorem expect_getElem (A : Option Nat → ℝ) : ∀ (ws : List ℝ) (i : Nat),
    expect A i ws = ∑ j ∈ Finset.range ws.length, ws.getD j 0 * A (some (i + j))
  | [], i => by simp [expect]
  | w :: ws, i => by
    rw [expect, expect_getElem A ws, List.length_cons, Finset.sum_range_succ']
    simp only [List.getD_cons_succ, List.getD_cons_zero, add_zero]
    rw [add_comm]
    congr 1
    refine Finset.sum_congr rfl fun j _ => ?_
    rw [show i + 1 + j = i + (j + 1) by omega]

theorem selectLoop_some {x : ℝ} : ∀ (ws : List ℝ) (i : Nat) (t : ℝ) (j : Nat), t ≤ x →
    selectLoop x i t ws = some j → ∃ k w, j = i + k ∧ ws[k]? = some w ∧ 0 < w
  | [], _, _, _, _, h => by simp [selectLoop] at h
  | w :: ws, i, t, j, ht, h => by
    unfold selectLoop at h
    split at h
    · next hx =>
      simp only [Option.some.injEq] at h
      exact ⟨0, w, by omega, rfl, by linarith⟩
    · next hx =>
      obtain ⟨k, v, h1, h2, h3⟩ := selectLoop_some ws (i + 1) (t + w) j (by linarith) h
      exact ⟨k + 1, v, by omega, h2, h3⟩

theorem selectLoop_lt {x : ℝ} : ∀ (ws : List ℝ) (i : Nat) (t : ℝ) (j : Nat),
    selectLoop x i t ws = some j → j < i + ws.length
  | [], _, _, _, h => by simp [selectLoop] at h
  | w :: ws, i, t, j, h => by
    unfold selectLoop at h
    split at h
    · simp only [Option.some.injEq] at h
      subst h
      simp
    · have := selectLoop_lt ws (i + 1) (t + w) j h
      simp only [List.length_cons]; omega

theorem selectLoop_none {x : ℝ} : ∀ (ws : List ℝ) (i : Nat) (t : ℝ), selectLoop x i t ws = none →
    t ≤ x → t + ws.sum ≤ x
  | [], _, _, _, h => by simpa using h
  | w :: ws, i, t, h, ht => by
    unfold selectLoop at h
    split at h
    · simp at h
    · next hx =>
      have := selectLoop_none ws (i + 1) (t + w) h (by linarith)
      rw [List.sum_cons]; linarith

theorem foldl_add (g : α → ℝ) : ∀ (l : List α) (a : ℝ), l.foldl (fun r k => r + g k) a = a + (l.map g).sum
  | [], a => by simp
  | k :: l, a => by
    rw [List.foldl_cons, foldl_add g l, List.map_cons, List.sum_cons]; ring

theorem findTotal_ok : ∀ (ks : List (Kern S)) (i n : Nat) (ind r : Option Nat), n ≤ 1 →
    findTotal i n ind ks = .ok r → n + (ks.filter (·.total)).length ≤ 1 ∧
      ((ks.filter (·.total)).length = 0 → r = ind) ∧
      (∀ j k, ks[j]? = some k → k.total = true → r = some (i + j))
  | [], i, n, ind, r, hn, h => by
    simp only [findTotal, Except.ok.injEq] at h
    simp [hn, h]
  | k :: ks, i, n, ind, r, hn, h => by
    unfold findTotal at h
    simp only at h
    by_cases hk : k.total = true
    · rw [if_pos hk, if_pos hk] at h
      split at h
      · simp at h
      · next hle =>
        obtain ⟨h1, h2, h3⟩ := findTotal_ok ks (i + 1) (n + 1) (some i) r (by omega) h
        rw [List.filter_cons_of_pos (by simpa using hk), List.length_cons]
        refine ⟨by omega, by omega, ?_⟩
        intro j k' hj hk'
        cases j with
        | zero => exact h2 (by omega)
        | succ j =>
          rw [List.getElem?_cons_succ] at hj
          rw [h3 j k' hj hk']
          congr 1; omega
    · rw [if_neg hk, if_neg hk] at h
      split at h
      · simp at h
      · obtain ⟨h1, h2, h3⟩ := findTotal_ok ks (i + 1) n ind r hn h
        rw [List.filter_cons_of_neg (by simpa using hk)]
        refine ⟨h1, h2, ?_⟩
        intro j k' hj hk'
        cases j with
        | zero =>
          simp only [List.getElem?_cons_zero, Option.some.injEq] at hj
          subst hj
          exact absurd hk' hk
        | succ j =>
          rw [List.getElem?_cons_succ] at hj
          rw [h3 j k' hj hk']
          congr 1; omega

theorem findTotal_exists : ∀ (ks : List (Kern S)) (i n : Nat) (ind : Option Nat),
    n + (ks.filter (·.total)).length ≤ 1 → ∃ r, findTotal i n ind ks = .ok r
  | [], i, n, ind, _ => ⟨ind, rfl⟩
  | k :: ks, i, n, ind, h => by
    unfold findTotal
    by_cases hk : k.total = true
    · rw [List.filter_cons_of_pos (by simpa using hk), List.length_cons] at h
      simp only [hk, if_true]
      rw [if_neg (by omega)]
      exact findTotal_exists ks (i + 1) (n + 1) _ (by omega)
    · rw [List.filter_cons_of_neg (by simpa using hk)] at h
      simp only [if_neg hk]
      rw [if_neg (by omega)]
      exact findTotal_exists ks (i + 1) n _ h

/-- what the constructor makes -/
theorem construct_ok {ks : List (Kern S)} {ws : List ℝ} {rots : List (M3 ℝ)} {avg : Bool} {c : CK S}
    (h : construct ks ws rots avg = .ok c) :
    ks.length = ws.length ∧ rots.length = ws.length ∧ c.kernels = ks ∧ c.average = avg ∧
    c.weights = ws.map (· / ws.sum) ∧ c.rots = rots ∧ findTotal 0 0 none ks = .ok c.totalInd := by
  unfold construct at h
  split at h
  · simp at h
  · next h1 =>
    split at h
    · simp at h
    · next h2 =>
      cases hf : findTotal 0 0 none ks with
      | error e => rw [hf] at h; simp [bind, Except.bind] at h
      | ok r =>
        rw [hf] at h
        simp only [bind, Except.bind, Except.ok.injEq] at h
        have hsum : ws.foldl (· + ·) 0 = ws.sum := by
          rw [foldl_add (fun x => x) ws 0]; simp
        rw [hsum] at h
        subst h
        exact ⟨not_not.1 h1, not_not.1 h2, rfl, rfl, rfl, rfl, rfl⟩

theorem sum_map_div (ws : List ℝ) (a : ℝ) : (ws.map (· / a)).sum = ws.sum / a := by
  induction ws with
  | nil => simp
  | cons w ws ih => rw [List.map_cons, List.sum_cons, List.sum_cons, ih]; ring

/-- expectation over the random number that selects the kernel -/
theorem mean_select {ks : List (Kern S)} {ws : List ℝ} {rots : List (M3 ℝ)} {avg : Bool} {c : CK S}
    (h : construct ks ws rots avg = .ok c) (hw : ∀ w ∈ ws, 0 ≤ w) (hs : 0 < ws.sum) (A : Nat → ℝ) :
    mean (fun x => A (c.select x)) = ∑ j ∈ Finset.range ws.length, ws.getD j 0 / ws.sum * A j := by
  obtain ⟨hl, _, hk, _, hwt, _, _⟩ := construct_ok h
  have hsum : c.weights.sum = 1 := by rw [hwt, sum_map_div, div_self hs.ne']
  have hnn : ∀ w ∈ c.weights, 0 ≤ w := by
    rw [hwt]; intro w hm
    obtain ⟨v, hv, rfl⟩ := List.mem_map.1 hm
    exact div_nonneg (hw v hv) hs.le
  by_cases h1 : ks.length = 1
  · have hsel : ∀ x, c.select x = 0 := by intro x; simp [CK.select, hk, h1]
    obtain ⟨w, rfl⟩ := List.length_eq_one_iff.1 (hl ▸ h1)
    simp only [List.sum_cons, List.sum_nil, add_zero] at hs
    simp [hsel, mean, hs.ne']
  · set B : Option Nat → ℝ := fun o => match o with | some i => A i | none => A (ks.length - 1) with hB
    have hsel : ∀ x, A (c.select x) = B (selectLoop x 0 0 c.weights) := by
      intro x
      unfold CK.select
      rw [hk]
      simp only [if_neg h1]
      cases selectLoop x 0 0 c.weights <;> rfl
    have := (loop_integral B c.weights 0 0 hnn).2
    rw [hsum, zero_add] at this
    unfold mean
    simp only [hsel]
    rw [this, expect_getElem, hwt, List.length_map]
    refine Finset.sum_congr rfl fun j hj => ?_
    rw [Finset.mem_range] at hj
    rw [getD_get (by simpa using hj), getD_get hj, List.getElem_map, zero_add]

theorem select_lt {ks : List (Kern S)} {ws : List ℝ} {rots : List (M3 ℝ)} {avg : Bool} {c : CK S}
    (h : construct ks ws rots avg = .ok c) (hne : ks ≠ []) (x : ℝ) : c.select x < ks.length := by
  obtain ⟨hl, _, hk, _, hwt, _, _⟩ := construct_ok h
  have hpos : 0 < ks.length := List.length_pos_iff.2 hne
  unfold CK.select
  rw [hk]
  simp only
  split
  · omega
  · cases hq : selectLoop x 0 0 c.weights with
    | none => simp only; omega
    | some i =>
      have := selectLoop_lt _ _ _ _ hq
      rw [hwt, List.length_map] at this
      simp only; omega

theorem select_pos {ks : List (Kern S)} {ws : List ℝ} {rots : List (M3 ℝ)} {avg : Bool} {c : CK S}
    (h : construct ks ws rots avg = .ok c) (hs : 0 < ws.sum) {x : ℝ}
    (h0 : 0 ≤ x) (h1 : x < 1) : ∃ w, ws[c.select x]? = some w ∧ 0 < w := by
  obtain ⟨hl, _, hk, _, hwt, _, _⟩ := construct_ok h
  unfold CK.select
  rw [hk]
  simp only
  split
  · next hone =>
    obtain ⟨w, rfl⟩ := List.length_eq_one_iff.1 (hl ▸ hone)
    simp only [List.sum_cons, List.sum_nil, add_zero] at hs
    exact ⟨w, rfl, hs⟩
  · cases hq : selectLoop x 0 0 c.weights with
    | none =>
      have := selectLoop_none _ _ _ hq h0
      rw [hwt, sum_map_div, div_self hs.ne'] at this
      linarith
    | some i =>
      obtain ⟨k, w, e1, e2, e3⟩ := selectLoop_some _ _ _ _ h0 hq
      rw [zero_add] at e1
      subst e1
      rw [hwt, List.getElem?_map, Option.map_eq_some_iff] at e2
      obtain ⟨v, hv, rfl⟩ := e2
      exact ⟨v, hv, by rwa [div_pos_iff_of_pos_right hs] at e3⟩

/-- what happens for a random number -/
theorem run_eq {ks : List (Kern S)} {ws : List ℝ} {rots : List (M3 ℝ)} {avg : Bool} {c : CK S}
    (h : construct ks ws rots avg = .ok c) (f : Kern S → S → Ev → Except Err (S × Ev)) (x : ℝ) (s : S) (ev : Ev)
    {k : Kern S} {w : ℝ} {m : M3 ℝ} (hk : ks[c.select x]? = some k) (hw : ws[c.select x]? = some w)
    (hm : rots[c.select x]? = some m) :
    c.run f x s ev = alone f k m s { ev with p := ev.p / (w / ws.sum) } := by
  obtain ⟨_, _, e1, _, e2, e3, _⟩ := construct_ok h
  have hw' : c.weights[c.select x]? = some (w / ws.sum) := by rw [e2, List.getElem?_map, hw]; rfl
  unfold CK.run
  simp only [e1, e3, hk, hm, hw']
  unfold alone toSub toHost
  simp only
  cases f k s { ev with v := m.transpose.mulVec ev.v, p := ev.p / (w / ws.sum) } <;> rfl

theorem value_alone_scale {f : Kern S → S → Ev → Except Err (S × Ev)} {k : Kern S} (hf : WeightLinear (f k))
    (m : M3 ℝ) (s : S) (ev : Ev) (a : ℝ) (G : Obs) :
    value G (alone f k m s { ev with p := a * ev.p }) = a * value G (alone f k m s ev) := by
  have := hf s { ev with v := m.transpose.mulVec ev.v } a
  simp only [alone] at *
  rw [this]
  cases f k s { ev with v := m.transpose.mulVec ev.v } with
  | error e => simp [Except.map, value, score]
  | ok o => simp only [Except.map, value, score]; ring

theorem mean_run {ks : List (Kern S)} {ws : List ℝ} {rots : List (M3 ℝ)} {avg : Bool} {c : CK S}
    (h : construct ks ws rots avg = .ok c) (hw : ∀ w ∈ ws, 0 < w) (hne : ks ≠ [])
    (f : Kern S → S → Ev → Except Err (S × Ev)) (V : Except Err (S × Ev) → ℝ) (s : S) (ev : Ev)
    (hlin : ∀ k ∈ ks, ∀ m, ∀ w > 0, V (alone f k m s { ev with p := ev.p / w }) = V (alone f k m s ev) / w) :
    mean (fun x => V (c.run f x s ev)) =
      ((ks.zip rots).map fun km => V (alone f km.1 km.2 s ev)).sum := by
  obtain ⟨hl, hl', e1, _, e2, e3, _⟩ := construct_ok h
  have hpos : 0 < ws.length := by rw [← hl]; exact List.length_pos_iff.2 hne
  have hs : 0 < ws.sum := List.sum_pos _ hw (List.length_pos_iff.1 hpos)
  set A : Nat → ℝ := fun i => match ks[i]?, ws[i]?, rots[i]? with
    | some k, some w, some m => V (alone f k m s ev) / (w / ws.sum)
    | _, _, _ => 0 with hA
  have hsel : (fun x => V (c.run f x s ev)) = fun x => A (c.select x) := by
    funext x
    have hlt := select_lt h hne x
    have a1 : ks[c.select x]? = some ks[c.select x] := List.getElem?_eq_getElem hlt
    have a2 : ws[c.select x]? = some (ws[c.select x]'(by omega)) := List.getElem?_eq_getElem _
    have a3 : rots[c.select x]? = some (rots[c.select x]'(by omega)) := List.getElem?_eq_getElem _
    rw [run_eq h f x s ev a1 a2 a3, hlin _ (List.getElem_mem _) _ _ (div_pos (hw _ (List.getElem_mem _)) hs)]
    simp only [hA, a1, a2, a3]
  rw [hsel, mean_select h (fun w m => (hw w m).le) hs]
  have key : ∀ j ∈ Finset.range ws.length, ws.getD j 0 / ws.sum * A j =
      ((ks.zip rots).map fun km => V (alone f km.1 km.2 s ev)).getD j 0 := by
    intro j hj
    rw [Finset.mem_range] at hj
    have a1 : ks[j]? = some (ks[j]'(by omega)) := List.getElem?_eq_getElem _
    have a2 : ws[j]? = some ws[j] := List.getElem?_eq_getElem _
    have a3 : rots[j]? = some (rots[j]'(by omega)) := List.getElem?_eq_getElem _
    rw [getD_get hj, getD_get (by simp; omega)]
    simp only [hA, a1, a2, a3, List.getElem_map, List.getElem_zip]
    have := hw _ (List.getElem_mem hj)
    field_simp
  rw [Finset.sum_congr rfl key]
  have : ((ks.zip rots).map fun km => V (alone f km.1 km.2 s ev)).length = ws.length := by
    simp; omega
  rw [← this]
  generalize ((ks.zip rots).map fun km => V (alone f km.1 km.2 s ev)) = l
  induction l with
  | nil => simp
  | cons a l ih =>
    rw [List.length_cons, Finset.sum_range_succ', List.sum_cons]
    simp only [List.getD_cons_succ, List.getD_cons_zero]
    rw [ih, add_comm]

end Verif.CKernel
