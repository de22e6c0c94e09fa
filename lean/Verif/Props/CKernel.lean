import Verif.Lemmas.CKernel
import Mathlib.Tactic.NormNum
/-!
Property theorems about the composite kernel: C35, C87, C88, C89, C90.
-/

namespace Verif.CKernel
open Flight Homog

variable {S : Type}

/-! ### C35 random selection of a kernel -/

/-- **C35** A composite kernel can be made exactly if the three lists match and at most one of the
kernels is one of total scattering. -/
theorem C35_construct (ks : List (Kern S)) (ws : List ℝ) (rots : List (M3 ℝ)) (avg : Bool) :
    (∃ c, construct ks ws rots avg = .ok c) ↔
      ks.length = ws.length ∧ rots.length = ws.length ∧ (ks.filter (·.total)).length ≤ 1 := by
  constructor
  · rintro ⟨c, h⟩
    obtain ⟨h1, h2, _, _, _, _, h3⟩ := construct_ok h
    exact ⟨h1, h2, by have := (findTotal_ok ks 0 0 none _ (by omega) h3).1; omega⟩
  · rintro ⟨h1, h2, h3⟩
    obtain ⟨r, hr⟩ := findTotal_exists ks 0 0 none (by omega)
    unfold construct
    rw [if_neg (not_not.2 h1), if_neg (not_not.2 h2), hr]
    exact ⟨_, rfl⟩

/-- **C35** Each kernel is selected with the frequency of its weight among the weights. -/
theorem C35_frequency (ks : List (Kern S)) (ws : List ℝ) (rots : List (M3 ℝ)) (avg : Bool) (c : CK S)
    (h : construct ks ws rots avg = .ok c) (hw : ∀ w ∈ ws, 0 ≤ w) (hs : 0 < ws.sum)
    (i : Nat) (w : ℝ) (hi : ws[i]? = some w) : frequency c i = w / ws.sum := by
  obtain ⟨hlt, hiw⟩ := List.getElem?_eq_some_iff.1 hi
  rw [frequency, mean_select h hw hs (fun j => if j = i then 1 else 0)]
  simp only [mul_ite, mul_one, mul_zero, Finset.sum_ite_eq', Finset.mem_range, hlt, if_true]
  rw [getD_get hlt, hiw]

/-- **C35** Whatever the random number, the neutron is handled by one of the kernels, in the frame of
that kernel, its probability divided by the frequency of the selection; a kernel of weight 0 is not
selected by a random number below 1. -/
theorem C35_selected (ks : List (Kern S)) (ws : List ℝ) (rots : List (M3 ℝ)) (avg : Bool) (c : CK S)
    (h : construct ks ws rots avg = .ok c) (hne : ks ≠ []) (x : ℝ) (s : S) (ev : Ev) :
    ∃ (i : Nat) (k : Kern S) (m : M3 ℝ) (w : ℝ), ks[i]? = some k ∧ rots[i]? = some m ∧ ws[i]? = some w ∧
      c.scatter x s ev = alone Kern.scatter k m s { ev with p := ev.p / (w / ws.sum) } ∧
      c.absorb x s ev = alone Kern.absorb k m s { ev with p := ev.p / (w / ws.sum) } ∧
      (0 ≤ x → x < 1 → 0 < ws.sum → 0 < w) := by
  obtain ⟨hl, hl', _⟩ := construct_ok h
  have hlt := select_lt h hne x
  have a1 : ks[c.select x]? = some ks[c.select x] := List.getElem?_eq_getElem hlt
  have a2 : ws[c.select x]? = some (ws[c.select x]'(by omega)) := List.getElem?_eq_getElem _
  have a3 : rots[c.select x]? = some (rots[c.select x]'(by omega)) := List.getElem?_eq_getElem _
  refine ⟨_, _, _, _, a1, a3, a2, run_eq h _ x s ev a1 a2 a3, run_eq h _ x s ev a1 a2 a3, ?_⟩
  intro h0 h1 hs
  obtain ⟨w, e1, e2⟩ := select_pos h hs h0 h1
  rw [a2, Option.some.injEq] at e1
  exact e1 ▸ e2

/-- **C35** The expected value of any observable after scattering is the sum of the values after
scattering by each of the kernels alone: it does not depend on the weights. -/
theorem C35_scatter (ks : List (Kern S)) (ws : List ℝ) (rots : List (M3 ℝ)) (avg : Bool) (c : CK S)
    (h : construct ks ws rots avg = .ok c) (hne : ks ≠ []) (hw : ∀ w ∈ ws, 0 < w)
    (hk : ∀ k ∈ ks, WeightLinear k.scatter) (s : S) (ev : Ev) (G : Obs) :
    mean (fun x => value G (c.scatter x s ev)) =
      ((ks.zip rots).map fun km => value G (alone Kern.scatter km.1 km.2 s ev)).sum := by
  refine mean_run h hw hne Kern.scatter (value G) s ev fun k hm m w hw => ?_
  have := value_alone_scale (f := Kern.scatter) (hk k hm) m s ev (1 / w) G
  rw [show ev.p / w = 1 / w * ev.p by ring, this]
  ring

/-- **C35** The same for absorption. -/
theorem C35_absorb (ks : List (Kern S)) (ws : List ℝ) (rots : List (M3 ℝ)) (avg : Bool) (c : CK S)
    (h : construct ks ws rots avg = .ok c) (hne : ks ≠ []) (hw : ∀ w ∈ ws, 0 < w)
    (hk : ∀ k ∈ ks, WeightLinear k.absorb) (s : S) (ev : Ev) (G : Obs) :
    mean (fun x => value G (c.absorb x s ev)) =
      ((ks.zip rots).map fun km => value G (alone Kern.absorb km.1 km.2 s ev)).sum := by
  refine mean_run h hw hne Kern.absorb (value G) s ev fun k hm m w hw => ?_
  have := value_alone_scale (f := Kern.absorb) (hk k hm) m s ev (1 / w) G
  rw [show ev.p / w = 1 / w * ev.p by ring, this]
  ring

/-- a kernel with constant scattering coefficient `a` and absorption coefficient `b` that reverses the
velocity -/
noncomputable def mirror (a b : ℝ) (tot : Bool) : Kern Unit :=
  { mu := fun _ => b, sigma := fun _ => a, total := tot,
    scatter := fun s ev => .ok (s, { ev with v := -ev.v, p := ev.p * a }),
    absorb := fun s ev => .ok (s, { ev with p := ev.p * b }) }

theorem mirror_linear (a b : ℝ) (t : Bool) : WeightLinear (mirror a b t).scatter := by
  intro s ev c
  simp only [mirror, Except.map]
  rw [mul_assoc]

theorem mirror_honest (a b : ℝ) (t : Bool) : Honest (mirror a b t) :=
  ⟨fun _ _ => ⟨_, _, rfl, rfl⟩, fun _ _ _ => rfl⟩

/-- two mirrors with weights 1 and 3, the second one turned about the z axis -/
noncomputable def twoMirrors (avg t : Bool) : Except Err (CK Unit) :=
  construct [mirror 2 1 t, mirror 5 1 false] [1, 3] [M3.one, ⟨⟨0, -1, 0⟩, ⟨1, 0, 0⟩, ⟨0, 0, 1⟩⟩] avg

example : ∃ c, twoMirrors false false = .ok c ∧ frequency c 1 = 3 / 4 := by
  obtain ⟨c, hc⟩ := (C35_construct [mirror 2 1 false, mirror 5 1 false] [1, 3]
    [M3.one, ⟨⟨0, -1, 0⟩, ⟨1, 0, 0⟩, ⟨0, 0, 1⟩⟩] false).2 (by simp [mirror])
  refine ⟨c, hc, ?_⟩
  rw [C35_frequency _ _ _ _ c hc (by norm_num) (by norm_num) 1 3 rfl]
  norm_num

/-- the expected intensity after scattering by the two mirrors is 2 + 5 = 7 times the one before -/
example (ev : Ev) : ∃ c, twoMirrors false false = .ok c ∧
    mean (fun x => value (fun _ _ _ => 1) (c.scatter x () ev)) = 7 * ev.p := by
  obtain ⟨c, hc⟩ := (C35_construct [mirror 2 1 false, mirror 5 1 false] [1, 3]
    [M3.one, ⟨⟨0, -1, 0⟩, ⟨1, 0, 0⟩, ⟨0, 0, 1⟩⟩] false).2 (by simp [mirror])
  refine ⟨c, hc, ?_⟩
  rw [C35_scatter _ _ _ _ c hc (by simp) (by norm_num)
    (by intro k hk; simp only [List.mem_cons, List.not_mem_nil, or_false] at hk
        rcases hk with rfl | rfl <;> exact mirror_linear _ _ _)]
  simp [value, alone, mirror, score, Except.map]
  ring

example : ¬ ∃ c, construct [mirror 2 1 true, mirror 5 1 true] [1, 3] [M3.one, M3.one] false = .ok c := by
  rw [C35_construct]; simp [mirror]

/-- **C35** The scattering coefficient is the sum of those of the kernels, their mean if requested, or
that of the one kernel of total scattering. -/
theorem C35_coefficient (ks : List (Kern S)) (ws : List ℝ) (rots : List (M3 ℝ)) (avg : Bool) (c : CK S)
    (h : construct ks ws rots avg = .ok c) (ev : Ev) :
    ((∀ k ∈ ks, k.total = false) → c.sigma ev =
      (ks.map (·.sigma ev)).sum / (if avg then (ks.length : ℝ) else 1)) ∧
    (∀ k ∈ ks, k.total = true → c.sigma ev = k.sigma ev) := by
  obtain ⟨_, _, e1, e2, _, _, e3⟩ := construct_ok h
  obtain ⟨f1, f2, f3⟩ := findTotal_ok ks 0 0 none _ (by omega) e3
  constructor
  · intro hk
    have hz : (ks.filter (·.total)).length = 0 := by
      rw [List.length_eq_zero_iff, List.filter_eq_nil_iff]
      intro k hm; simp [hk k hm]
    unfold CK.sigma
    rw [f2 hz]
    simp only [Option.bind_none, e1, e2, foldl_add (fun k : Kern S => k.sigma ev), zero_add]
    cases avg <;> simp
  · intro k hm hk
    obtain ⟨j, hj⟩ := List.getElem?_of_mem hm
    unfold CK.sigma
    rw [f3 j k hj hk]
    simp only [zero_add, Option.bind_some, e1, hj]

/-! ### C87 a weight given by the user is the one used -/

/-- **C87** What is true: kernels with weights other than 0 are selected in proportion to their
weights, a kernel without one counts with weight 1.  Missing: weight 0. -/
theorem C87_weight_partial (ds : List (Desc S)) (avg : Bool) (c : CK S) (h : render ds avg = .ok c)
    (hd : ∀ d ∈ ds, ∀ w, d.weight = some w → 0 < w) (i : Nat) (d : Desc S) (hi : ds[i]? = some d) :
    frequency c i = d.weight.getD 1 / (ds.map (·.weight.getD 1)).sum := by
  have hcw : ∀ d ∈ ds, d.cweight = d.weight.getD 1 := by
    intro d hm
    unfold Desc.cweight
    cases hw : d.weight with
    | none => rfl
    | some w => simp [(hd d hm w hw).ne']
  have hmap : ds.map Desc.cweight = ds.map (·.weight.getD 1) := List.map_congr_left hcw
  have hpos : ∀ w ∈ ds.map (·.weight.getD 1), 0 < w := by
    intro w hw
    obtain ⟨d, hm, rfl⟩ := List.mem_map.1 hw
    cases hw : d.weight with
    | none => simp
    | some w => simpa using hd d hm w hw
  unfold render at h
  rw [hmap] at h
  have hne : ds ≠ [] := by rintro rfl; simp at hi
  refine C35_frequency _ _ _ _ c h (fun w hw => (hpos w hw).le)
    (List.sum_pos _ hpos (by simpa using hne)) i _ ?_
  rw [List.getElem?_map, hi]; rfl

example : ∃ c, render [⟨mirror 2 1 false, none, none⟩, ⟨mirror 5 1 false, some 3, none⟩] false = .ok c ∧
    frequency c 1 = 3 / 4 := by
  obtain ⟨c, hc⟩ := (C35_construct [mirror 2 1 false, mirror 5 1 false] [1, 3] [M3.one, M3.one] false).2
    (by simp [mirror])
  have hr : render [⟨mirror 2 1 false, none, none⟩, ⟨mirror 5 1 false, some 3, none⟩] false = .ok c := by
    rw [← hc]; simp [render, Desc.cweight, Desc.crot]
  refine ⟨c, hr, ?_⟩
  rw [C87_weight_partial _ _ c hr (by simp) 1 _ rfl]
  norm_num

/-- **C87** False of the code: a kernel that is given weight 0 is not left out, it gets weight 1. -/
theorem C87_zero_false : ¬ ∀ (ds : List (Desc Unit)) (avg : Bool) (c : CK Unit), render ds avg = .ok c →
    ∀ (i : Nat) (d : Desc Unit), ds[i]? = some d → d.weight = some 0 → frequency c i = 0 := by
  intro hall
  obtain ⟨c, hc⟩ := (C35_construct [mirror 2 1 false, mirror 5 1 false] [1, 1] [M3.one, M3.one] false).2
    (by simp [mirror])
  have hr : render [⟨mirror 2 1 false, some 0, none⟩, ⟨mirror 5 1 false, some 1, none⟩] false = .ok c := by
    rw [← hc]; simp [render, Desc.cweight, Desc.crot]
  have h0 := hall _ _ c hr 0 _ rfl rfl
  rw [C35_frequency _ _ _ _ c hc (by norm_num) (by norm_num) 0 1 rfl] at h0
  norm_num at h0

/-! ### C88 the mean factor of scattering is the scattering coefficient -/

/-- **C88** What is true: if no average is requested, no kernel is of total scattering and the
coefficient of each kernel is the same in its frame and in that of the composite, the expected
probability after scattering is the one before times the scattering coefficient. -/
theorem C88_factor_partial (ks : List (Kern S)) (ws : List ℝ) (rots : List (M3 ℝ)) (c : CK S)
    (h : construct ks ws rots false = .ok c) (hne : ks ≠ []) (hw : ∀ w ∈ ws, 0 < w)
    (hk : ∀ k ∈ ks, Honest k ∧ k.total = false) (s : S) (ev : Ev)
    (hrot : ∀ k ∈ ks, ∀ m ∈ rots, k.sigma { ev with v := m.transpose.mulVec ev.v } = k.sigma ev) :
    mean (fun x => value (fun _ _ _ => 1) (c.scatter x s ev)) = ev.p * c.sigma ev := by
  have hv : ∀ k ∈ ks, ∀ m, ∀ q, value (fun _ _ _ => 1) (alone Kern.scatter k m s { ev with p := q }) =
      q * k.sigma { ev with v := m.transpose.mulVec ev.v } := by
    intro k hm m q
    obtain ⟨h1, h2⟩ := (hk k hm).1
    obtain ⟨s', ev', e1, e2⟩ := h1 s { ev with v := m.transpose.mulVec ev.v, p := q }
    simp only [alone, e1, Except.map, value, score, mul_one, e2]
    exact congrArg _ (h2 _ _ rfl)
  have hm := mean_run h hw hne Kern.scatter (value fun _ _ _ => 1) s ev (fun k hkm m w hw => by
    have h1 := hv k hkm m ev.p
    rw [hv k hkm m (ev.p / w), show alone Kern.scatter k m s ev =
      alone Kern.scatter k m s { ev with p := ev.p } from rfl, h1]
    ring)
  unfold CK.scatter
  rw [hm, (C35_coefficient ks ws rots false c h ev).1 (fun k hm => (hk k hm).2)]
  obtain ⟨hl, hl', _⟩ := construct_ok h
  have : ∀ km ∈ ks.zip rots, value (fun _ _ _ => 1) (alone Kern.scatter km.1 km.2 s ev) =
      ev.p * km.1.sigma ev := by
    intro km hkm
    obtain ⟨a, b⟩ := List.of_mem_zip hkm
    rw [← hrot km.1 a km.2 b]
    exact hv km.1 a km.2 ev.p
  rw [List.map_congr_left this]
  have hz : (ks.zip rots).map (fun km => ev.p * km.1.sigma ev) = ks.map fun k => ev.p * k.sigma ev := by
    conv_rhs => rw [← List.map_fst_zip (l₁ := ks) (l₂ := rots) (by omega)]
    rw [List.map_map]; rfl
  rw [hz, List.sum_map_mul_left]
  simp

example (ev : Ev) : ∃ c, twoMirrors false false = .ok c ∧
    mean (fun x => value (fun _ _ _ => 1) (c.scatter x () ev)) = ev.p * c.sigma ev := by
  obtain ⟨c, hc⟩ := (C35_construct [mirror 2 1 false, mirror 5 1 false] [1, 3]
    [M3.one, ⟨⟨0, -1, 0⟩, ⟨1, 0, 0⟩, ⟨0, 0, 1⟩⟩] false).2 (by simp [mirror])
  refine ⟨c, hc, C88_factor_partial _ _ _ c hc (by simp) (by norm_num) ?_ _ _ ?_⟩
  · intro k hk
    simp only [List.mem_cons, List.not_mem_nil, or_false] at hk
    rcases hk with rfl | rfl <;> exact ⟨mirror_honest _ _ _, rfl⟩
  · intro k hk m _
    simp only [List.mem_cons, List.not_mem_nil, or_false] at hk
    rcases hk with rfl | rfl <;> rfl

/-- a neutron along z -/
def beam : Ev := ⟨⟨0, 0, 0⟩, ⟨0, 0, 1⟩, 0, 0, 0, 1⟩

/-- **C88** False of the code: with `average` the coefficient is divided by the number of kernels, the
probability is not. -/
theorem C88_average_false : ¬ ∀ (ks : List (Kern Unit)) (ws : List ℝ) (rots : List (M3 ℝ)) (avg : Bool)
    (c : CK Unit), construct ks ws rots avg = .ok c → ks ≠ [] → (∀ w ∈ ws, 0 < w) →
    (∀ k ∈ ks, Honest k ∧ k.total = false) → (∀ m ∈ rots, m = M3.one) →
    mean (fun x => value (fun _ _ _ => 1) (c.scatter x () beam)) = beam.p * c.sigma beam := by
  intro hall
  obtain ⟨c, hc⟩ := (C35_construct [mirror 2 1 false, mirror 5 1 false] [1, 3] [M3.one, M3.one] true).2
    (by simp [mirror])
  have h1 := hall _ _ _ _ c hc (by simp) (by norm_num)
    (by intro k hk; simp only [List.mem_cons, List.not_mem_nil, or_false] at hk
        rcases hk with rfl | rfl <;> exact ⟨mirror_honest _ _ _, rfl⟩) (by simp)
  rw [C35_scatter _ _ _ _ c hc (by simp) (by norm_num)
    (by intro k hk; simp only [List.mem_cons, List.not_mem_nil, or_false] at hk
        rcases hk with rfl | rfl <;> exact mirror_linear _ _ _),
    (C35_coefficient _ _ _ _ c hc beam).1 (by simp [mirror])] at h1
  norm_num [value, alone, mirror, score, Except.map, beam] at h1

/-- **C88** False of the code: with a kernel of total scattering the coefficient is that of this
kernel, while the probability carries the sum over all kernels. -/
theorem C88_total_false : ¬ ∀ (ks : List (Kern Unit)) (ws : List ℝ) (rots : List (M3 ℝ))
    (c : CK Unit), construct ks ws rots false = .ok c → ks ≠ [] → (∀ w ∈ ws, 0 < w) →
    (∀ k ∈ ks, Honest k) → (∀ m ∈ rots, m = M3.one) →
    mean (fun x => value (fun _ _ _ => 1) (c.scatter x () beam)) = beam.p * c.sigma beam := by
  intro hall
  obtain ⟨c, hc⟩ := (C35_construct [mirror 2 1 true, mirror 5 1 false] [1, 3] [M3.one, M3.one] false).2
    (by simp [mirror])
  have h1 := hall _ _ _ c hc (by simp) (by norm_num)
    (by intro k hk; simp only [List.mem_cons, List.not_mem_nil, or_false] at hk
        rcases hk with rfl | rfl <;> exact mirror_honest _ _ _) (by simp)
  rw [C35_scatter _ _ _ _ c hc (by simp) (by norm_num)
    (by intro k hk; simp only [List.mem_cons, List.not_mem_nil, or_false] at hk
        rcases hk with rfl | rfl <;> exact mirror_linear _ _ _),
    (C35_coefficient _ _ _ _ c hc beam).2 (mirror 2 1 true) (by simp) rfl] at h1
  norm_num [value, alone, mirror, score, Except.map, beam] at h1

/-! ### C89 absorption coefficient of a composite kernel -/

/-- **C89** What is true: the absorption coefficient is the mean of those of the kernels, which is what
is asked for when `average` is set.  Missing: the sum when it is not set. -/
theorem C89_mean_partial (ks : List (Kern S)) (ws : List ℝ) (rots : List (M3 ℝ)) (c : CK S)
    (h : construct ks ws rots true = .ok c) (ev : Ev) :
    c.mu ev = (ks.map (·.mu ev)).sum / ks.length := by
  obtain ⟨_, _, e1, _⟩ := construct_ok h
  unfold CK.mu
  rw [e1, foldl_add (fun k : Kern S => k.mu ev), zero_add]

example : ∃ c, twoMirrors true false = .ok c ∧ c.mu beam = 1 := by
  obtain ⟨c, hc⟩ := (C35_construct [mirror 2 1 false, mirror 5 1 false] [1, 3]
    [M3.one, ⟨⟨0, -1, 0⟩, ⟨1, 0, 0⟩, ⟨0, 0, 1⟩⟩] true).2 (by simp [mirror])
  refine ⟨c, hc, ?_⟩
  rw [C89_mean_partial _ _ _ c hc beam]
  norm_num [mirror]

/-- **C89** False of the code: without `average` the absorption coefficient is not the sum of those of
the kernels. -/
theorem C89_sum_false : ¬ ∀ (ks : List (Kern Unit)) (ws : List ℝ) (rots : List (M3 ℝ)) (c : CK Unit),
    construct ks ws rots false = .ok c → c.mu beam = (ks.map (·.mu beam)).sum := by
  intro hall
  obtain ⟨c, hc⟩ := (C35_construct [mirror 2 1 false, mirror 5 1 false] [1, 3] [M3.one, M3.one] false).2
    (by simp [mirror])
  have h1 := hall _ _ _ c hc
  obtain ⟨_, _, e1, _⟩ := construct_ok hc
  unfold CK.mu at h1
  rw [e1] at h1
  norm_num [mirror] at h1

/-! ### C90 coefficients of a rotated kernel -/

/-- **C90** What is true: the coefficients of a single kernel with an orientation are those of the kernel
for the neutron in the frame of the kernel, if they depend on the speed only and the matrix is a
rotation. -/
theorem C90_isotropic_partial (k : Kern S) (w : ℝ) (m : M3 ℝ) (avg : Bool) (c : CK S)
    (h : construct [k] [w] [m] avg = .ok c) (hm : m.mul m.transpose = M3.one)
    (hk : ∀ ev ev', ev.v.dot ev.v = ev'.v.dot ev'.v → k.sigma ev = k.sigma ev' ∧ k.mu ev = k.mu ev') (ev : Ev) :
    c.sigma ev = k.sigma { ev with v := m.transpose.mulVec ev.v } ∧
    c.mu ev = k.mu { ev with v := m.transpose.mulVec ev.v } := by
  have hlen : ev.v.dot ev.v = (m.transpose.mulVec ev.v).dot (m.transpose.mulVec ev.v) := by
    simp only [M3.mul, M3.transpose, M3.mulVec, M3.one, M3.mk.injEq, V3.mk.injEq] at hm
    obtain ⟨⟨a, b, c⟩, ⟨_, d, e⟩, ⟨_, _, f⟩⟩ := hm
    simp only [V3.dot, M3.mulVec, M3.transpose]
    linear_combination (-ev.v.x * ev.v.x) * a - (2 * ev.v.x * ev.v.y) * b - (2 * ev.v.x * ev.v.z) * c -
      ev.v.y * ev.v.y * d - (2 * ev.v.y * ev.v.z) * e - ev.v.z * ev.v.z * f
  obtain ⟨h1, h2⟩ := hk ev { ev with v := m.transpose.mulVec ev.v } hlen
  obtain ⟨_, _, e1, _⟩ := construct_ok h
  constructor
  · rw [← h1]
    cases ht : k.total with
    | true => exact (C35_coefficient _ _ _ _ c h ev).2 k (by simp) ht
    | false =>
      rw [(C35_coefficient _ _ _ _ c h ev).1 (by simp [ht])]
      cases avg <;> simp
  · rw [← h2]
    unfold CK.mu
    rw [e1]; simp

example : ∃ c, construct [mirror 2 1 false] [3] [⟨⟨0, -1, 0⟩, ⟨1, 0, 0⟩, ⟨0, 0, 1⟩⟩] false = .ok c ∧
    c.sigma beam = 2 := by
  obtain ⟨c, hc⟩ := (C35_construct [mirror 2 1 false] [3] [⟨⟨0, -1, 0⟩, ⟨1, 0, 0⟩, ⟨0, 0, 1⟩⟩] false).2
    (by simp [mirror])
  exact ⟨c, hc, (C90_isotropic_partial _ _ _ _ c hc (by norm_num [M3.mul, M3.transpose, M3.mulVec, M3.one])
    (fun _ _ _ => ⟨rfl, rfl⟩) beam).1⟩

/-- **C90** False of the code: the scattering coefficient of a kernel with an orientation is computed
for the velocity in the frame of the composite, so for a kernel that depends on the direction (a single
crystal) it is the one of another direction. -/
theorem C90_direction_false : ¬ ∀ (k : Kern Unit) (w : ℝ) (m : M3 ℝ) (c : CK Unit), 0 < w →
    m.mul m.transpose = M3.one → construct [k] [w] [m] false = .ok c →
    ∀ ev, c.sigma ev = k.sigma { ev with v := m.transpose.mulVec ev.v } := by
  intro hall
  obtain ⟨c, hc⟩ := (C35_construct [{ mirror 2 1 false with sigma := fun ev => ev.v.x }] [1]
    [⟨⟨0, -1, 0⟩, ⟨1, 0, 0⟩, ⟨0, 0, 1⟩⟩] false).2 (by simp [mirror])
  have h1 := hall _ _ _ c one_pos (by norm_num [M3.mul, M3.transpose, M3.mulVec, M3.one]) hc
    { beam with v := ⟨1, 0, 0⟩ }
  rw [(C35_coefficient _ _ _ _ c hc _).1 (by simp [mirror])] at h1
  norm_num [M3.transpose, M3.mulVec] at h1

end Verif.CKernel
