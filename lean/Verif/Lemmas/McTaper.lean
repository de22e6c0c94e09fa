import Verif.Spec.McTaper
import Verif.Lemmas.McOptics2
import Verif.Lemmas.McGravGuide
import Verif.Lemmas.McRotor
import Verif.Props.McOptics2
/-!
Lemmas for the guide with curved walls.
-/

namespace Verif.McTaper
open McStas Kinem McGuide Homog McOpt McOptB Flight
open Classical

/-! ### the curves -/

theorem sqrt_gt {a b : ℝ} (hb : 0 < b) : a < √(a * a + b * b) := by
  by_cases ha : a < 0
  · exact ha.trans_le (Real.sqrt_nonneg _)
  · exact Real.lt_sqrt_of_sq_lt (by nlinarith)

/-- half of the long axis is longer than half of the distance of the focal points -/
theorem ellA_gt {s l lin lout : ℝ} (hs : 0 < s) (hl : 0 < l) (h1 : 0 ≤ lin) (h2 : 0 ≤ lout) :
    0 < ellA s l lin lout ∧ ((l + lin + lout) / 2) ^ 2 < ellA s l lin lout := by
  have a := sqrt_gt (a := lin) (b := s / 2) (by positivity)
  have b := sqrt_gt (a := l + lout) (b := s / 2) (by positivity)
  rw [add_comm ((l + lout) * (l + lout))] at b
  have hc : 0 < (l + lin + lout) / 2 := by positivity
  have : ((l + lin + lout) / 2) ^ 2 < ellA s l lin lout := by
    unfold ellA
    simp only
    rw [← sq]
    exact pow_lt_pow_left₀ (by linarith) hc.le (by norm_num)
  exact ⟨lt_trans (by positivity) this, this⟩

/-- a point of the ellipse -/
theorem on_ellipse {s l lin lout z : ℝ} (hs : 0 < s) (hl : 0 < l) (h1 : 0 ≤ lin) (h2 : 0 ≤ lout) (z0 : 0 ≤ z) (zl : z ≤ l)
    {q u : ℝ} (hu : u ^ 2 = ((l + lin + lout) / 2 - lin - z) ^ 2) (hq : q = (1 - u * u / ellA s l lin lout) * ellB s l lin lout) :
    0 < q ∧ 0 < √q * 2 ∧ OnEllipse s l lin lout z (√q * 2 / 2) := by
  obtain ⟨hA, hc⟩ := ellA_gt hs hl h1 h2
  set c := (l + lin + lout) / 2 with hcd
  set w := c - lin - z with hw
  have hB : ellB s l lin lout = ellA s l lin lout - c ^ 2 := by unfold ellB; simp only; rw [hcd]; ring
  have hwc : w ^ 2 ≤ c ^ 2 := by
    apply sq_le_sq'
    · rw [hw, hcd]; linarith
    · rw [hw]; linarith
  have huu : u * u = w ^ 2 := by rw [← sq, hu]
  have hlt : w ^ 2 / ellA s l lin lout < 1 := by rw [div_lt_one hA]; linarith
  have hq0 : 0 < q := by
    rw [hq, huu, hB]
    exact mul_pos (by linarith) (by linarith)
  refine ⟨hq0, mul_pos (Real.sqrt_pos.2 hq0) two_pos, ?_⟩
  have hy : (√q * 2 / 2) ^ 2 = q := by rw [mul_div_cancel_right₀ _ two_ne_zero, Real.sq_sqrt hq0.le]
  set a := (√(lin * lin + s / 2 * (s / 2)) + √(s / 2 * (s / 2) + (l + lout) * (l + lout))) / 2 with ha
  have haA : ellA s l lin lout = a ^ 2 := by unfold ellA; simp only; rw [ha]; ring
  have ha0 : 0 < a := by
    have h0 : 0 ≤ a := by rw [ha]; positivity
    rcases h0.lt_or_eq with h | h
    · exact h
    · rw [haA, ← h] at hA; norm_num at hA
  have hca : c ^ 2 < a ^ 2 := by rw [← haA]; exact hc
  have hwcl : |w * c| < a ^ 2 := by
    have : |w| ≤ |c| := sq_le_sq.1 hwc
    rw [abs_mul]
    calc |w| * |c| ≤ |c| * |c| := mul_le_mul_of_nonneg_right this (abs_nonneg c)
      _ = c ^ 2 := by rw [← sq, sq_abs]
      _ < _ := hca
  obtain ⟨hm, hp⟩ := abs_lt.1 hwcl
  unfold OnEllipse
  rw [hy]
  have hz1 : z + lin = c - w := by rw [hw]; ring
  have hz2 : l + lout - z = c + w := by rw [hw, hcd]; ring
  have e1 : (z + lin) ^ 2 + q = (a - w * c / a) ^ 2 := by
    rw [hq, huu, hB, haA, hz1]; field_simp; ring
  have e2 : (l + lout - z) ^ 2 + q = (a + w * c / a) ^ 2 := by
    rw [hq, huu, hB, haA, hz2]; field_simp; ring
  have p1 : 0 ≤ a - w * c / a := by
    rw [sub_nonneg, div_le_iff₀ ha0]; nlinarith
  have p2 : 0 ≤ a + w * c / a := by
    have : -(w * c) / a ≤ a := by rw [div_le_iff₀ ha0]; nlinarith
    rw [neg_div] at this
    linarith
  rw [e1, e2, Real.sqrt_sq p1, Real.sqrt_sq p2]
  have r1 : lin ^ 2 + (s / 2) ^ 2 = lin * lin + s / 2 * (s / 2) := by ring
  have r2 : (l + lout) ^ 2 + (s / 2) ^ 2 = s / 2 * (s / 2) + (l + lout) * (l + lout) := by ring
  rw [r1, r2]
  have : √(lin * lin + s / 2 * (s / 2)) + √(s / 2 * (s / 2) + (l + lout) * (l + lout)) = 2 * a := by rw [ha]; ring
  rw [this]; ring

theorem edge_ellipse (s l lin lout : ℝ) : OnEllipse s l lin lout 0 (s / 2) := by
  unfold OnEllipse; rw [zero_add, sub_zero]

theorem ellExit_shape {s l lin lout : ℝ} (hs : 0 < s) (hl : 0 < l) (h1 : 0 ≤ lin) (h2 : 0 ≤ lout) :
    ∃ x, ellExit s l lin lout = some x ∧ 0 < x ∧ Shape OnEllipse s l lin lout l x := by
  unfold ellExit Shape
  by_cases h : lin = 0 ∧ lout = 0
  · rw [if_pos h]
    exact ⟨s, rfl, hs, by rw [if_pos h]⟩
  rw [if_neg h]
  obtain ⟨hA, -⟩ := ellA_gt hs hl h1 h2
  obtain ⟨q0, a, b⟩ := on_ellipse hs hl h1 h2 hl.le le_rfl (u := (l + lin + lout) / 2 - lout) (by ring) rfl
  simp only [Option.bind_eq_bind, divD, if_neg hA.ne', Option.bind_some, sqrtD]
  rw [mul_comm (ellB s l lin lout), if_neg (not_lt.2 q0.le)]
  simp only [Option.bind_some, Option.some.injEq]
  exact ⟨_, rfl, a, by rw [if_neg h]; exact ⟨a, b⟩⟩

theorem ellipse_shape {s l lin lout : ℝ} (hs : 0 < s) (hl : 0 < l) (h1 : 0 ≤ lin) (h2 : 0 ≤ lout) {n i : ℕ} (hn : 0 < n) (hi : i ≤ n) :
    ∃ x, ellipse s l lin lout n i = some x ∧ Shape OnEllipse s l lin lout (l * (i / n)) x := by
  have hn' : (0 : ℝ) < n := by exact_mod_cast hn
  unfold ellipse
  by_cases h0 : i = 0
  · subst h0
    refine ⟨s, by rw [if_pos rfl], ?_⟩
    unfold Shape
    split
    · rfl
    · rw [Nat.cast_zero, zero_div, mul_zero]; exact ⟨hs, edge_ellipse s l lin lout⟩
  rw [if_neg h0]
  rcases hi.lt_or_eq with hi | hi
  · rw [if_pos hi]
    obtain ⟨hA, hc⟩ := ellA_gt hs hl h1 h2
    have hB : ellB s l lin lout ≠ 0 := by unfold ellB; simp only; nlinarith
    unfold Shape
    by_cases h : lin = 0 ∧ lout = 0
    · rw [if_pos (.inl h)]
      exact ⟨s, rfl, by rw [if_pos h]⟩
    rw [if_neg (by rintro (h' | h'); exact h h'; exact hB h')]
    have hir : (i : ℝ) / n ≤ 1 := by rw [div_le_one hn']; exact_mod_cast hi.le
    obtain ⟨q0, a, b⟩ := on_ellipse hs hl h1 h2 (z := l * (i / n)) (by positivity) (by nlinarith)
      (u := (l + lin + lout) / 2 - lin - l / n * i) (by ring) rfl
    simp only [Option.bind_eq_bind, divD, if_neg hA.ne', Option.bind_some, sqrtD]
    rw [if_neg (not_lt.2 q0.le)]
    simp only [Option.bind_some, Option.some.injEq]
    exact ⟨_, rfl, by rw [if_neg h]; exact ⟨a, b⟩⟩
  · subst hi
    rw [if_neg (lt_irrefl _), div_self hn'.ne', mul_one]
    obtain ⟨x, a, -, b⟩ := ellExit_shape hs hl h1 h2
    exact ⟨x, a, b⟩

/-- a point of a parabola with the focal point at the distance `d` and the edge of the size `s` at the distance `f` -/
theorem on_parabola {s f d : ℝ} (hs : 0 < s) (hd : 0 ≤ d) {p : ℝ} (hp : p = (√(f * f + s / 2 * (s / 2)) - f) * 2) {q : ℝ} (hq : q = (p / 4 + d) * p) :
    0 < q ∧ 0 < √q * 2 ∧ √(d ^ 2 + (√q * 2 / 2) ^ 2) - d = √(f ^ 2 + (s / 2) ^ 2) - f := by
  have hk := sqrt_gt (a := f) (b := s / 2) (by positivity)
  set k := √(f * f + s / 2 * (s / 2)) - f with hkd
  have hk0 : 0 < k := by rw [hkd]; linarith
  have hq0 : 0 < q := by rw [hq, hp]; positivity
  refine ⟨hq0, mul_pos (Real.sqrt_pos.2 hq0) two_pos, ?_⟩
  rw [mul_div_cancel_right₀ _ two_ne_zero, Real.sq_sqrt hq0.le]
  have : d ^ 2 + q = (d + k) ^ 2 := by rw [hq, hp]; ring
  rw [this, Real.sqrt_sq (by positivity), show f ^ 2 + (s / 2) ^ 2 = f * f + s / 2 * (s / 2) by ring, ← hkd]
  ring

theorem paraP_eq (s l lin lout : ℝ) :
    paraP s l lin lout = (√((if lin = 0 then l + lout else lin) * (if lin = 0 then l + lout else lin) + s / 2 * (s / 2)) -
      (if lin = 0 then l + lout else lin)) * 2 := by
  unfold paraP
  simp only
  split
  · rw [show (2 * lout + 2 * l) * (2 * lout + 2 * l) / 4 = (l + lout) * (l + lout) by ring, add_comm lout l]
  · rw [show 2 * lin * (2 * lin) / 4 = lin * lin by ring]

theorem paraExit_pos {s l lin lout : ℝ} (hs : 0 < s) (hl : 0 < l) (h1 : 0 ≤ lin) (h2 : 0 ≤ lout) (h : ¬ (0 < lin ∧ 0 < lout)) :
    ∃ x, paraExit s l lin lout = .ok x ∧ 0 < x := by
  unfold paraExit
  rw [if_neg h]
  by_cases h0 : lout = 0 ∧ lin = 0
  · exact ⟨s, by rw [if_pos h0], hs⟩
  rw [if_neg h0]
  have hP := paraP_eq s l lin lout
  by_cases hl0 : lin = 0
  · simp only [hl0, if_true] at hP ⊢
    obtain ⟨a, b, -⟩ := on_parabola hs h2 hP rfl
    rw [sqrtD, mul_comm (paraP s l 0 lout), add_comm lout, if_neg (not_lt.2 a.le)]
    exact ⟨_, rfl, b⟩
  · simp only [hl0, if_false] at hP ⊢
    obtain ⟨a, b, -⟩ := on_parabola hs (d := l + lin) (by positivity) hP rfl
    rw [sqrtD, mul_comm (paraP s l lin lout), add_comm (l + lin), if_neg (not_lt.2 a.le)]
    exact ⟨_, rfl, b⟩

theorem edge_parabola (s l lin lout : ℝ) : OnParabola s l lin lout 0 (s / 2) := by
  unfold OnParabola; rw [zero_add, sub_zero]; split <;> rfl

theorem parabola_shape {s l lin lout : ℝ} (hs : 0 < s) (hl : 0 < l) (h1 : 0 ≤ lin) (h2 : 0 ≤ lout) {n i : ℕ} (hn : 0 < n) (hi : i ≤ n) :
    ∃ x, parabola s l lin lout n i = some x ∧ Shape OnParabola s l lin lout (l * (i / n)) x := by
  have hn' : (0 : ℝ) < n := by exact_mod_cast hn
  have hi' : (i : ℝ) ≤ n := by exact_mod_cast hi
  unfold parabola
  by_cases h0 : i = 0
  · subst h0
    refine ⟨s, by rw [if_pos rfl], ?_⟩
    unfold Shape
    split
    · rfl
    · rw [Nat.cast_zero, zero_div, mul_zero]; exact ⟨hs, edge_parabola s l lin lout⟩
  rw [if_neg h0]
  by_cases h : lout = 0 ∧ lin = 0
  · rw [if_pos h]
    exact ⟨s, rfl, by unfold Shape; rw [if_pos h.symm]⟩
  rw [if_neg h]
  have hS : ∀ x, 0 < x ∧ OnParabola s l lin lout (l * (i / n)) (x / 2) → Shape OnParabola s l lin lout (l * (i / n)) x := by
    intro x hx
    unfold Shape
    rw [if_neg fun y => h y.symm]; exact hx
  have hP := paraP_eq s l lin lout
  unfold OnParabola at hS
  by_cases hl0 : lin = 0
  · have hlo : 0 < lout := lt_of_le_of_ne h2 fun h' => h ⟨h'.symm, hl0⟩
    dsimp only
    rw [if_pos ⟨hl0, hlo⟩]
    subst hl0
    simp only [if_true] at hP hS
    have hd : lout + l / n * (n - i) = l + lout - l * (i / n) := by field_simp; ring
    have hd0 : 0 ≤ lout + l / n * (n - i) := by
      have : 0 ≤ l / n * (n - i) := mul_nonneg (by positivity) (by linarith)
      linarith
    obtain ⟨a, b, c⟩ := on_parabola hs hd0 hP rfl
    rw [← add_assoc] at a b c
    rw [sqrtD, if_neg (not_lt.2 a.le)]
    exact ⟨_, rfl, hS _ ⟨b, by rw [← hd]; exact c⟩⟩
  · dsimp only
    rw [if_neg fun y => hl0 y.1]
    simp only [hl0, if_false] at hP hS
    have hd : lin + l / n * i = l * (i / n) + lin := by field_simp; ring
    obtain ⟨a, b, c⟩ := on_parabola hs (d := lin + l / n * i) (by positivity) hP rfl
    rw [← add_assoc] at a b c
    rw [sqrtD, if_neg (not_lt.2 a.le)]
    exact ⟨_, rfl, hS _ ⟨b, by rw [← hd]; exact c⟩⟩

/-! ### the segments -/

theorem mapM_some {f : ℕ → Option ℝ} {k : ℕ → ℝ} : ∀ L : List ℕ, (∀ i ∈ L, f i = some (k i)) → L.mapM f = some (L.map k)
  | [], _ => rfl
  | a :: L, h => by
    rw [List.mapM_cons, h a (by simp), mapM_some L fun i hi => h i (by simp [hi])]; rfl

theorem sizes_ok {f : ℕ → Option ℝ} {k : ℕ → ℝ} {n : ℕ} (h : ∀ i, i ≤ n → f i = some (k i)) : sizes f n = .ok ((List.range (n + 1)).map k) := by
  unfold sizes
  rw [mapM_some (k := k) _ fun i hi => h i (by rw [List.mem_range] at hi; omega)]

theorem between_map : ∀ (n : ℕ) (kh kw : ℕ → ℝ), between ((List.range (n + 1)).map kh) ((List.range (n + 1)).map kw) =
    (List.range n).map fun i => ⟨kh i, kh (i + 1), kw i, kw (i + 1)⟩
  | 0, kh, kw => rfl
  | n + 1, kh, kw => by
    have e : ∀ k : ℕ → ℝ, (List.range (n + 1)).map (fun i => k (i + 1)) = k 1 :: (List.range n).map fun i => k (i + 2) := by
      intro k; rw [List.range_succ_eq_map]; simp [Function.comp_def]
    have e' : ∀ k : ℕ → ℝ, (List.range (n + 1 + 1)).map k = k 0 :: k 1 :: (List.range n).map fun i => k (i + 2) := by
      intro k
      rw [List.range_succ_eq_map, List.map_cons, List.map_map, ← e k]; rfl
    rw [e' kh, e' kw, between, ← e kh, ← e kw, between_map n]
    conv_rhs => rw [List.range_succ_eq_map]
    simp [Function.comp_def]

/-- the walls for two functions that give all the sizes -/
theorem walls_ok {c : Par} {n : ℕ} (hs : c.segno = n) (hn : 0 < n) {ex : ℝ → ℝ → ℝ → ℝ → Except Err ℝ} {at' : ℝ → ℝ → ℝ → ℝ → ℕ → ℕ → Option ℝ}
    (kh kw : ℕ → ℝ) (h1 : ∃ x, ex c.h1 c.l c.linh c.louth = .ok x ∧ 0 < x) (h2 : ∃ x, ex c.w1 c.l c.linw c.loutw = .ok x ∧ 0 < x)
    (h3 : ∀ i, i ≤ n → at' c.h1 c.l c.linh c.louth n i = some (kh i)) (h4 : ∀ i, i ≤ n → at' c.w1 c.l c.linw c.loutw n i = some (kw i)) :
    c.walls ex at' = .ok (c.done ((List.range n).map fun i => ⟨kh i, kh (i + 1), kw i, kw (i + 1)⟩) (c.l / n) c.w1 c.h1) := by
  obtain ⟨x, hx, x0⟩ := h1
  obtain ⟨y, hy, y0⟩ := h2
  unfold Par.walls
  simp only [hs, Nat.floor_natCast]
  rw [if_neg hn.ne', hx, hy]
  simp only [bind, Except.bind, positive, if_neg (not_le.2 x0), if_neg (not_le.2 y0), sizes_ok h3, sizes_ok h4, between_map]

theorem follows_of {On : ℝ → ℝ → ℝ → ℝ → ℝ → ℝ → Prop} {c : Par} {n : ℕ} {kh kw : ℕ → ℝ}
    (h3 : ∀ i, i ≤ n → Shape On c.h1 c.l c.linh c.louth (c.l * (i / n)) (kh i))
    (h4 : ∀ i, i ≤ n → Shape On c.w1 c.l c.linw c.loutw (c.l * (i / n)) (kw i)) :
    Follows On c n (c.done ((List.range n).map fun i => ⟨kh i, kh (i + 1), kw i, kw (i + 1)⟩) (c.l / n) c.w1 c.h1) := by
  refine ⟨by simp [Par.done], rfl, fun i hi => ?_⟩
  have hi' : i < n := by simpa [Par.done] using hi
  simp only [Par.done, List.getElem_map, List.getElem_range]
  have a := h3 (i + 1) hi'
  have b := h4 (i + 1) hi'
  rw [Nat.cast_add, Nat.cast_one] at a b
  exact ⟨h3 i hi'.le, a, h4 i hi'.le, b⟩

/-! ### flight -/

theorem from_flown (zr : ℝ) (e : Event ℝ) (t : ℝ) : from' zr (flown Off e t) = flown Off (from' zr e) t := by
  unfold from'
  apply Event.ext
  · rw [off_r]; simp only [off_r]; ext <;> simp
    ring
  all_goals rfl

theorem coat_mirror {g : Guide} (hl : 0 < g.lseg) {s : Seg} {w : Wall} (hw : w ∈ (g.tube s).walls) :
    g.coat s w = g.mirror s ((1 / g.lseg) • w.n) ∧ (g.black w → (g.mirror s ((1 / g.lseg) • w.n)).m = 0) := by
  have hl' := hl.ne'
  simp only [McGuide.Guide.walls, Guide.tube, List.mem_cons, List.not_mem_nil, or_false] at hw
  unfold Guide.coat Guide.mirror Guide.black
  rcases hw with rfl | rfl | rfl | rfl <;> simp [hl', mul_div_assoc, abs_mul] <;> intro h <;> simp [h]

theorem mirror_pos {g : Guide} {s : Seg} (n : V3 ℝ) (hW : 0 < g.W) (hR : 0 < g.R0) (hx : 0 < g.Qcx) (hy : 0 < g.Qcy) :
    0 < (g.mirror s n).W ∧ 0 < (g.mirror s n).R0 ∧ 0 < (g.mirror s n).Qc := by
  unfold Guide.mirror
  split <;> exact ⟨hW, hR, by assumption⟩

theorem reflects_std {c : McOptB.Reflec} (hW : 0 < c.W) (hR : 0 < c.R0) (hQ : 0 < c.Qc) (q : ℝ) : Reflects c q (max 0 (stdReflec c q)) := by
  obtain ⟨h1, h2, h3, h4⟩ := C257_partial c hW hR hQ q
  refine ⟨fun a => by rw [h1 a, max_self], fun a b => by rw [h2 a b, max_eq_right hR.le], fun a b d => by rw [h3 a b d], fun a b => by rw [h4 a b, max_self]⟩

theorem reflects_zero {c : McOptB.Reflec} (h : c.m = 0) (q : ℝ) : Reflects c q 0 := by
  refine ⟨fun _ => rfl, fun a => ?_, fun a => ?_, fun a => ?_⟩ <;> rw [h] at a <;> exact absurd a (lt_irrefl _)

theorem loop_sound {g : Guide} {G : Gravity} (hG : G.on = false) (hl : 0 < g.lseg) (hW : 0 < g.W) (hR : 0 < g.R0) (hx : 0 < g.Qcx) (hy : 0 < g.Qcy)
    (s : Seg) (zr : ℝ) : ∀ (fuel : Nat) (e r : Event ℝ) (x : Bool), (g.tube s).Inside (from' zr e).r → (from' zr e).r.z < g.lseg →
    g.loop G s zr fuel e = some (x, r) →
    (x = true ∧ ∃ c, Relation.ReflTransGen (g.Step s zr) e c ∧ g.Stops s zr c r) ∨
    (x = false ∧ Relation.ReflTransGen (g.Step s zr) e r ∧ (g.tube s).Leaves (from' zr r))
  | 0, e, r, x, _, _, h => by cases h
  | fuel + 1, e, r, x, hin, hz, h => by
    have hl2 : 0 < (g.tube s).l := hl
    rw [Guide.loop] at h
    have hfe : ({ e with r := ⟨e.r.x, e.r.y, e.r.z - zr⟩ } : Event ℝ) = from' zr e := rfl
    rw [hfe] at h
    cases hn : (g.tube s).next (from' zr e) with
    | none =>
      rw [hn] at h
      cases h
      exact .inr ⟨rfl, .refl, next_leaves hl2 hin hz hn⟩
    | some tw =>
      obtain ⟨t, w⟩ := tw
      obtain ⟨h0, h1, h2, h3, hw⟩ := next_hit_on hl2 hin hz hn
      rw [hn] at h
      simp only [fly h0, flown_off hG, off_v] at h
      obtain ⟨hco, hbl⟩ := coat_mirror hl hw
      obtain ⟨mW, mR, mQ⟩ := mirror_pos (s := s) ((1 / g.lseg) • w.n) hW hR hx hy
      have hv : (from' zr e).v = e.v := rfl
      rw [hv] at h1
      have h1' : HitOn (g.tube s) ((1 / g.lseg) • w.n) (from' zr e) (from' zr { flown Off e t with v := (bounce w e.v).2 }) (bounce w e.v).1 := by
        have : from' zr { flown Off e t with v := (bounce w e.v).2 } = { flown Off (from' zr e) t with v := (bounce w e.v).2 } := by
          rw [← from_flown]; rfl
        rw [this]; exact h1
      by_cases hb : g.black w
      · rw [if_pos hb] at h
        cases h
        exact .inl ⟨rfl, e, .refl, _, _, _, h1', reflects_zero (hbl hb) _, rfl⟩
      rw [if_neg hb, hco] at h
      have hre := reflects_std mW mR mQ (bounce w e.v).1
      by_cases hk : stdReflec (g.mirror s ((1 / g.lseg) • w.n)) (bounce w e.v).1 > 0
      · rw [if_pos hk] at h
        rw [max_eq_right hk.le] at hre
        have hin' : (g.tube s).Inside (from' zr (flown Off e t)).r := by rw [from_flown]; exact h2
        have hz' : (from' zr (flown Off e t)).r.z < g.lseg := by rw [from_flown]; exact h3
        have ih := loop_sound hG hl hW hR hx hy s zr fuel
          { flown Off e t with v := (bounce w e.v).2, p := e.p * stdReflec (g.mirror s ((1 / g.lseg) • w.n)) (bounce w e.v).1 } r x hin' hz' h
        have hst : g.Step s zr e { flown Off e t with v := (bounce w e.v).2, p := e.p * stdReflec (g.mirror s ((1 / g.lseg) • w.n)) (bounce w e.v).1 } :=
          ⟨_, { flown Off e t with v := (bounce w e.v).2 }, _, _, h1', hre, hk, rfl⟩
        rcases ih with ⟨hx, c, a, b⟩ | ⟨hx, a, b⟩
        · exact .inl ⟨hx, c, .head hst a, b⟩
        · exact .inr ⟨hx, .head hst a, b⟩
      · rw [if_neg hk] at h
        rw [max_eq_left (not_lt.1 hk)] at hre
        cases h
        exact .inl ⟨rfl, e, .refl, _, _, _, h1', hre, rfl⟩

theorem outside_iff (s : Seg) (e : Event ℝ) : s.outside e ↔ ¬ s.Opening e.r := by
  unfold Seg.outside Seg.Opening
  rw [abs_lt, abs_lt]
  constructor
  · rintro (h | h | h | h) ⟨⟨h1, h2⟩, h3, h4⟩ <;> linarith
  · intro h
    by_contra hn
    push Not at hn
    obtain ⟨h1, h2, h3, h4⟩ := hn
    exact h ⟨⟨by linarith, by linarith⟩, by linarith, by linarith⟩

theorem turn_none {g : Guide} (h1 : g.rotation_h = 0) (h2 : g.rotation_v = 0) (e : Event ℝ) : g.turn e = e := by
  unfold Guide.turn; simp [h1, h2]

theorem arrives_of {zr : ℝ} {e : Event ℝ} (hv : e.v.z ≠ 0) : (∃ a, Arrives zr e a) ↔ 0 ≤ (zr - e.r.z) / e.v.z := by
  constructor
  · rintro ⟨a, s, hs, rfl, hz⟩
    rw [off_r] at hz
    simp only [V3.add_z, V3.smul_z] at hz
    rw [show zr - e.r.z = s * e.v.z by linarith, mul_div_cancel_right₀ _ hv]
    exact hs
  · intro h
    refine ⟨_, _, h, rfl, ?_⟩
    rw [off_r]
    simp only [V3.add_z, V3.smul_z]
    rw [div_mul_cancel₀ _ hv]; ring

theorem segments_sound {g : Guide} {G : Gravity} (hG : G.on = false) (hl : 0 < g.lseg) (hW : 0 < g.W) (hR : 0 < g.R0) (hx : 0 < g.Qcx)
    (hy : 0 < g.Qcy) (r1 : g.rotation_h = 0) (r2 : g.rotation_v = 0) (fuel : Nat) : ∀ (ss : List Seg) (i : ℕ) (e r : Event ℝ) (x : Bool),
    g.segments G fuel ss i e = some (x, r) → (x = false ∧ g.Passes ss i e r) ∨ (x = true ∧ g.Halts ss i e r) ∨ g.Astray ss i e
  | [], i, e, r, x, h => by
    cases h
    exact .inl ⟨rfl, rfl⟩
  | s :: ss, i, e, r, x, h => by
    rw [Guide.segments] at h
    by_cases hv : e.v.z = 0
    · simp [divD, hv] at h
    simp only [divD, if_neg hv, Option.bind_eq_bind, Option.bind_some] at h
    by_cases ht : 0 ≤ (i * g.lseg - e.r.z) / e.v.z
    swap
    · exact .inr (.inr ⟨[], s, ss, e, rfl, rfl, by rw [arrives_of hv]; simpa using ht⟩)
    have harr : Arrives (i * g.lseg) e (flown Off e ((i * g.lseg - e.r.z) / e.v.z)) := by
      refine ⟨_, ht, rfl, ?_⟩
      rw [off_r]
      simp only [V3.add_z, V3.smul_z]
      rw [div_mul_cancel₀ _ hv]; ring
    rw [fly ht, flown_off hG] at h
    generalize hae : flown Off e ((i * g.lseg - e.r.z) / e.v.z) = a at h harr
    have haz : a.r.z = i * g.lseg := harr.choose_spec.2.2
    by_cases ho : s.outside a
    · rw [if_pos ho] at h
      cases h
      exact .inr (.inl ⟨rfl, [], s, ss, e, a, rfl, rfl, by simpa using harr, .inl ⟨(outside_iff s a).1 ho, rfl⟩⟩)
    rw [if_neg ho] at h
    have hop : s.Opening a.r := by by_contra hc; exact ho ((outside_iff s a).2 hc)
    have hin : (g.tube s).Inside (from' (i * g.lseg) a).r := by
      unfold McGuide.Guide.Inside McGuide.Guide.halfW McGuide.Guide.halfH from' Guide.tube
      simp only [haz, sub_self, zero_div, mul_zero, add_zero]
      exact ⟨hop.1.le, hop.2.le⟩
    have hz : (from' (i * g.lseg) a).r.z < g.lseg := by
      unfold from'; simp only [haz, sub_self]; exact hl
    cases hlp : g.loop G s (i * g.lseg) fuel a with
    | none => rw [hlp] at h; cases h
    | some xb =>
      obtain ⟨y, b⟩ := xb
      rw [hlp] at h
      rcases loop_sound hG hl hW hR hx hy s _ fuel a b y hin hz hlp with ⟨rfl, c, h1, h2⟩ | ⟨rfl, h1, h2⟩
      · cases h
        exact .inr (.inl ⟨rfl, [], s, ss, e, a, rfl, rfl, by simpa using harr, .inr ⟨hop, c, by simpa using h1, by simpa using h2⟩⟩)
      · simp only at h
        rw [turn_none r1 r2] at h
        have hcons : ∀ s1 d, g.Passes s1 (i + 1) b d → g.Passes (s :: s1) i e d := fun s1 d hd => ⟨a, b, harr, hop, h1, h2, hd⟩
        have hlen : ∀ s1 : List Seg, i + (s :: s1).length = i + 1 + s1.length := fun s1 => by rw [List.length_cons]; omega
        rcases segments_sound hG hl hW hR hx hy r1 r2 fuel ss (i + 1) b r x h with ⟨h3, h4⟩ | ⟨h3, s1, s', s2, d, f, h4, h5, h6, h7⟩ |
          ⟨s1, s', s2, d, h4, h5, h6⟩
        · exact .inl ⟨h3, hcons _ _ h4⟩
        · refine .inr (.inl ⟨h3, s :: s1, s', s2, d, f, by rw [h4]; rfl, hcons _ _ h5, ?_⟩)
          rw [hlen]; exact ⟨h6, h7⟩
        · refine .inr (.inr ⟨s :: s1, s', s2, d, by rw [h4]; rfl, hcons _ _ h5, ?_⟩)
          rw [hlen]; exact h6

/-! ### speed and weight -/

theorem bounce_len {w : Wall} (h : 0 < w.n.dot w.n) (v : V3 ℝ) : (bounce w v).2.dot (bounce w v).2 = v.dot v := by
  unfold bounce
  simp only
  have e : ∀ d : ℝ, (v - d • w.n).dot (v - d • w.n) = v.dot v - 2 * d * w.n.dot v + d * d * w.n.dot w.n := by
    intro d; simp only [V3.dot, V3.sub_x, V3.sub_y, V3.sub_z, V3.smul_x, V3.smul_y, V3.smul_z]; ring
  rw [e]
  field_simp
  ring

theorem std_le {c : McOptB.Reflec} (hW : 0 < c.W) (hR : c.R0 ≤ 1) (ha : 0 ≤ c.alpha) (q : ℝ) : stdReflec c q ≤ 1 := by
  rw [std_plain (fun h => hW.ne' h.1), total_eq, if_pos hW]
  split
  · norm_num
  · next h =>
    push Not at h
    split
    · exact hR
    · next h2 =>
      rw [show c.R0 * 0.5 * (1 - Real.tanh ((|q| - c.m * c.Qc) / c.W)) = c.R0 * (0.5 * (1 - Real.tanh ((|q| - c.m * c.Qc) / c.W))) by ring,
        tanh_logistic]
      have hE : 0 < Real.exp (2 * ((|q| - c.m * c.Qc) / c.W)) := Real.exp_pos _
      have h3 : 1 / (1 + Real.exp (2 * ((|q| - c.m * c.Qc) / c.W))) ≤ 1 := by rw [div_le_one (by linarith)]; linarith
      have h4 : 0 ≤ 1 / (1 + Real.exp (2 * ((|q| - c.m * c.Qc) / c.W))) := by positivity
      have h5 : 1 - c.alpha * (|q| - c.total) ≤ 1 := by
        have := mul_nonneg ha (by linarith [not_le.1 h2] : 0 ≤ |q| - c.total)
        linarith
      have h6 : 0 ≤ c.R0 * (1 / (1 + Real.exp (2 * ((|q| - c.m * c.Qc) / c.W)))) := mul_nonneg h.2.2.2.le h4
      have h7 : c.R0 * (1 / (1 + Real.exp (2 * ((|q| - c.m * c.Qc) / c.W)))) ≤ 1 := by nlinarith [h.2.2.2]
      nlinarith

/-- the speed is kept and the weight is not above `P` -/
def Keeps (P : ℝ) (e r : Event ℝ) : Prop := r.v.dot r.v = e.v.dot e.v ∧ (e.p ≤ P → r.p ≤ P)

theorem Keeps.trans {P : ℝ} {a b c : Event ℝ} (h : Keeps P a b) (h' : Keeps P b c) : Keeps P a c :=
  ⟨h'.1.trans h.1, fun x => h'.2 (h.2 x)⟩

theorem keeps_absorb {P : ℝ} (hP : 0 ≤ P) (e : Event ℝ) : Keeps P e (absorb e) := ⟨rfl, fun _ => by simp only [absorb]; linarith⟩

theorem keeps_prop {G : Gravity} (hG : G.on = false) {P : ℝ} (hP : 0 ≤ P) (t : ℝ) (e : Event ℝ) : Keeps P e (propDt G t e) := by
  unfold propDt
  split
  · exact keeps_absorb hP e
  · simp only [hG, Bool.false_eq_true, if_false]
    exact ⟨rfl, id⟩

theorem keeps_loop {g : Guide} {G : Gravity} (hG : G.on = false) (hl : 0 < g.lseg) (hW : 0 < g.W) (hR : g.R0 ≤ 1) (hx : 0 ≤ g.alphax)
    (hy : 0 ≤ g.alphay) {P : ℝ} (hP : 0 ≤ P) (s : Seg) (zr : ℝ) : ∀ (fuel : Nat) (e r : Event ℝ) (x : Bool),
    g.loop G s zr fuel e = some (x, r) → Keeps P e r
  | 0, e, r, x, h => by cases h
  | fuel + 1, e, r, x, h => by
    rw [Guide.loop] at h
    cases hn : (g.tube s).next { e with r := ⟨e.r.x, e.r.y, e.r.z - zr⟩ } with
    | none =>
      rw [hn] at h
      cases h
      exact ⟨rfl, id⟩
    | some tw =>
      obtain ⟨t, w⟩ := tw
      rw [hn] at h
      have hw := (next_some hn).1
      have hpos := wall_pos (g := g.tube s) hl hw
      have hk := keeps_prop hG hP t e
      have hb : Keeps P (propDt G t e) { propDt G t e with v := (bounce w (propDt G t e).v).2 } := ⟨bounce_len hpos _, id⟩
      simp only at h
      rcases McRotor.ite_or h with ⟨-, h⟩ | ⟨-, h⟩
      · cases h
        exact (hk.trans hb).trans (keeps_absorb hP _)
      rcases McRotor.ite_or h with ⟨h0, h⟩ | ⟨-, h⟩
      · refine (hk.trans hb).trans (Keeps.trans ?_ (keeps_loop hG hl hW hR hx hy hP s zr fuel _ r x h))
        refine ⟨rfl, fun hp => ?_⟩
        simp only at hp ⊢
        have hle : stdReflec (g.coat s w) (bounce w (propDt G t e).v).1 ≤ 1 := by
          apply std_le
          · unfold Guide.coat; split <;> exact hW
          · unfold Guide.coat; split <;> exact hR
          · unfold Guide.coat; split <;> assumption
        nlinarith
      · cases h
        exact (hk.trans hb).trans (keeps_absorb hP _)

theorem keeps_turn {P : ℝ} (g : Guide) (e : Event ℝ) : Keeps P e (g.turn e) := by
  have h1 : (⟨0, 1, 0⟩ : V3 ℝ) ≠ 0 := fun h => by have := congrArg V3.y h; simp at this
  have h2 : (⟨1, 0, 0⟩ : V3 ℝ) ≠ 0 := fun h => by have := congrArg V3.x h; simp at this
  unfold Guide.turn
  simp only
  split <;> split <;> refine ⟨?_, id⟩ <;> simp only [McGrav.rotate_len h1, McGrav.rotate_len h2]

theorem keeps_segments {g : Guide} {G : Gravity} (hG : G.on = false) (hl : 0 < g.lseg) (hW : 0 < g.W) (hR : g.R0 ≤ 1) (hx : 0 ≤ g.alphax)
    (hy : 0 ≤ g.alphay) {P : ℝ} (hP : 0 ≤ P) (fuel : Nat) : ∀ (ss : List Seg) (i : ℕ) (e r : Event ℝ) (x : Bool),
    g.segments G fuel ss i e = some (x, r) → Keeps P e r
  | [], i, e, r, x, h => by
    cases h
    exact ⟨rfl, id⟩
  | s :: ss, i, e, r, x, h => by
    rw [Guide.segments] at h
    by_cases hv : e.v.z = 0
    · simp [divD, hv] at h
    simp only [divD, if_neg hv, Option.bind_eq_bind, Option.bind_some] at h
    have hk := keeps_prop hG hP ((i * g.lseg - e.r.z) / e.v.z) e
    rcases McRotor.ite_or h with ⟨-, h⟩ | ⟨-, h⟩
    · cases h
      exact hk.trans (keeps_absorb hP _)
    cases hlp : g.loop G s (i * g.lseg) fuel (propDt G ((i * g.lseg - e.r.z) / e.v.z) e) with
    | none => rw [hlp] at h; cases h
    | some xb =>
      obtain ⟨y, b⟩ := xb
      rw [hlp] at h
      have hb := hk.trans (keeps_loop hG hl hW hR hx hy hP s _ fuel _ b y hlp)
      cases y with
      | true => cases h; exact hb
      | false => exact (hb.trans (keeps_turn g b)).trans (keeps_segments hG hl hW hR hx hy hP fuel ss (i + 1) _ r x h)

end Verif.McTaper
