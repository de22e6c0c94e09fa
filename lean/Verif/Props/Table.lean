import Verif.Lemmas.Table
import Mathlib.Tactic.IntervalCases
/-!
Property theorems about tables and interpolation on grids: C39, C40, C103, C104.
-/

namespace Verif.Table

/-! ### C39 binary search -/

/-- **C39 (partial)** In a strictly increasing table of `n > 0` entries the search finds the first entry that
is at least `x`, or `n` if there is none, for every `x` other than the last entry.
Missing: `x` equal to the last entry (`C39_last_false`) and tables with repeated entries (`C39_equal_false`). -/
theorem C39_first_partial {α : Type} [LinearOrder α] {f : Nat → α} {n : Nat} (h : Increasing f n) (hn : 0 < n)
    {x : α} (hx : x ≠ f (n - 1)) : ∃ i, search x f n = .ok i ∧ IsFirst f n x i := by
  obtain ⟨i, hi, h1 | h1⟩ := search_spec (x := x) h hn
  · refine ⟨i, hi, h1.1.le, fun j hj => ?_, fun hh => absurd hh (by omega)⟩
    exact lt_of_le_of_lt (h.le (show j ≤ n - 1 by omega) (by omega)) (lt_of_le_of_ne h1.2 (Ne.symm hx))
  · exact ⟨i, hi, h1.2.1⟩

example : ∃ i, search 5 (fun i => [(2 : Int), 4, 6, 8].getD i 0) 4 = .ok i ∧
    IsFirst (fun i => [(2 : Int), 4, 6, 8].getD i 0) 4 5 i :=
  C39_first_partial (by intro i j h1 h2; interval_cases j <;> interval_cases i <;> simp) (by decide) (by decide)

example : IsFirst (fun i => [(2 : Int), 4, 6, 8].getD i 0) 4 5 2 ∧
    ¬ IsFirst (fun i => [(2 : Int), 4, 6, 8].getD i 0) 4 5 1 := by
  refine ⟨⟨by omega, fun j hj => ?_, by simp⟩, fun hh => ?_⟩
  · interval_cases j <;> simp
  · have := hh.2.2 (by decide); simp at this

/-- **C39** Only one index can be meant. -/
theorem C39_unique {α : Type} [LinearOrder α] {f : Nat → α} {n : Nat} {x : α} {i j : Nat}
    (hi : IsFirst f n x i) (hj : IsFirst f n x j) : i = j := by
  rcases Nat.lt_trichotomy i j with h | h | h
  · exact absurd (hi.2.2 (lt_of_lt_of_le h hj.1)) (not_le.2 (hj.2.1 i h))
  · exact h
  · exact absurd (hj.2.2 (lt_of_lt_of_le h hi.1)) (not_le.2 (hi.2.1 j h))

/-- **C39 is false** for the value of the last entry: the search says that no entry is large enough. -/
theorem C39_last_false : ¬ ∀ (f : Nat → Int) (n : Nat), Increasing f n → 0 < n → ∀ x,
    ∃ i, search x f n = .ok i ∧ IsFirst f n x i := by
  intro h
  obtain ⟨i, hi, h1⟩ := h (fun i => (i : Int)) 3 (by intro i j hij _; simpa using hij) (by decide) 2
  have hs : search (2 : Int) (fun i => (i : Int)) 3 = .ok 3 := by simp [search]
  rw [hs] at hi
  obtain rfl : 3 = i := by simpa using hi
  have := h1.2.1 2 (by decide)
  simp at this

/-- **C39 is false** for a table with repeated entries: not the first of them is found. -/
theorem C39_equal_false : ¬ ∀ (f : Nat → Int) (n : Nat), (∀ i j, i ≤ j → j < n → f i ≤ f j) → 0 < n → ∀ x,
    x ≠ f (n - 1) → ∃ i, search x f n = .ok i ∧ IsFirst f n x i := by
  intro h
  obtain ⟨i, hi, h1⟩ := h (fun i => [(0 : Int), 1, 1, 2, 3].getD i 0) 5
    (by intro i j h1 h2; interval_cases j <;> interval_cases i <;> simp) (by decide) 1 (by decide)
  have hs : search (1 : Int) (fun i => [(0 : Int), 1, 1, 2, 3].getD i 0) 5 = .ok 2 := by
    simp [search, searchLoop]
  rw [hs] at hi
  obtain rfl : 2 = i := by simpa using hi
  have := h1.2.1 1 (by decide)
  simp at this

/-! ### C103 absorption curve -/

/-- **C103** A curve accepted by the constructor gives, for every energy: the first value below the first
energy, the last value above the last energy, and on the segment between two neighbouring energies (ends
included) the straight line through the two values. -/
theorem C103_curve {es mus : Nat → ℝ} {n m : Nat} (h : curveOk es n m = .ok ()) (E : ℝ) :
    ∃ y, absorptionAt es mus n E = .ok y ∧ (E ≤ es 0 → y = mus 0) ∧ (es (n - 1) ≤ E → y = mus (n - 1)) ∧
      ∀ i, i + 1 < n → es i ≤ E → E ≤ es (i + 1) →
        (y - mus i) * (es (i + 1) - es i) = (mus (i + 1) - mus i) * (E - es i) := by
  obtain ⟨_, hn, hinc⟩ := curveOk_some h
  obtain ⟨k, hk, hc⟩ := search_spec (x := E) hinc hn
  unfold absorptionAt
  simp only [hk, bind, Except.bind]
  rcases hc with ⟨rfl, hl⟩ | ⟨hl, ⟨_, hf1, hf2⟩, hkn⟩
  · rw [if_neg (by omega), if_pos le_rfl]
    refine ⟨_, rfl, fun h0 => ?_, fun _ => rfl, fun i hi h1 h2 => ?_⟩
    · have : k - 1 = 0 := by
        by_contra hne
        exact absurd (hinc 0 (k - 1) (by omega) (by omega)) (not_lt.2 (hl.trans h0))
      rw [this]
    · have hi' : i + 1 = k - 1 := by
        by_contra hne
        exact absurd (hinc (i + 1) (k - 1) (by omega) (by omega)) (not_lt.2 (hl.trans h2))
      have he : es (i + 1) = E := le_antisymm (by rw [hi']; exact hl) h2
      rw [← hi', he]
  · by_cases hk0 : k = 0
    · subst hk0
      rw [if_pos le_rfl]
      have h00 : E ≤ es 0 := hf2 hkn
      refine ⟨_, rfl, fun _ => rfl, fun hh => absurd hh (not_le.2 hl), fun i hi h1 h2 => ?_⟩
      have hi0 : i = 0 := by
        by_contra hne
        exact absurd (hinc 0 i (by omega) (by omega)) (not_lt.2 (h1.trans h00))
      subst hi0
      have he : E = es 0 := le_antisymm h00 h1
      rw [he]; ring
    · rw [if_neg (by omega), if_neg (by omega)]
      have hlt : es (k - 1) < es k := hinc _ _ (by omega) hkn
      have hlow : es (k - 1) < E := hf1 _ (by omega)
      have hup : E ≤ es k := hf2 hkn
      have hD : es k - es (k - 1) ≠ 0 := (sub_pos.2 hlt).ne'
      refine ⟨_, rfl, fun hh => ?_, fun hh => absurd hh (not_le.2 hl), fun i hi h1 h2 => ?_⟩
      · exact absurd (lt_of_lt_of_le hlow hh) (not_lt.2 (hinc.le (Nat.zero_le _) (by omega)))
      · rcases Nat.lt_trichotomy (i + 1) k with hh | hh | hh
        · exact absurd (lt_of_lt_of_le hlow h2) (not_lt.2 (hinc.le (show i + 1 ≤ k - 1 by omega) (by omega)))
        · have hi' : i = k - 1 := by omega
          subst hi'
          rw [hh]
          field_simp
          ring
        · have hi' : i = k := by
            by_contra hne
            exact absurd (hinc k i (by omega) (by omega)) (not_lt.2 (h1.trans hup))
          subst hi'
          have he : E = es i := le_antisymm hup h1
          rw [he, div_self hD]; ring

/-- **C103** The value is never outside of the range of the table. -/
theorem C103_range {es mus : Nat → ℝ} {n m : Nat} (h : curveOk es n m = .ok ()) (E : ℝ) {lo hi : ℝ}
    (hr : ∀ i < n, lo ≤ mus i ∧ mus i ≤ hi) :
    ∃ y, absorptionAt es mus n E = .ok y ∧ lo ≤ y ∧ y ≤ hi := by
  obtain ⟨_, hn, hinc⟩ := curveOk_some h
  obtain ⟨k, hk, hc⟩ := search_spec (x := E) hinc hn
  unfold absorptionAt
  simp only [hk, bind, Except.bind]
  split
  · exact ⟨_, rfl, hr 0 hn⟩
  · split
    · exact ⟨_, rfl, hr (n - 1) (by omega)⟩
    · next h1 h2 =>
      rcases hc with ⟨rfl, _⟩ | ⟨_, ⟨_, hf1, hf2⟩, hkn⟩
      · exact absurd le_rfl h2
      · have hlow : es (k - 1) < E := hf1 _ (by omega)
        have hup : E ≤ es k := hf2 hkn
        have hD : 0 < es k - es (k - 1) := by linarith
        have hx0 : 0 ≤ (E - es (k - 1)) / (es k - es (k - 1)) := div_nonneg (by linarith) hD.le
        have hx1 : (E - es (k - 1)) / (es k - es (k - 1)) ≤ 1 := by rw [div_le_one hD]; linarith
        have := interp1_between hx0 hx1 (hr (k - 1) (by omega)) (hr k hkn)
        refine ⟨_, rfl, ?_⟩
        have e : ∀ r : ℝ, r * mus k + (1 - r) * mus (k - 1) = interp1 (mus (k - 1)) (mus k) r := by
          intro r; unfold interp1; ring
        rw [e]; exact this

/-- an accepted curve: energies 0, 1, 2, …; absorption falls from 4 -/
theorem demo_curve : curveOk (fun i => (i : ℝ)) 5 5 = .ok () := by
  unfold curveOk
  rw [if_neg (by simp), if_neg (by simp), if_pos (fun i _ => by push_cast; linarith)]

example : ∃ y, absorptionAt (fun i => (i : ℝ)) (fun i => 4 - (i : ℝ)) 5 (5 / 2) = .ok y ∧ y = 3 / 2 := by
  obtain ⟨y, h, _, _, h3⟩ := C103_curve (mus := fun i => 4 - (i : ℝ)) demo_curve (5 / 2)
  refine ⟨y, h, ?_⟩
  have := h3 2 (by decide) (by norm_num) (by norm_num)
  norm_num at this
  linarith

example : ∃ y, absorptionAt (fun i => (i : ℝ)) (fun i => 4 - (i : ℝ)) 5 77 = .ok y ∧ 0 ≤ y ∧ y ≤ 4 :=
  C103_range demo_curve 77 (fun i hi => by
    have : (i : ℝ) ≤ 4 := by exact_mod_cast (show i ≤ 4 by omega)
    have : (0 : ℝ) ≤ i := Nat.cast_nonneg i
    constructor <;> linarith)

/-! ### C40 interpolation -/

/-- **C40** In one dimension: data of a linear function is reproduced at every place of the axis. -/
theorem C40_linear {a : Axis} (hs : 0 < a.step) (c d : ℝ) {data : Nat → ℝ}
    (hd : ∀ i ≤ a.n, data i = c + d * a.tick i) {x : ℝ} (h0 : a.tick 0 ≤ x) (h1 : x < a.tick a.n) :
    value1 a data x = .ok (c + d * x) := by
  obtain ⟨i, hi⟩ := exists_cell hs (by simpa [Axis.tick] using h0) h1
  unfold value1
  rw [locate1_cell hs hi]
  simp only [bind, Except.bind, interp1, hd i (by have := hi.1; omega), hd (i + 1) (by have := hi.1; omega),
    tick_succ]
  congr 1
  field_simp
  ring

/-- **C40** In one dimension: the data is reproduced at every tick but the last. -/
theorem C40_node {a : Axis} (hs : 0 < a.step) (data : Nat → ℝ) {i : Nat} (hi : i < a.n) :
    value1 a data (a.tick i) = .ok (data i) := by
  unfold value1
  rw [locate1_cell hs ⟨hi, le_rfl, by rw [tick_succ]; linarith⟩]
  simp [bind, Except.bind, interp1]

/-- **C40** In one dimension: the value is between those at the two surrounding ticks. -/
theorem C40_between {a : Axis} (hs : 0 < a.step) (data : Nat → ℝ) {x : ℝ} {i : Nat} (hi : a.In x i) :
    ∃ y, value1 a data x = .ok y ∧ min (data i) (data (i + 1)) ≤ y ∧ y ≤ max (data i) (data (i + 1)) := by
  unfold value1
  rw [locate1_cell hs hi]
  obtain ⟨f0, f1⟩ := cell_fraction hs hi
  exact ⟨_, rfl, interp1_between f0 f1.le ⟨min_le_left _ _, le_max_left _ _⟩ ⟨min_le_right _ _, le_max_right _ _⟩⟩

/-- **C40** A query outside of the axis fails, in all three classes (in three dimensions further out than the
tolerance of 1e-7 steps; here for the first axis). -/
theorem C40_outside {a ay az : Axis} (hs : 0 < a.step) {x : ℝ}
    (h : x ≤ a.tick 0 - 1e-7 * a.step ∨ a.tick a.n + 1e-7 * a.step ≤ x)
    (d : Nat → ℝ) (d3 : Nat → Nat → Nat → ℝ) (y z : ℝ) :
    value1 a d x = .error .cppException ∧ value3 a ay az d3 x y z = .error .cppException ∧
      valueN a ay az d3 x y z = .error .cppException := by
  have hr : (x - a.start) / a.step ≤ -1e-7 ∨ a.n + 1e-7 ≤ (x - a.start) / a.step := by
    rcases h with h | h
    · left; rw [div_le_iff₀ hs]; simp only [Axis.tick, Nat.cast_zero] at h; linarith
    · right; rw [le_div_iff₀ hs]; simp only [Axis.tick] at h; linarith
  have hn : (0 : ℝ) ≤ a.n := Nat.cast_nonneg _
  have hout : (x - a.start) / a.step < 0 ∨ (x - a.start) / a.step ≥ a.n := by
    rcases hr with hr | hr
    · left; norm_num at hr ⊢; linarith
    · right; norm_num at hr ⊢; linarith
  have ha : ¬ |(x - a.start) / a.step| < 1e-7 := by
    rw [not_lt]
    rcases hr with hr | hr
    · exact le_trans (by linarith) (neg_le_abs _)
    · exact le_trans (by linarith) (le_abs_self _)
  have hb : ¬ |(x - a.start) / a.step - a.n| < 1e-7 := by
    rw [not_lt]
    rcases hr with hr | hr
    · exact le_trans (by linarith) (neg_le_abs _)
    · exact le_trans (by linarith) (le_abs_self _)
  have e1 : locate1 a x = .error .cppException := by unfold locate1; simp only; rw [if_pos hout]
  have e3 : locate3 a x = .error .cppException := by
    unfold locate3; simp only; rw [if_pos hout, if_neg ha, if_neg hb]
  have eN : locateN a x = .error .cppException := by unfold locateN; simp only; rw [if_pos ⟨hout, ha⟩]
  refine ⟨?_, ?_, ?_⟩
  · unfold value1; rw [e1]; rfl
  · unfold value3; rw [e3]; rfl
  · unfold valueN; rw [eN]; rfl

/-- **C40** In three dimensions: data of a function that is linear in each variable is reproduced everywhere
on the grid. -/
theorem C40_trilinear {ax ay az : Axis} (hx : 0 < ax.step) (hy : 0 < ay.step) (hz : 0 < az.step)
    (c : Fin 8 → ℝ) {data : Nat → Nat → Nat → ℝ}
    (hd : ∀ i ≤ ax.n, ∀ j ≤ ay.n, ∀ k ≤ az.n, data i j k = tri c (ax.tick i) (ay.tick j) (az.tick k))
    {x y z : ℝ} (hx0 : ax.tick 0 ≤ x) (hx1 : x < ax.tick ax.n) (hy0 : ay.tick 0 ≤ y) (hy1 : y < ay.tick ay.n)
    (hz0 : az.tick 0 ≤ z) (hz1 : z < az.tick az.n) :
    value3 ax ay az data x y z = .ok (tri c x y z) := by
  obtain ⟨i, hi⟩ := exists_cell hx (by simpa [Axis.tick] using hx0) hx1
  obtain ⟨j, hj⟩ := exists_cell hy (by simpa [Axis.tick] using hy0) hy1
  obtain ⟨k, hk⟩ := exists_cell hz (by simpa [Axis.tick] using hz0) hz1
  rw [value3_cell hx hy hz hi hj hk]
  have li := hi.1
  have lj := hj.1
  have lk := hk.1
  rw [hd i (by omega) j (by omega) k (by omega), hd (i + 1) (by omega) j (by omega) k (by omega),
    hd i (by omega) (j + 1) (by omega) k (by omega), hd i (by omega) j (by omega) (k + 1) (by omega),
    hd i (by omega) (j + 1) (by omega) (k + 1) (by omega), hd (i + 1) (by omega) j (by omega) (k + 1) (by omega),
    hd (i + 1) (by omega) (j + 1) (by omega) k (by omega),
    hd (i + 1) (by omega) (j + 1) (by omega) (k + 1) (by omega)]
  simp only [tick_succ]
  obtain ⟨s, hs⟩ : ∃ s, s = (x - ax.tick i) / ax.step := ⟨_, rfl⟩
  obtain ⟨t, ht⟩ : ∃ t, t = (y - ay.tick j) / ay.step := ⟨_, rfl⟩
  obtain ⟨u, hu⟩ : ∃ u, u = (z - az.tick k) / az.step := ⟨_, rfl⟩
  have ex : x = ax.tick i + s * ax.step := by rw [hs]; field_simp; ring
  have ey : y = ay.tick j + t * ay.step := by rw [ht]; field_simp; ring
  have ez : z = az.tick k + u * az.step := by rw [hu]; field_simp; ring
  rw [← hs, ← ht, ← hu, ex, ey, ez]
  congr 1
  unfold interp3 tri
  ring

/-- **C40** In three dimensions: the data is reproduced at every node but those on the last planes. -/
theorem C40_node3 {ax ay az : Axis} (hx : 0 < ax.step) (hy : 0 < ay.step) (hz : 0 < az.step)
    (data : Nat → Nat → Nat → ℝ) {i j k : Nat} (hi : i < ax.n) (hj : j < ay.n) (hk : k < az.n) :
    value3 ax ay az data (ax.tick i) (ay.tick j) (az.tick k) = .ok (data i j k) := by
  rw [value3_cell hx hy hz ⟨hi, le_rfl, by rw [tick_succ]; linarith⟩ ⟨hj, le_rfl, by rw [tick_succ]; linarith⟩
    ⟨hk, le_rfl, by rw [tick_succ]; linarith⟩]
  congr 1
  rw [sub_self, sub_self, sub_self, zero_div, zero_div, zero_div]
  unfold interp3
  ring

/-- **C40** In three dimensions: the value is within any bounds of the eight surrounding nodes. -/
theorem C40_between3 {ax ay az : Axis} (hx : 0 < ax.step) (hy : 0 < ay.step) (hz : 0 < az.step)
    (data : Nat → Nat → Nat → ℝ) {x y z : ℝ} {i j k : Nat} (hi : ax.In x i) (hj : ay.In y j) (hk : az.In z k)
    {lo hi' : ℝ} (hb : ∀ a ≤ 1, ∀ b ≤ 1, ∀ c ≤ 1, lo ≤ data (i + a) (j + b) (k + c) ∧
      data (i + a) (j + b) (k + c) ≤ hi') :
    ∃ w, value3 ax ay az data x y z = .ok w ∧ lo ≤ w ∧ w ≤ hi' := by
  rw [value3_cell hx hy hz hi hj hk]
  refine ⟨_, rfl, ?_⟩
  rw [interp3_eq]
  obtain ⟨a0, a1⟩ := cell_fraction hx hi
  obtain ⟨b0, b1⟩ := cell_fraction hy hj
  obtain ⟨c0, c1⟩ := cell_fraction hz hk
  have g := fun a ha b hb' c hc => hb a ha b hb' c hc
  refine interp1_between c0 c1.le
    (interp1_between b0 b1.le (interp1_between a0 a1.le ?_ ?_) (interp1_between a0 a1.le ?_ ?_))
    (interp1_between b0 b1.le (interp1_between a0 a1.le ?_ ?_) (interp1_between a0 a1.le ?_ ?_))
  · exact g 0 (by decide) 0 (by decide) 0 (by decide)
  · exact g 1 (by decide) 0 (by decide) 0 (by decide)
  · exact g 0 (by decide) 1 (by decide) 0 (by decide)
  · exact g 1 (by decide) 1 (by decide) 0 (by decide)
  · exact g 0 (by decide) 0 (by decide) 1 (by decide)
  · exact g 1 (by decide) 0 (by decide) 1 (by decide)
  · exact g 0 (by decide) 1 (by decide) 1 (by decide)
  · exact g 1 (by decide) 1 (by decide) 1 (by decide)

/-- **C40** The helper in two dimensions reproduces what is linear in each variable, and so gives the four
corners. -/
theorem C40_bilinear {xb xe yb ye : ℝ} (hx : xb ≠ xe) (hy : yb ≠ ye) (a b c d x y : ℝ) :
    interp2D xb xe yb ye (a + b * xb + c * yb + d * (xb * yb)) (a + b * xe + c * yb + d * (xe * yb))
      (a + b * xb + c * ye + d * (xb * ye)) (a + b * xe + c * ye + d * (xe * ye)) x y
      = a + b * x + c * y + d * (x * y) := by
  have h1 : xe - xb ≠ 0 := sub_ne_zero.2 (Ne.symm hx)
  have h2 : ye - yb ≠ 0 := sub_ne_zero.2 (Ne.symm hy)
  obtain ⟨s, hs⟩ : ∃ s, s = (x - xb) / (xe - xb) := ⟨_, rfl⟩
  obtain ⟨t, ht⟩ : ∃ t, t = (y - yb) / (ye - yb) := ⟨_, rfl⟩
  have ex : x = xb + s * (xe - xb) := by rw [hs]; field_simp; ring
  have ey : y = yb + t * (ye - yb) := by rw [ht]; field_simp; ring
  unfold interp2D
  rw [← hs, ← ht, ex, ey]
  unfold interp2
  ring

/-- **C40** The same for the helper in three dimensions. -/
theorem C40_trilinear_helper {x0 x1 y0 y1 z0 z1 : ℝ} (hx : x0 ≠ x1) (hy : y0 ≠ y1) (hz : z0 ≠ z1)
    (c : Fin 8 → ℝ) (x y z : ℝ) :
    interp3D x0 x1 y0 y1 z0 z1 (tri c x0 y0 z0) (tri c x1 y0 z0) (tri c x0 y1 z0) (tri c x0 y0 z1)
      (tri c x0 y1 z1) (tri c x1 y0 z1) (tri c x1 y1 z0) (tri c x1 y1 z1) x y z = tri c x y z := by
  have h1 : x1 - x0 ≠ 0 := sub_ne_zero.2 (Ne.symm hx)
  have h2 : y1 - y0 ≠ 0 := sub_ne_zero.2 (Ne.symm hy)
  have h3 : z1 - z0 ≠ 0 := sub_ne_zero.2 (Ne.symm hz)
  obtain ⟨s, hs⟩ : ∃ s, s = (x - x0) / (x1 - x0) := ⟨_, rfl⟩
  obtain ⟨t, ht⟩ : ∃ t, t = (y - y0) / (y1 - y0) := ⟨_, rfl⟩
  obtain ⟨u, hu⟩ : ∃ u, u = (z - z0) / (z1 - z0) := ⟨_, rfl⟩
  have ex : x = x0 + s * (x1 - x0) := by rw [hs]; field_simp; ring
  have ey : y = y0 + t * (y1 - y0) := by rw [ht]; field_simp; ring
  have ez : z = z0 + u * (z1 - z0) := by rw [hu]; field_simp; ring
  unfold interp3D
  rw [← hs, ← ht, ← hu, ex, ey, ez]
  unfold interp3 tri
  ring

/-- **C40** Nearest neighbour: the data of a node that is within half a step in every direction. -/
theorem C40_nearest {ax ay az : Axis} (hx : 0 < ax.step) (hy : 0 < ay.step) (hz : 0 < az.step)
    (data : Nat → Nat → Nat → ℝ) {x y z : ℝ}
    (hx0 : ax.tick 0 ≤ x) (hx1 : x ≤ ax.tick ax.n - 1e-7 * ax.step)
    (hy0 : ay.tick 0 ≤ y) (hy1 : y ≤ ay.tick ay.n - 1e-7 * ay.step)
    (hz0 : az.tick 0 ≤ z) (hz1 : z ≤ az.tick az.n - 1e-7 * az.step) :
    ∃ i j k, i ≤ ax.n ∧ j ≤ ay.n ∧ k ≤ az.n ∧ valueN ax ay az data x y z = .ok (data i j k) ∧
      |x - ax.tick i| ≤ ax.step / 2 ∧ |y - ay.tick j| ≤ ay.step / 2 ∧ |z - az.tick k| ≤ az.step / 2 := by
  have key : ∀ {a : Axis} {w : ℝ}, 0 < a.step → a.tick 0 ≤ w → w ≤ a.tick a.n - 1e-7 * a.step →
      ∃ i r, locateN a w = .ok (i, r) ∧ (if r > 0.5 then i + 1 else i) ≤ a.n ∧
        |w - a.tick (if r > 0.5 then i + 1 else i)| ≤ a.step / 2 := by
    intro a w hs h0 h1
    have hlt : (0 : ℝ) < 1e-7 * a.step := mul_pos (by norm_num) hs
    obtain ⟨i, hi⟩ := exists_cell hs (by simpa [Axis.tick] using h0) (show w < a.tick a.n by linarith)
    refine ⟨i, _, locateN_cell hs hi h1, ?_, ?_⟩
    · have := hi.1; split <;> omega
    · obtain ⟨_, h2, h3⟩ := hi
      rw [tick_succ] at h3
      split
      · next hr =>
        rw [gt_iff_lt, lt_div_iff₀ hs] at hr
        rw [tick_succ, abs_le]
        constructor <;> norm_num at hr ⊢ <;> linarith
      · next hr =>
        rw [gt_iff_lt, lt_div_iff₀ hs, not_lt] at hr
        rw [abs_le]
        constructor <;> norm_num at hr ⊢ <;> linarith
  obtain ⟨i, rx, e1, b1, c1⟩ := key hx hx0 hx1
  obtain ⟨j, ry, e2, b2, c2⟩ := key hy hy0 hy1
  obtain ⟨k, rz, e3, b3, c3⟩ := key hz hz0 hz1
  refine ⟨_, _, _, b1, b2, b3, ?_, c1, c2, c3⟩
  unfold valueN
  rw [e1, e2, e3]
  rfl

/-- an axis with ticks 1, 3, 5, 7 -/
noncomputable def demoAxis : Axis := ⟨1, 2, 3⟩

example : value1 demoAxis (fun i => 10 + 3 * demoAxis.tick i) 4 = .ok (10 + 3 * 4) :=
  C40_linear (by norm_num [demoAxis]) 10 3 (fun _ _ => rfl) (by norm_num [demoAxis, Axis.tick])
    (by norm_num [demoAxis, Axis.tick])

example : value1 demoAxis (fun i => (i : ℝ) ^ 2) (demoAxis.tick 2) = .ok (((2 : ℕ) : ℝ) ^ 2) :=
  C40_node (by norm_num [demoAxis]) _ (by norm_num [demoAxis])

example : demoAxis.In 4 1 := by refine ⟨?_, ?_, ?_⟩ <;> norm_num [demoAxis, Axis.tick]

example : ∃ y, value1 demoAxis (fun i => (i : ℝ) ^ 2) 4 = .ok y ∧ 1 ≤ y ∧ y ≤ 4 := by
  obtain ⟨y, h, h1, h2⟩ := C40_between (a := demoAxis) (by norm_num [demoAxis]) (fun i => (i : ℝ) ^ 2)
    (x := 4) (i := 1) (by refine ⟨?_, ?_, ?_⟩ <;> norm_num [demoAxis, Axis.tick])
  norm_num at h1 h2
  exact ⟨y, h, h1, h2⟩

example : value1 demoAxis (fun i => (i : ℝ)) 9 = .error .cppException :=
  (C40_outside (a := demoAxis) (ay := demoAxis) (az := demoAxis) (by norm_num [demoAxis])
    (.inr (by norm_num [demoAxis, Axis.tick])) _ (fun _ _ _ => 0) 0 0).1

example (data : Nat → Nat → Nat → ℝ)
    (hd : ∀ i j k, data i j k = tri (fun m => (m : ℝ)) (demoAxis.tick i) (demoAxis.tick j) (demoAxis.tick k)) :
    value3 demoAxis demoAxis demoAxis data 2 4 6 = .ok (tri (fun m => (m : ℝ)) 2 4 6) :=
  C40_trilinear (by norm_num [demoAxis]) (by norm_num [demoAxis]) (by norm_num [demoAxis]) _
    (fun i _ j _ k _ => hd i j k) (by norm_num [demoAxis, Axis.tick])
    (by norm_num [demoAxis, Axis.tick]) (by norm_num [demoAxis, Axis.tick]) (by norm_num [demoAxis, Axis.tick])
    (by norm_num [demoAxis, Axis.tick]) (by norm_num [demoAxis, Axis.tick])

example (data : Nat → Nat → Nat → ℝ) : value3 demoAxis demoAxis demoAxis data
    (demoAxis.tick 1) (demoAxis.tick 2) (demoAxis.tick 0) = .ok (data 1 2 0) :=
  C40_node3 (by norm_num [demoAxis]) (by norm_num [demoAxis]) (by norm_num [demoAxis]) data
    (by norm_num [demoAxis]) (by norm_num [demoAxis]) (by norm_num [demoAxis])

example : ∃ w, value3 demoAxis demoAxis demoAxis (fun i j k => i + j + k) 4 4 4 = .ok w ∧ 3 ≤ w ∧ w ≤ 6 :=
  C40_between3 (by norm_num [demoAxis]) (by norm_num [demoAxis]) (by norm_num [demoAxis]) _ (i := 1) (j := 1)
    (k := 1) (by refine ⟨?_, ?_, ?_⟩ <;> norm_num [demoAxis, Axis.tick])
    (by refine ⟨?_, ?_, ?_⟩ <;> norm_num [demoAxis, Axis.tick])
    (by refine ⟨?_, ?_, ?_⟩ <;> norm_num [demoAxis, Axis.tick])
    (fun a ha b hb c hc => by
      interval_cases a <;> interval_cases b <;> interval_cases c <;> norm_num)

example : ∃ i j k : ℕ, i ≤ 3 ∧ j ≤ 3 ∧ k ≤ 3 ∧ valueN demoAxis demoAxis demoAxis (fun i j k => i + j + k) 2.5 4 1.5
      = .ok ((i : ℝ) + j + k) ∧ |2.5 - demoAxis.tick i| ≤ 2 / 2 ∧ |4 - demoAxis.tick j| ≤ 2 / 2 ∧
      |1.5 - demoAxis.tick k| ≤ 2 / 2 :=
  C40_nearest (ax := demoAxis) (ay := demoAxis) (az := demoAxis) (by norm_num [demoAxis])
    (by norm_num [demoAxis]) (by norm_num [demoAxis]) (fun i j k => i + j + k)
    (by norm_num [demoAxis, Axis.tick]) (by norm_num [demoAxis, Axis.tick]) (by norm_num [demoAxis, Axis.tick])
    (by norm_num [demoAxis, Axis.tick]) (by norm_num [demoAxis, Axis.tick]) (by norm_num [demoAxis, Axis.tick])

/-! ### C104 the last plane of a grid -/

/-- **C104 is false**: on the last tick the class in one dimension fails. -/
theorem C104_end1_false : ¬ ∀ (a : Axis) (data : Nat → ℝ), 0 < a.step → 0 < a.n →
    value1 a data (a.tick a.n) = .ok (data a.n) := by
  intro h
  have := h ⟨0, 1, 1⟩ (fun _ => 0) (by norm_num) (by norm_num)
  simp [value1, locate1, Axis.tick, bind, Except.bind] at this

/-- **C104 is false**: on the last plane the class in three dimensions gives the value of the first. -/
theorem C104_end3_false : ¬ ∀ (a : Axis) (data : Nat → Nat → Nat → ℝ), 0 < a.step → 0 < a.n →
    value3 a a a data (a.tick a.n) (a.tick 0) (a.tick 0) = .ok (data a.n 0 0) := by
  intro h
  have := h ⟨0, 1, 1⟩ (fun i _ _ => i) (by norm_num) (by norm_num)
  norm_num [value3, locate3, Axis.tick, bind, Except.bind, interp3] at this

/-- **C104 (partial)** In three dimensions the value on the last plane (within 1e-7 steps beyond it) is that
of the first plane; so it is right for data that is periodic in this direction.  Here for the first axis.
Missing: data that is not periodic (`C104_end3_false`). -/
theorem C104_periodic_partial {ax ay az : Axis} (hx : 0 < ax.step) (hy : 0 < ay.step) (hz : 0 < az.step)
    {data : Nat → Nat → Nat → ℝ} (hp : ∀ j k, data ax.n j k = data 0 j k) {j k : Nat}
    (hj : j < ay.n) (hk : k < az.n) {x : ℝ} (h0 : ax.tick ax.n ≤ x) (h1 : x < ax.tick ax.n + 1e-7 * ax.step) :
    value3 ax ay az data x (ay.tick j) (az.tick k) = .ok (data ax.n j k) := by
  have hr0 : (ax.n : ℝ) ≤ (x - ax.start) / ax.step := by
    rw [le_div_iff₀ hx]; simp only [Axis.tick] at h0; linarith
  have hr1 : (x - ax.start) / ax.step < ax.n + 1e-7 := by
    rw [div_lt_iff₀ hx]; simp only [Axis.tick] at h1; linarith
  have e : locate3 ax x = .ok (0, 0) := by
    unfold locate3; simp only
    rw [if_pos (.inr hr0), if_pos (c := |(x - ax.start) / ax.step - ax.n| < 1e-7)
      (by rw [abs_of_nonneg (by linarith)]; linarith)]
    split <;> rfl
  unfold value3
  rw [e, locate3_cell hy ⟨hj, le_rfl, by rw [tick_succ]; linarith⟩,
    locate3_cell hz ⟨hk, le_rfl, by rw [tick_succ]; linarith⟩]
  simp only [bind, Except.bind]
  congr 1
  rw [sub_self, sub_self, zero_div, zero_div, hp]
  unfold interp3
  ring

example : value3 demoAxis demoAxis demoAxis (fun i j k => if i = 3 then j + k else i + j + k)
    7 (demoAxis.tick 1) (demoAxis.tick 2) = .ok 3 := by
  have := C104_periodic_partial (ax := demoAxis) (ay := demoAxis) (az := demoAxis)
    (data := fun i j k => if i = 3 then (j : ℝ) + k else i + j + k) (j := 1) (k := 2) (x := 7)
    (by norm_num [demoAxis]) (by norm_num [demoAxis]) (by norm_num [demoAxis])
    (by intro j k; norm_num [demoAxis]) (by norm_num [demoAxis]) (by norm_num [demoAxis])
    (by norm_num [demoAxis, Axis.tick]) (by norm_num [demoAxis, Axis.tick])
  rw [this]; norm_num [demoAxis]

end Verif.Table
