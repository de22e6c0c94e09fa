import Verif.Lemmas.NdAxes
/-! Theorems on the axes of monitors and on packet sizes (C254-C256). -/

namespace Verif.NdAxes
open Spec

/-! ### C254 -/

/-- A monitor of one documented quantity has one axis, with the documented unit,
and for every neutron that moves along the beam the value on the axis has the
meaning of the quantity in that unit. -/
theorem C254_axes (k : Consts) (hh : 0 < k.hbar) (hm : 0 < k.mN) (he : 0 < k.e) (inv : String → Setting)
    (xw yh : ℝ) (hx : 0 < xw) (hy : 0 < yh) (n : Event ℝ) (hz : n.v.z ≠ 0) :
    ∀ d ∈ documented k n, ∃ a, init [d.1] [] inv xw yh = .ok ([a], xw, yh) ∧ a.name = d.1 ∧ a.unit = d.2.1 ∧
      a.bins = (inv d.1).bins ∧ a.lo = (inv d.1).lo ∧ a.hi = (inv d.1).hi ∧ ∃ v, a.expr.value k n = some v ∧ d.2.2 v := by
  have hs : n.v.x * n.v.x + n.v.y * n.v.y + n.v.z * n.v.z = n.v.x ^ 2 + n.v.y ^ 2 + n.v.z ^ 2 := by ring
  have hpos : 0 < n.v.x ^ 2 + n.v.y ^ 2 + n.v.z ^ 2 := by positivity
  have hsp : 0 < speed n := Real.sqrt_pos.mpr hpos
  have hsq : speed n ^ 2 = n.v.x ^ 2 + n.v.y ^ 2 + n.v.z ^ 2 := Real.sq_sqrt hpos.le
  have hno : ¬(xw ≤ 0 ∨ yh ≤ 0) := by push Not; exact ⟨hx, hy⟩
  have hi : ∀ (q : String) (e : Expr) (u : String),
      (get neqs q = .ok e ∨ get neqs q = .error .keyError ∧ get q2e q = .ok e) → get q2u q = .ok u →
      init [q] [] inv xw yh = .ok ([⟨q, e, u, (inv q).bins, (inv q).lo, (inv q).hi⟩], xw, yh) := by
    intro q e u h1 h2
    rcases h1 with h1 | ⟨h1, h3⟩
    · simp only [init, overlay, axes, h1, h2, if_neg hno]
    · simp only [init, overlay, axes, h1, h3, h2, if_neg hno]
  intro d hd
  simp only [documented, List.mem_cons, List.not_mem_nil, or_false] at hd
  rcases hd with rfl | rfl | rfl | rfl | rfl | rfl | rfl | rfl | rfl | rfl | rfl | rfl | rfl
  · refine ⟨_, hi "energy" .energy "meV" (by decide) (by decide), rfl, rfl, rfl, rfl, rfl, _, rfl, ?_⟩
    simp only [hs, ← hsq, Consts.VS2E]; field_simp; norm_num
  · refine ⟨_, hi "w" .w "angstrom" (by decide) (by decide), rfl, rfl, rfl, rfl, rfl, k.RV2W * 1 / speed n, ?_, ?_⟩
    · simp only [Expr.value, hs]; rw [if_neg (by exact hsp.ne')]; rfl
    · simp only [Consts.RV2W, Consts.K2V]; field_simp; norm_num
  · refine ⟨_, hi "q" .q "angstrom**-1" (by decide) (by decide), rfl, rfl, rfl, rfl, rfl, _, rfl, ?_⟩
    simp only [hs, Consts.V2K, Consts.K2V]
    change k.hbar * (1 / (k.hbar / k.mN * 1e10) * speed n * 1e10) = _
    field_simp
  · refine ⟨_, hi "divx" .divx "1" (by decide) (by decide), rfl, rfl, rfl, rfl, rfl, n.v.x / n.v.z, by simp [Expr.value, hz], ?_⟩
    simp only; field_simp
  · refine ⟨_, hi "divy" .divy "1" (by decide) (by decide), rfl, rfl, rfl, rfl, rfl, n.v.y / n.v.z, by simp [Expr.value, hz], ?_⟩
    simp only; field_simp
  · exact ⟨_, hi "tof" .tof "second" (by decide) (by decide), rfl, rfl, rfl, rfl, rfl, _, rfl, rfl⟩
  · exact ⟨_, hi "x" .x "meter" (by decide) (by decide), rfl, rfl, rfl, rfl, rfl, _, rfl, rfl⟩
  · exact ⟨_, hi "y" .y "meter" (by decide) (by decide), rfl, rfl, rfl, rfl, rfl, _, rfl, rfl⟩
  · exact ⟨_, hi "z" .z "meter" (by decide) (by decide), rfl, rfl, rfl, rfl, rfl, _, rfl, rfl⟩
  · exact ⟨_, hi "vx" .vx "meter/second" (by decide) (by decide), rfl, rfl, rfl, rfl, rfl, _, rfl, rfl⟩
  · exact ⟨_, hi "vy" .vy "meter/second" (by decide) (by decide), rfl, rfl, rfl, rfl, rfl, _, rfl, rfl⟩
  · exact ⟨_, hi "vz" .vz "meter/second" (by decide) (by decide), rfl, rfl, rfl, rfl, rfl, _, rfl, rfl⟩
  · exact ⟨_, hi "t" .t "second" (by decide) (by decide), rfl, rfl, rfl, rfl, rfl, _, rfl, rfl⟩

/-- The axes of a monitor are those asked for, in this order, each with its own settings. -/
theorem C254_order (qs : List String) (kwds : List (Key × String)) (inv : String → Setting) (xw yh : ℝ) (as : List AxisDef) (sz : ℝ × ℝ)
    (h : init qs kwds inv xw yh = .ok (as, sz)) :
    List.Forall₂ (fun q a => a.name = q ∧ a.bins = (inv q).bins ∧ a.lo = (inv q).lo ∧ a.hi = (inv q).hi) qs as ∧
    sz = (xw, yh) ∧ 0 < xw ∧ 0 < yh := by
  unfold init at h
  split at h
  · simp at h
  · rename_i a ha
    split at h
    · simp at h
    · rename_i hn
      push Not at hn
      simp only [Except.ok.injEq, Prod.mk.injEq] at h
      obtain ⟨rfl, rfl⟩ := h
      exact ⟨axes_ok ha, rfl, hn.1, hn.2⟩

/-- hypotheses: a monitor of energy and time of flight exists -/
example (inv : String → Setting) : ∃ as, init ["energy", "tof"] [] inv 0.1 0.1 = .ok (as, 0.1, 0.1) ∧ as.map AxisDef.unit = ["meV", "second"] := by
  refine ⟨[⟨"energy", .energy, "meV", (inv "energy").bins, (inv "energy").lo, (inv "energy").hi⟩,
    ⟨"tof", .tof, "second", (inv "tof").bins, (inv "tof").lo, (inv "tof").hi⟩], ?_, rfl⟩
  have h1 : get neqs "energy" = .error .keyError := by decide
  have h2 : get neqs "tof" = .error .keyError := by decide
  have h3 : get q2e "energy" = .ok .energy := by decide
  have h4 : get q2e "tof" = .ok .tof := by decide
  have h5 : get q2u "energy" = .ok "meV" := by decide
  have h6 : get q2u "tof" = .ok "second" := by decide
  have hno : ¬((0.1 : ℝ) ≤ 0 ∨ (0.1 : ℝ) ≤ 0) := by norm_num
  simp only [init, overlay, axes, h1, h2, h3, h4, h5, h6, if_neg hno]

/-! ### C255 -/

/-- A quantity of the user (not one of the coordinates of the neutron) with both
expression and unit gets an axis with both. -/
theorem C255_partial (q expr unit : String) (kwds : List (Key × String)) (hnd : (kwds.map Prod.fst).Nodup)
    (h1 : (Key.name q, expr) ∈ kwds) (h2 : (Key.unitOf q, unit) ∈ kwds)
    (hq : q ∉ ["x", "y", "z", "vx", "vy", "vz", "t"]) (inv : String → Setting) (xw yh : ℝ) (hx : 0 < xw) (hy : 0 < yh) :
    ∃ a, init [q] kwds inv xw yh = .ok ([a], xw, yh) ∧ a.name = q ∧ a.expr = .user expr ∧ a.unit = unit := by
  have hno : ¬(xw ≤ 0 ∨ yh ≤ 0) := by push Not; exact ⟨hx, hy⟩
  have hn : get neqs q = .error .keyError := by
    simp only [List.mem_cons, List.not_mem_nil, or_false, not_or] at hq
    obtain ⟨a, b, c, d, e, f, g⟩ := hq
    simp [get, neqs, Ne.symm a, Ne.symm b, Ne.symm c, Ne.symm d, Ne.symm e, Ne.symm f, Ne.symm g]
  refine ⟨⟨q, .user expr, unit, (inv q).bins, (inv q).lo, (inv q).hi⟩, ?_, rfl, rfl, rfl⟩
  simp only [init, axes, hn, overlay_name q expr kwds _ hnd h1, overlay_unit q unit kwds _ hnd h2, if_neg hno]

/-- The second example of the documentation, `ndmonitor("x", "inverseX", inverseX="1/x")`, fails. -/
theorem C255_false (inv : String → Setting) (xw yh : ℝ) :
    init ["x", "inverseX"] [(.name "inverseX", "1/x")] inv xw yh = .error .keyError := by
  have h1 : get neqs "x" = .ok .x := by decide
  have h2 : get neqs "inverseX" = .error .keyError := by decide
  have h3 : get (overlay [(.name "inverseX", "1/x")] (q2e, q2u)).1 "inverseX" = .ok (.user "1/x") := by decide
  have h4 : get (overlay [(.name "inverseX", "1/x")] (q2e, q2u)).2 "inverseX" = .error .keyError := by decide
  have h5 : get (overlay [(.name "inverseX", "1/x")] (q2e, q2u)).2 "x" = .ok "meter" := by decide
  simp only [init, axes, h1, h2, h3, h4, h5]

/-- More generally: no quantity that is not in the table works without a unit. -/
theorem C255_unit_false (q expr : String) (hq : get q2u q = .error .keyError) (hn : get neqs q = .error .keyError)
    (inv : String → Setting) (xw yh : ℝ) : init [q] [(.name q, expr)] inv xw yh = .error .keyError := by
  have h1 : get (overlay [(.name q, expr)] (q2e, q2u)).1 q = .ok (.user expr) := overlay_name q expr _ _ (by simp) (by simp)
  have h2 : get (overlay [(.name q, expr)] (q2e, q2u)).2 q = .error .keyError := by
    rw [overlay_unit_absent _ _ _ (by simp)]; exact hq
  simp only [init, axes, hn, h1, h2]

/-- An expression for a coordinate is ignored: `ndmonitor("x", x="1000*x", x_unit="mm")`
has an axis of `x` itself, labelled with the unit of the user. -/
theorem C255_ignored_false (inv : String → Setting) (xw yh : ℝ) (hx : 0 < xw) (hy : 0 < yh) :
    ∃ a, init ["x"] [(.name "x", "1000*x"), (.unitOf "x", "mm")] inv xw yh = .ok ([a], xw, yh) ∧ a.expr = .x ∧ a.unit = "mm" := by
  have hno : ¬(xw ≤ 0 ∨ yh ≤ 0) := by push Not; exact ⟨hx, hy⟩
  have h1 : get neqs "x" = .ok .x := by decide
  have h2 : get (overlay [(.name "x", "1000*x"), (.unitOf "x", "mm")] (q2e, q2u)).2 "x" = .ok "mm" := by decide
  refine ⟨⟨"x", .x, "mm", (inv "x").bins, (inv "x").lo, (inv "x").hi⟩, ?_, rfl, rfl⟩
  simp only [init, axes, h1, h2, if_neg hno]

/-- hypotheses of `C255_partial` and of `C255_unit_false`: the third example of the documentation -/
example : (([(.name "inverseX", "1/x"), (.unitOf "inverseX", "meter**-1")] : List (Key × String)).map Prod.fst).Nodup ∧
    "inverseX" ∉ ["x", "y", "z", "vx", "vy", "vz", "t"] ∧
    get q2u "inverseX" = .error .keyError ∧ get neqs "inverseX" = .error .keyError := by decide

/-! ### C256 -/

/-- A size written once into a new file is read back, by the same store and by one
opened later; sizes that are not positive are refused. -/
theorem C256_partial (n : ℕ) (hn : 0 < n) :
    (∃ s, (openStore none).setsize (some n) = .ok s ∧ s.getsize.2 = some n ∧ (openStore (some s.text)).getsize.2 = some n) ∧
    (∀ z : ℤ, z ≤ 0 → (openStore none).setsize (some z) = .error .valueError) ∧
    (openStore none).setsize none = .error .typeError := by
  refine ⟨⟨⟨render n, true, (render n).length, some n⟩, ?_, rfl, ?_⟩, fun z hz => ?_, rfl⟩
  · have : ¬((n : ℤ) ≤ 0) := by omega
    simp [openStore, Store.setsize]
    omega
  · simp [openStore, Store.getsize, parse_render, render_ne_nil hn]
  · simp [openStore, Store.setsize, hz]

/-- A store whose size is known refuses another one. -/
theorem C256_fixed (s : Store) (n : ℕ) (hs : s.size = some n) (hn : 0 < n) (z : ℤ) (hz : z ≠ n) :
    s.setsize (some z) = .error .runtimeError := by
  have : n ≠ 0 := hn.ne'
  simp [Store.setsize, hs, hz, this]

/-- Setting the same size twice is accepted, and a store opened later reads another size. -/
theorem C256_false (n : ℕ) (hn : 0 < n) : ∃ s s', (openStore none).setsize (some n) = .ok s ∧ s.setsize (some n) = .ok s' ∧
    s'.getsize.2 = some n ∧ ∃ k, (openStore (some s'.text)).getsize.2 = some k ∧ k ≠ n := by
  have hz : ¬((n : ℤ) ≤ 0) := by omega
  refine ⟨⟨render n, true, (render n).length, some n⟩, ⟨render n ++ render n, true, (render n).length + (render n).length, some n⟩, ?_, ?_, rfl,
    parse (render n ++ render n), ?_, ?_⟩
  · simp [openStore, Store.setsize]; omega
  · have e : List.drop ((render n).length + (render n).length) (render n) = [] := List.drop_eq_nil_of_le (by omega)
    simp [Store.setsize, e]; omega
  · have := render_ne_nil hn
    simp only [List.length_eq_zero_iff, ne_eq] at this
    simp [openStore, Store.getsize, this]
  · simp only [parse, render, List.reverse_append, List.reverse_reverse, Nat.ofDigits_append, Nat.ofDigits_digits]
    have : 0 < 10 ^ (Nat.digits 10 n).length * n := by positivity
    omega

/-- A store that finds a file cannot set any size, not even the one in the file. -/
theorem C256_reopen_false (n : ℕ) (hn : 0 < n) :
    (openStore (some (render n))).setsize (some n) = .error .ioError ∧
    (openStore (some (render n))).getsize.1.setsize (some n) = .error .ioError := by
  have hz : ¬((n : ℤ) ≤ 0) := by omega
  constructor
  · simp [openStore, Store.setsize]; omega
  · simp [openStore, Store.setsize, Store.getsize, parse_render, render_ne_nil hn]; omega

/-- hypotheses: the number 10; written twice it becomes 1010 -/
example : render 10 = [1, 0] ∧ parse (render 10 ++ render 10) = 1010 := by
  constructor
  · norm_num [render]
  · norm_num [render, parse, Nat.ofDigits]

end Verif.NdAxes
