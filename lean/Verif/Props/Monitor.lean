import Verif.Lemmas.Monitor
import Mathlib.Data.Rat.Floor
import Mathlib.Tactic.NormNum
/-!
Property theorems about monitors: C23, C26, C70, C71, C72.
-/

namespace Verif.Monitor
variable {F : Type} [Field F] [LinearOrder F] [IsStrictOrderedRing F] [FloorRing F]

open Classical in
/-- **C23** Every batch with at least one hit: what is written is one record for each neutron
that crosses the area within the time window and nothing else, in order, with its weight and the
time channel containing its arrival time. -/
theorem C23_records (a : Area F) (hx : a.xmin < a.xmax) (hy : a.ymin < a.ymax) (ht : a.tofmin < a.tofmax)
    (hn : 0 < a.ntof) (st : Option (List (Rec F))) (batch : List (Event F)) (hhit : ∃ e ∈ batch, a.Hit e) :
    ∃ out, a.process st batch = .ok (some out, out) ∧
      List.Forall₂ a.TimeAndWeight (batch.filter (fun e => decide (a.Hit e))) out := by
  obtain ⟨e0, he0, hh0⟩ := hhit
  have hne : batch.isEmpty = false := by cases batch <;> simp at he0 ⊢
  have hhits : ((batch.filterMap toZ0).filter a.accepts) = (batch.filter (fun e => decide (a.Hit e))).filterMap toZ0 :=
    hits_eq a.accepts a.Hit a.hit_iff batch
  have hmem : e0 ∈ batch.filter (fun e => decide (a.Hit e)) := by simp [he0, hh0]
  have hne2 : ((batch.filterMap toZ0).filter a.accepts).isEmpty = false := by
    rw [hhits]
    obtain ⟨e', hc, -⟩ := hh0
    have : e' ∈ (batch.filter (fun e => decide (a.Hit e))).filterMap toZ0 :=
      List.mem_filterMap.2 ⟨e0, hmem, (toZ0_iff _ _).2 hc⟩
    cases hl : (batch.filter (fun e => decide (a.Hit e))).filterMap toZ0 with
    | nil => rw [hl] at this; exact absurd this (by simp)
    | cons => rfl
  refine ⟨((batch.filterMap toZ0).filter a.accepts).map a.record, by simp only [Area.process, Area.engineProcess, hne, hne2, hx, hy, ht, and_self, not_true_eq_false,
    if_false, Bool.false_eq_true], ?_⟩
  rw [hhits]
  have hall : ∀ e ∈ batch.filter (fun e => decide (a.Hit e)), a.Hit e := by
    intro e he; simpa using (List.mem_filter.1 he).2
  generalize batch.filter (fun e => decide (a.Hit e)) = l at hall
  induction l with
  | nil => simp
  | cons e l ih =>
    have hh := hall e (List.mem_cons_self ..)
    obtain ⟨e', hc, h1, h2, h3, h4, h5, h6⟩ := hh
    have hz := (toZ0_iff _ _).2 hc
    rw [List.filterMap_cons, hz]
    simp only [List.map_cons]
    refine List.Forall₂.cons ⟨hc.2.2.1, e', hc, inPart_floor hn h5 h6⟩ (ih (fun e he => hall e (List.mem_cons_of_mem _ he)))

/-- a panel with 2 x 2 pixels and 10 time channels -/
def exampleArea : Area ℚ := ⟨0, 2, 0, 2, 0, 1, 2, 2, 10⟩
def exampleNeutron : Event ℚ := ⟨⟨1 / 2, 1 / 2, -1⟩, ⟨0, 0, 10⟩, 0, 0, 1 / 5, 3⟩

theorem exampleHit : exampleArea.Hit exampleNeutron := by
  rw [Area.hit_iff]
  exact ⟨⟨⟨1 / 2, 1 / 2, 0⟩, ⟨0, 0, 10⟩, 0, 0, 3 / 10, 3⟩, (toZ0_iff _ _).1 (by decide +kernel), by decide +kernel⟩

open Classical in
example : ∃ out, exampleArea.process none [exampleNeutron] = .ok (some out, out) ∧
    List.Forall₂ exampleArea.TimeAndWeight ([exampleNeutron].filter (fun e => decide (exampleArea.Hit e))) out :=
  C23_records exampleArea (by decide +kernel) (by decide +kernel) (by decide +kernel) (by decide +kernel) none
    [exampleNeutron] ⟨_, List.mem_cons_self .., exampleHit⟩

/-- **C70** (negation) A neutron is recorded in a pixel in which it did not cross: the fraction
of the column coordinate is multiplied by the number of rows. -/
theorem C70_pixel_false : ∃ (a : Area ℚ) (e : Event ℚ) (r : Rec ℚ), a.xmin < a.xmax ∧ a.ymin < a.ymax ∧ 0 < a.nx ∧ 0 < a.ny ∧
    a.process none [e] = .ok (some [r], [r]) ∧ ¬ a.RightPixel e r := by
  refine ⟨exampleArea, exampleNeutron, ⟨1, 3, 3⟩, by decide +kernel, by decide +kernel, by decide +kernel, by decide +kernel,
    by decide +kernel, ?_⟩
  rintro ⟨e', ix, iy, hc, hix, hiy, h⟩
  have he : e' = ⟨⟨1 / 2, 1 / 2, 0⟩, ⟨0, 0, 10⟩, 0, 0, 3 / 10, 3⟩ :=
    hc.unique ((toZ0_iff _ _).1 (by decide +kernel))
  subst he
  have e1 : ix = 0 := hix.unique (by decide +kernel) ⟨by norm_num, by norm_num [exampleArea], by norm_num [exampleArea], by norm_num [exampleArea]⟩
  have e2 : iy = 0 := hiy.unique (by decide +kernel) ⟨by norm_num, by norm_num [exampleArea], by norm_num [exampleArea], by norm_num [exampleArea]⟩
  subst e1 e2
  norm_num at h

/-- **C70** (negation) Pixel numbers beyond the number of pixels occur. -/
theorem C70_range_false : ∃ (a : Area ℚ) (e : Event ℚ) (r : Rec ℚ), a.Hit e ∧
    a.process none [e] = .ok (some [r], [r]) ∧ (a.nx * a.ny : Int) ≤ r.pixelID :=
  ⟨exampleArea, ⟨⟨19 / 10, 19 / 10, -1⟩, ⟨0, 0, 10⟩, 0, 0, 1 / 5, 3⟩, ⟨5, 3, 3⟩,
    by
      rw [Area.hit_iff]
      exact ⟨⟨⟨19 / 10, 19 / 10, 0⟩, ⟨0, 0, 10⟩, 0, 0, 3 / 10, 3⟩, (toZ0_iff _ _).1 (by decide +kernel), by decide +kernel⟩,
    by decide +kernel, by decide +kernel⟩

/-- **C70** What does hold: the recorded number is between the right pixel and the pixel of the same row
in the next column.  Missing: equality, which holds if the neutron crosses at the start of a column. -/
theorem C70_pixel_partial (a : Area F) (hx : a.xmin < a.xmax) (hnx : 0 < a.nx) (hny : 0 < a.ny)
    (e : Event F) (h1 : a.xmin ≤ e.r.x) (h2 : e.r.x < a.xmax) (h3 : a.ymin ≤ e.r.y) (h4 : e.r.y < a.ymax) :
    ∃ ix iy, InPart a.xmin a.xmax a.nx e.r.x ix ∧ InPart a.ymin a.ymax a.ny e.r.y iy ∧
      ix * a.ny + iy ≤ (a.record e).pixelID ∧ (a.record e).pixelID ≤ (ix + 1) * a.ny + iy ∧
      (e.r.x = a.xmin + ix * ((a.xmax - a.xmin) / a.nx) → (a.record e).pixelID = ix * a.ny + iy) := by
  refine ⟨_, _, inPart_floor hnx h1 h2, inPart_floor hny h3 h4, ?_, ?_, ?_⟩
  all_goals simp only [Area.record]
  all_goals
    set x := (e.r.x - a.xmin) / ((a.xmax - a.xmin) / a.nx) with hxdef
    set y := (e.r.y - a.ymin) / ((a.ymax - a.ymin) / a.ny) with hydef
    have fx := Int.floor_le x
    have fx' := Int.lt_floor_add_one x
    have fy := Int.floor_le y
    have fy' := Int.lt_floor_add_one y
    have hnyF : (0 : F) < a.ny := by exact_mod_cast hny
  · rw [Int.le_floor]
    push_cast
    have := mul_le_mul_of_nonneg_right fx hnyF.le
    linarith
  · rw [← Int.lt_add_one_iff, Int.floor_lt]
    push_cast
    have := mul_le_mul_of_nonneg_right fx'.le hnyF.le
    linarith
  · intro hxe
    have hnxF : (0 : F) < a.nx := by exact_mod_cast hnx
    have hd : (a.xmax - a.xmin) / a.nx ≠ 0 := (div_pos (by linarith) hnxF).ne'
    have hxi : x = (⌊x⌋ : F) := by
      rw [hxdef]
      nth_rewrite 1 [hxe]
      rw [add_sub_cancel_left, mul_div_cancel_right₀ _ hd]
    rw [Int.floor_eq_iff]
    push_cast
    rw [← hxi]
    constructor <;> linarith

example : (exampleArea.record ⟨⟨1, 3 / 2, 0⟩, ⟨0, 0, 10⟩, 0, 0, 1 / 5, 3⟩).pixelID = 1 * 2 + 1 := by decide +kernel

/-- **C71** (negation) A batch without hits writes the records of the batch before once more. -/
theorem C71_no_hits_false : ∃ (a : Area ℚ) (b : List (Event ℚ)) (st : Option (List (Rec ℚ))) (out : List (Rec ℚ)),
    a.process none b = .ok (st, out) ∧ out ≠ [] ∧ a.process st [] = .ok (st, out) :=
  ⟨exampleArea, [exampleNeutron], some [⟨1, 3, 3⟩], [⟨1, 3, 3⟩], by decide +kernel, by decide +kernel, by decide +kernel⟩

/-- **C71** (negation) If the first batch has no hits, writing fails. -/
theorem C71_first_batch_false : ∃ (a : Area ℚ), a.xmin < a.xmax ∧ a.ymin < a.ymax ∧ a.tofmin < a.tofmax ∧
    a.process none [] = .error .attributeError :=
  ⟨exampleArea, by decide +kernel, by decide +kernel, by decide +kernel, rfl⟩

omit [IsStrictOrderedRing F] in
/-- **C71** What does hold: if every batch has a hit, the records written for each batch are those of
the batch processed alone.  Missing: batches without hits. -/
theorem C71_no_hits_partial (a : Area F) (hx : a.xmin < a.xmax) (hy : a.ymin < a.ymax) (ht : a.tofmin < a.tofmax)
    (bs : List (List (Event F))) (h : ∀ b ∈ bs, ∃ e ∈ b, a.Hit e) (st : Option (List (Rec F))) :
    ∃ outs, a.runAll st bs = .ok outs ∧ List.Forall₂ (fun b out => a.process none b = .ok (some out, out)) bs outs := by
  induction bs generalizing st with
  | nil => exact ⟨[], rfl, .nil⟩
  | cons b bs ih =>
    obtain ⟨e0, he0, hh0⟩ := h b (List.mem_cons_self ..)
    have hne : b.isEmpty = false := by cases b <;> simp at he0 ⊢
    have hne2 : ((b.filterMap toZ0).filter a.accepts).isEmpty = false := by
      rw [Area.hit_iff] at hh0
      obtain ⟨e', hc, ha⟩ := hh0
      have : e' ∈ (b.filterMap toZ0).filter a.accepts :=
        List.mem_filter.2 ⟨List.mem_filterMap.2 ⟨e0, he0, (toZ0_iff _ _).2 hc⟩, ha⟩
      cases hl : (b.filterMap toZ0).filter a.accepts with
      | nil => rw [hl] at this; exact absurd this (by simp)
      | cons => rfl
    have hp : ∀ st, a.process st b = .ok (some (((b.filterMap toZ0).filter a.accepts).map a.record),
        ((b.filterMap toZ0).filter a.accepts).map a.record) := by
      intro st
      simp only [Area.process, Area.engineProcess, hne, hne2, hx, hy, ht, and_self, not_true_eq_false,
        if_false, Bool.false_eq_true]
    obtain ⟨outs, h1, h2⟩ := ih (fun b hb => h b (List.mem_cons_of_mem _ hb)) (some (((b.filterMap toZ0).filter a.accepts).map a.record))
    exact ⟨_ :: outs, by simp only [Area.runAll, hp, h1], .cons (hp none) h2⟩

example : exampleArea.runAll none [[exampleNeutron], [exampleNeutron, exampleNeutron]] =
    .ok [[⟨1, 3, 3⟩], [⟨1, 3, 3⟩, ⟨1, 3, 3⟩]] := by decide +kernel

/-- **C72** (negation) A neutron behind the monitor flying away from it is recorded, at a time before
it was there. -/
theorem C72_flying_away_false : ∃ (a : Area ℚ) (e : Event ℚ) (r : Rec ℚ), 0 < e.r.z ∧ 0 < e.v.z ∧
    a.process none [e] = .ok (some [r], [r]) :=
  ⟨exampleArea, ⟨⟨1 / 2, 1 / 2, 1⟩, ⟨0, 0, 10⟩, 0, 0, 1 / 5, 3⟩, ⟨1, 1, 3⟩, by decide +kernel, by decide +kernel, by decide +kernel⟩

omit [IsStrictOrderedRing F] [FloorRing F] in
/-- **C72** What does hold: a neutron that has not passed the monitor and flies towards it
crosses the monitor at a time not before its own.  Missing: the others should be dropped. -/
theorem C72_flying_away_partial [IsStrictOrderedRing F] (e e' : Event F) (hz : e.r.z ≤ 0) (hv : 0 < e.v.z) (h : toZ0 e = some e') : e.t ≤ e'.t := by
  rw [toZ0, if_neg hv.ne'] at h
  simp only [Option.some.injEq] at h
  subst h
  have : 0 ≤ -e.r.z / e.v.z := div_nonneg (by linarith) hv.le
  simpa using this

example : ∃ e', toZ0 exampleNeutron = some e' ∧ exampleNeutron.t ≤ e'.t := ⟨_, rfl, by decide +kernel⟩

open Classical in
/-- **C26** The histograms dumped for the batches of a run add up, cell by cell, to the sum of
the weights (squared weights) of all neutrons counted in the cell. -/
theorem C26_additive (axes : List (Axis F)) (hv : ∀ a ∈ axes, a.Valid) (xw yh : F) (hx : 0 < xw) (hy : 0 < yh)
    (bs : List (List (Event F))) :
    ∃ hs, ndRun axes xw yh bs = .ok hs ∧ hs.length = bs.length ∧ ∀ c,
      (hs.map (fun h => h.I c)).sum = ((bs.flatten.filter (fun e => decide (Counted axes xw yh c e))).map (fun e => e.p)).sum ∧
      (hs.map (fun h => h.E2 c)).sum = ((bs.flatten.filter (fun e => decide (Counted axes xw yh c e))).map (fun e => e.p * e.p)).sum := by
  induction bs with
  | nil => exact ⟨[], rfl, rfl, by simp⟩
  | cons b bs ih =>
    obtain ⟨hs, h1, h2, h3⟩ := ih
    have hp := ndProcess_ok axes hx hy Hist.zero b
    generalize hH : (Hist.mk _ _ : Hist F) = H at hp
    refine ⟨H :: hs, by simp only [ndRun, hp, h1], by simp [h2], fun c => ?_⟩
    subst hH
    simp only [List.map_cons, List.sum_cons, Hist.zero, zero_add, List.flatten_cons, List.filter_append, List.map_append,
        List.sum_append, h3]
    rw [hdd_eq hv xw yh (fun e => e.p) (fun e e' h => h.2.2.1)]
    rw [hdd_eq hv xw yh (fun e => e.p * e.p) (fun e e' h => by rw [h.2.2.1])]
    exact ⟨rfl, rfl⟩

omit [IsStrictOrderedRing F] in
/-- **C26** One engine fed batch after batch has the same histogram as one fed all at once. -/
theorem C26_batching (axes : List (Axis F)) (xw yh : F) (hx : 0 < xw) (hy : 0 < yh) (h : Hist F) (b1 b2 : List (Event F)) :
    (do ndProcess axes xw yh (← ndProcess axes xw yh h b1) b2) = ndProcess axes xw yh h (b1 ++ b2) := by
  rw [ndProcess_ok axes hx hy, ndProcess_ok axes hx hy]
  simp only [bind, Except.bind]
  rw [ndProcess_ok axes hx hy]
  congr 2 <;> funext c <;> simp [List.filterMap_append, List.filter_append, hdd_append, add_assoc]

/-- **C26** The boundaries of the axis of the dumped histogram fit the counts: one more than
the bins, from one end of the range to the other in equal steps. -/
theorem C26_boundaries (a : Axis F) (hv : a.Valid) :
    boundaries a = .ok ((List.range (a.bins + 1)).map (fun i : Nat => a.lo + i * ((a.hi - a.lo) / a.bins))) := by
  obtain ⟨hb, hlt⟩ := hv
  have hbF : (0 : F) < a.bins := by exact_mod_cast hb
  have hd : 0 < (a.hi - a.lo) / a.bins := div_pos (by linarith) hbF
  have : ⌈(a.hi + (a.hi - a.lo) / a.bins / 10 - a.lo) / ((a.hi - a.lo) / a.bins)⌉ = (a.bins : Int) + 1 := by
    rw [Int.ceil_eq_iff]
    have e : (a.hi + (a.hi - a.lo) / a.bins / 10 - a.lo) / ((a.hi - a.lo) / a.bins) = a.bins + 1 / 10 := by
      rw [div_eq_iff hd.ne']
      have : (a.bins : F) * ((a.hi - a.lo) / a.bins) = a.hi - a.lo := mul_div_cancel₀ _ hbF.ne'
      linear_combination -this
    rw [e]; push_cast
    constructor <;> norm_num
  simp only [boundaries, if_neg (not_le.2 hlt), if_neg (by omega : a.bins ≠ 0), this]
  congr 2

omit [IsStrictOrderedRing F] in
/-- **C26** Bad ranges are refused. -/
theorem C26_bad_range (a : Axis F) (h : a.hi ≤ a.lo) : boundaries a = .error .valueError := by
  simp [boundaries, h]

def exampleAxis : Axis ℚ := ⟨fun e => e.t, 4, 0, 1⟩
example : exampleAxis.Valid := ⟨by decide +kernel, by decide +kernel⟩
example : (ndProcess [exampleAxis] 2 2 Hist.zero [exampleNeutron, exampleNeutron]).map (fun h => (h.I [1], h.E2 [1], h.I [2])) =
    .ok (6, 18, 0) := by decide +kernel

end Verif.Monitor
