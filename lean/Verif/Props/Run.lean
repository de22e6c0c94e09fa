import Mathlib.Algebra.Field.Rat
import Mathlib.Algebra.Group.Pi.Lemmas
import Mathlib.Algebra.BigOperators.Pi
import Verif.Lemmas.Run
import Verif.Spec.Run
/-!
Property theorems about the division of a run: C09, C10, C11, C13, C62, C63.
-/

namespace Verif.Run

/-- **C09** The shares add up to the requested number, there are at most `n` of
them, and no two differ by more than one. -/
theorem C09_partition (N n : Nat) (hn : 0 < n) :
    (getPartitions N n).sum = N ∧ (getPartitions N n).length ≤ n ∧
    (∀ x ∈ getPartitions N n, 0 < x) ∧
    ∀ x ∈ getPartitions N n, ∀ y ∈ getPartitions N n, x ≤ y + 1 := by
  refine ⟨getPartitions_sum N n, ?_, ?_, ?_⟩
  · rw [getPartitions_eq N n hn, List.length_append, List.length_replicate]
    have := Nat.mod_lt N hn
    split
    · simp; omega
    · rw [List.length_replicate]; omega
  all_goals
    rw [getPartitions_eq N n hn]
    intro x hx
    rw [List.mem_append] at hx
  · rcases hx with hx | hx
    · rw [List.eq_of_mem_replicate hx]; exact Nat.succ_pos _
    · split at hx
      · cases hx
      · next h => rw [List.eq_of_mem_replicate hx]; exact Nat.pos_of_ne_zero h
  · intro y hy
    rw [List.mem_append] at hy
    have hx' : x = N / n + 1 ∨ x = N / n := by
      rcases hx with hx | hx
      · exact Or.inl (List.eq_of_mem_replicate hx)
      · split at hx
        · cases hx
        · exact Or.inr (List.eq_of_mem_replicate hx)
    have hy' : y = N / n + 1 ∨ y = N / n := by
      rcases hy with hy | hy
      · exact Or.inl (List.eq_of_mem_replicate hy)
      · split at hy
        · cases hy
        · exact Or.inr (List.eq_of_mem_replicate hy)
    omega

example : getPartitions 10 4 = [3, 3, 2, 2] := by decide
example : getPartitions 2 4 = [1, 1] := by decide

/-- **C62** (negation) With fewer neutrons than nodes some ranks have no share
and fail with an index error. -/
theorem C62_every_rank_gets_share_false :
    ∃ N n rank, 0 < N ∧ rank < n ∧ shareOf N n rank = .error .indexError :=
  ⟨1, 2, 1, by decide, by decide, rfl⟩

/-- **C62** What does hold: with at least as many neutrons as nodes every rank has
a positive share and the shares of all ranks add up.  Missing: `N < n`. -/
theorem C62_every_rank_gets_share_partial (N n : Nat) (hn : 0 < n) (hN : n ≤ N) :
    ∃ shares : List Nat, shares.length = n ∧ shares.sum = N ∧
      ∀ rank (h : rank < shares.length), shareOf N n rank = .ok shares[rank] ∧ 0 < shares[rank] := by
  refine ⟨getPartitions N n, ?_, getPartitions_sum N n, ?_⟩
  · have h0 : N / n ≠ 0 := by
      have := Nat.div_pos hN hn; omega
    rw [getPartitions_eq N n hn, if_neg h0, List.length_append, List.length_replicate, List.length_replicate]
    have := Nat.mod_lt N hn
    omega
  · intro rank h
    refine ⟨?_, (C09_partition N n hn).2.2.1 _ (List.getElem_mem h)⟩
    simp [shareOf, List.getElem?_eq_getElem h]

example : shareOf 10 4 1 = .ok 3 := rfl

/-- **C10** Both runners divide a positive number of neutrons in the same
batches, and these are a proper division of the requested number. -/
theorem C10_batches (ncount b : Nat) (hb : 0 < b) (hn : 0 < ncount) :
    ∃ l, scriptBatches ncount b = .ok l ∧ appBatches ncount b = .ok l ∧ IsBatching ncount b l :=
  ⟨_, scriptBatches_closed ncount b hb, appBatches_closed ncount b hn hb, batching_closed ncount b hb⟩

example : scriptBatches 7 3 = .ok [(0, 3), (1, 3), (2, 1)] ∧ appBatches 6 3 = .ok [(0, 3), (1, 3)] :=
  ⟨rfl, rfl⟩

/-- **C10** A parallel run simulates exactly the requested number of neutrons:
summing the batches of all shares gives `N`. -/
theorem C10_parallel_total (N n b : Nat) (hb : 0 < b) :
    ∃ per : List (List (Nat × Nat)), per.length = (getPartitions N n).length ∧
      (∀ (k s : Nat), (getPartitions N n)[k]? = some s → (per[k]?).map (fun l => (.ok l : Except Err _)) =
        some (scriptBatches s b)) ∧
      (per.map fun l => (l.map Prod.snd).sum).sum = N := by
  refine ⟨(getPartitions N n).map fun s => (List.range (s / b)).map (fun j => (j, b)) ++
      (if s % b ≠ 0 then [(s / b, s % b)] else []), by simp, ?_, ?_⟩
  · intro k s hk
    rw [List.getElem?_map, hk, scriptBatches_closed s b hb]; rfl
  · rw [List.map_map]
    rw [show ((fun l => (List.map Prod.snd l).sum) ∘ fun s => (List.range (s / b)).map (fun j => (j, b)) ++
      (if s % b ≠ 0 then [(s / b, s % b)] else [])) = id from
      funext fun s => (batching_closed s b hb).2.2, List.map_id]
    exact getPartitions_sum N n

example : getPartitions 10 3 = [4, 3, 3] ∧ scriptBatches 4 3 = .ok [(0, 3), (1, 1)] := ⟨by decide, rfl⟩

/-- **C10** The buffer sizes chosen by the runners are usable: positive whenever
something is to be simulated, and within the memory limit. -/
theorem C10_buffer_size (ncount nodes b maximum : Nat) (hn : 0 < ncount) (hnodes : 0 < nodes)
    (hb : 0 < b) (hmax : 0 < maximum) :
    (∃ nodes' b', runMpiSizes ncount nodes b = .ok (nodes', b') ∧ 0 < nodes' ∧ nodes' ≤ nodes ∧ 0 < b' ∧
      b' ≤ max 99 b) ∧
    0 < computeBufferSize ncount nodes maximum ∧ computeBufferSize ncount nodes maximum ≤ maximum ∧
      computeBufferSize ncount nodes maximum ≤ ncount := by
  constructor
  · by_cases h : ncount < 100
    · exact ⟨1, ncount, by simp [runMpiSizes, h, Nat.pos_iff_ne_zero.mp hb], by omega, by omega, hn, by omega⟩
    · exact ⟨nodes, max 20 (min (ncount / nodes / 5) b),
        by simp [runMpiSizes, h, Nat.pos_iff_ne_zero.mp hb, Nat.pos_iff_ne_zero.mp hnodes], hnodes,
        by omega, by omega, by omega⟩
  · have h0 : nodes ≠ 0 := by omega
    have h1 : ncount / 5 / nodes ≤ ncount :=
      Nat.le_trans (Nat.div_le_self _ _) (Nat.div_le_self _ _)
    have h2 : ncount / nodes ≤ ncount := Nat.div_le_self _ _
    simp only [computeBufferSize, h0, if_false]
    split
    · split <;> omega
    · omega

example : runMpiSizes 1000 4 1000000 = .ok (4, 50) ∧ computeBufferSize 3 8 100 = 3 := ⟨rfl, rfl⟩

/-- **C63** (negation) Asking the application runner, or the parallel script
runner, for zero neutrons fails with a division by zero. -/
theorem C63_zero_neutrons_false :
    (∀ b, appBatches 0 b = .error .zeroDivision) ∧
    ∃ b', runMpiSizes 0 4 1000 = .ok (1, b') ∧ scriptBatches 0 b' = .error .zeroDivision := by
  refine ⟨?_, 0, rfl, rfl⟩
  intro b
  rcases Nat.eq_zero_or_pos b with rfl | h
  · rfl
  · simp [appBatches, h]

/-- **C63** What does hold: the serial script runner accepts zero neutrons and
runs no batch.  Missing: the other runners. -/
theorem C63_zero_neutrons_partial (b : Nat) (hb : 0 < b) : scriptBatches 0 b = .ok [] := by
  rw [scriptBatches_closed 0 b hb]; simp

example : scriptBatches 0 1000 = .ok [] := C63_zero_neutrons_partial 1000 (by decide)

/-- **C11** Different (rank, step) pairs of a parallel run never share an output
directory. -/
theorem C11_parallel_dirs_distinct (out : List Char) (mpiSize r s r' s' : Nat) (hm : mpiSize ≠ 0)
    (h : outputDirInProgress (some out) mpiSize r s = outputDirInProgress (some out) mpiSize r' s') :
    r = r' ∧ s = s' := by
  simp only [outputDirInProgress, Option.map_some, stepDir, hm, ne_eq, not_false_eq_true, if_true,
    Option.some.injEq, List.append_cancel_left_eq, List.cons.injEq, true_and, List.append_assoc] at h
  obtain ⟨h1, h2⟩ := append_cons_inj (dash_not_mem_decimal r) (dash_not_mem_decimal r')
    (b := "step".toList ++ decimal s) (b' := "step".toList ++ decimal s') h
  exact ⟨decimal_inj h1, decimal_inj (List.append_cancel_left h2)⟩

example : outputDirInProgress (some "out".toList) 20 1 12 = some "out/rank1-step12".toList ∧
    outputDirInProgress (some "out".toList) 20 11 2 = some "out/rank11-step2".toList := ⟨by decide, by decide⟩

/-- **C11** Different steps of a serial run never share an output directory, and
never use a directory of a parallel run. -/
theorem C11_serial_dirs_distinct (out : List Char) (r s r' s' mpiSize : Nat) (hm : mpiSize ≠ 0) :
    (outputDirInProgress (some out) 0 r s = outputDirInProgress (some out) 0 r' s' → s = s') ∧
    outputDirInProgress (some out) 0 r s ≠ outputDirInProgress (some out) mpiSize r' s' := by
  constructor
  · intro h
    simp only [outputDirInProgress, Option.map_some, stepDir, ne_eq, not_true_eq_false, if_false,
      Option.some.injEq, List.append_cancel_left_eq, List.cons.injEq, true_and] at h
    exact decimal_inj h
  · intro h
    simp only [outputDirInProgress, Option.map_some, stepDir, hm, ne_eq, not_true_eq_false, not_false_eq_true,
      if_false, if_true, Option.some.injEq, List.append_cancel_left_eq, List.cons.injEq, true_and] at h
    have := congrArg List.head? h
    revert this
    simp

example : outputDirInProgress (some "o".toList) 0 0 10 = some "o/step10".toList := by decide

/-- **C13** For every number of nodes, also more nodes than files, the parallel
reduction does not dead-lock and gives the sum over all files of intensity,
squared error and sample count, and so does the serial reduction. -/
theorem C13_reduction {H F} [AddCommMonoid H] [AddCommMonoid F] (hists : List (Hist H)) (mcs : List F)
    (h : hists.length = mcs.length) (hne : hists ≠ []) (size : Nat) (hs : 0 < size) :
    histSumParallel hists mcs size =
      .ok (some (⟨(hists.map Hist.I).sum, (hists.map Hist.E2).sum⟩, mcs.sum)) ∧
    histSum hists mcs = histSumParallel hists mcs size := by
  refine ⟨histSumParallel_eq hists mcs h hne size hs, ?_⟩
  rw [histSumParallel_eq hists mcs h hne size hs, histSum_eq hists mcs h hne]

example : histSumParallel [(⟨1, 2⟩ : Hist ℚ), ⟨3, 4⟩, ⟨5, 6⟩] [(10 : ℚ), 20, 30] 7 =
    .ok (some (⟨[(1 : ℚ), 3, 5].sum, [(2 : ℚ), 4, 6].sum⟩, [(10 : ℚ), 20, 30].sum)) :=
  (C13_reduction [(⟨1, 2⟩ : Hist ℚ), ⟨3, 4⟩, ⟨5, 6⟩] [(10 : ℚ), 20, 30] rfl (by simp) 7 (by decide)).1

/-- **C13** The final histogram: every bin holds the summed intensity divided by
the total number of samples and the summed squared error divided by its square,
for every number of nodes. -/
theorem C13_normalized {ι F : Type} [Field F] (hists : List (Hist (ι → F))) (mcs : List F)
    (h : hists.length = mcs.length) (hne : hists ≠ []) (size : Nat) (hs : 0 < size) :
    ∃ out, mergeAndNormalize hists mcs size = .ok out ∧ ∀ i,
      out.I i = (hists.map fun x => x.I i).sum / mcs.sum ∧
      out.E2 i = (hists.map fun x => x.E2 i).sum / (mcs.sum * mcs.sum) := by
  have hsum : ∀ (l : List (Hist (ι → F))) (f : Hist (ι → F) → ι → F) (i : ι),
      (l.map f).sum i = (l.map fun x => f x i).sum := by
    intro l f i
    induction l with
    | nil => simp
    | cons a l ih => simp [ih]
  refine ⟨_, by simp only [mergeAndNormalize, histSumParallel_eq hists mcs h hne size hs]; rfl, ?_⟩
  intro i
  simp [hsum]

example : ∃ out, mergeAndNormalize [(⟨fun _ => 1, fun _ => 2⟩ : Hist (Bool → ℚ)), ⟨fun b => if b then 3 else 0, fun _ => 4⟩]
    [10, 30] 3 = .ok out := (C13_normalized _ _ rfl (by simp) 3 (by decide)).imp fun _ h => h.1

/-- **C13** A missing file is reported, whatever the number of nodes. -/
theorem C13_mismatch_reported {H F} [AddCommMonoid H] [AddCommMonoid F] (hists : List (Hist H)) (mcs : List F)
    (h : hists.length ≠ mcs.length) (size : Nat) :
    histSumParallel hists mcs size = .error .assertionError ∧ histSum hists mcs = .error .assertionError := by
  simp [histSumParallel, histSum, h]

example : histSum [(⟨1, 2⟩ : Hist ℚ), ⟨3, 4⟩] [(10 : ℚ)] = .error .assertionError :=
  (C13_mismatch_reported _ _ (by decide) 1).2

end Verif.Run
