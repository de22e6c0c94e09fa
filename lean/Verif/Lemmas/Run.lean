import Verif.Model.Run
import Verif.Spec.Run
import Mathlib.Algebra.BigOperators.Group.List.Basic
/-! Helper lemmas for partitions, batches, directories and reductions. -/

namespace Verif.Run

theorem nsmul_eq_mul_nat (a b : Nat) : a • b = a * b := rfl

/-- closed form of the partition -/
theorem getPartitions_closed (m : Nat) : ∀ q t, t < m →
    getPartitions (q * m + t) m = List.replicate t (q + 1) ++ (if q = 0 then [] else List.replicate (m - t) q) := by
  induction m with
  | zero => intro q t h; omega
  | succ m ih =>
    intro q t ht
    cases m with
    | zero =>
      have : t = 0 := by omega
      subst this
      cases q with
      | zero => simp [getPartitions]
      | succ q => simp [getPartitions]
    | succ m =>
      cases hr : q * (m + 1 + 1) + t with
      | zero =>
        have h1 : q * (m + 1 + 1) = 0 := by omega
        have h2 : t = 0 := by omega
        have h3 : q = 0 := by
          rcases Nat.mul_eq_zero.mp h1 with h | h
          · exact h
          · omega
        subst h2 h3; simp [getPartitions]
      | succ r =>
        simp only [getPartitions]
        rw [← hr]
        have hm : 0 < m + 2 := by omega
        by_cases ht0 : t = 0
        · subst ht0
          have hq : q ≠ 0 := by rintro rfl; simp at hr
          have hs : ceilDiv (q * (m + 1 + 1) + 0) (m + 2) = q := by
            rw [ceilDiv]
            apply Nat.div_eq_of_lt_le
            · rw [Nat.mul_comm]; have := Nat.mul_comm q (m + 1 + 1); omega
            · rw [Nat.add_mul]; have : m + 1 + 1 = m + 2 := rfl; rw [this]; omega
          rw [hs]
          have hsub : q * (m + 1 + 1) + 0 - q = q * (m + 1) + 0 := by
            rw [Nat.mul_succ q (m + 1)]; omega
          rw [hsub, ih q 0 (by omega)]
          simp only [List.replicate_zero, List.nil_append, hq, if_false, Nat.sub_zero]
          rfl
        · obtain ⟨t', rfl⟩ : ∃ t', t = t' + 1 := ⟨t - 1, by omega⟩
          have hs : ceilDiv (q * (m + 1 + 1) + (t' + 1)) (m + 2) = q + 1 := by
            rw [ceilDiv]
            apply Nat.div_eq_of_lt_le
            · rw [Nat.add_mul]; have : m + 1 + 1 = m + 2 := rfl; rw [this]; omega
            · rw [Nat.add_mul, Nat.add_mul]; have : m + 1 + 1 = m + 2 := rfl; rw [this]; omega
          rw [hs]
          have hsub : q * (m + 1 + 1) + (t' + 1) - (q + 1) = q * (m + 1) + t' := by
            rw [Nat.mul_succ q (m + 1)]; omega
          rw [hsub, ih q t' (by omega), List.replicate_succ, List.cons_append]
          congr 4
          omega

theorem getPartitions_eq (N n : Nat) (hn : 0 < n) :
    getPartitions N n = List.replicate (N % n) (N / n + 1) ++
      (if N / n = 0 then [] else List.replicate (n - N % n) (N / n)) := by
  have := getPartitions_closed n (N / n) (N % n) (Nat.mod_lt _ hn)
  rwa [Nat.mul_comm, Nat.div_add_mod] at this

theorem getPartitions_sum (N n : Nat) : (getPartitions N n).sum = N := by
  rcases Nat.eq_zero_or_pos n with rfl | hn
  · cases N <;> simp [getPartitions]
  · rw [getPartitions_eq N n hn, List.sum_append, List.sum_replicate]
    have hd := Nat.div_add_mod N n
    have hm := Nat.mod_lt N hn
    have h1 : (n - N % n) * (N / n) + N % n * (N / n) = n * (N / n) := by
      rw [← Nat.add_mul]; congr 1; omega
    split
    · next h => rw [h] at hd ⊢; simp at hd ⊢; omega
    · rw [List.sum_replicate]; rw [nsmul_eq_mul_nat, nsmul_eq_mul_nat, Nat.mul_add]; omega

/-- batches of the script runner in closed form -/
theorem scriptLoop_closed (b : Nat) (t : Nat) (ht : t < b) : ∀ q i,
    scriptLoop b (q + if t = 0 then 0 else 1) i (q * b + t) =
      ((List.range q).map (fun j => (i + j, b)) ++ (if t ≠ 0 then [(i + q, t)] else []), 0) := by
  intro q
  induction q with
  | zero =>
    intro i
    by_cases h : t = 0
    · simp [h, scriptLoop]
    · simp [h, scriptLoop, Nat.min_eq_left (Nat.le_of_lt ht)]
  | succ q ih =>
    intro i
    have e : (q + 1 + if t = 0 then 0 else 1) = (q + if t = 0 then 0 else 1) + 1 := by omega
    have hmin : min ((q + 1) * b + t) b = b := by
      apply Nat.min_eq_right; rw [Nat.succ_mul]; omega
    have hsub : (q + 1) * b + t - b = q * b + t := by rw [Nat.succ_mul]; omega
    rw [e, scriptLoop]
    simp only [hmin, hsub, ih (i + 1)]
    rw [List.range_succ_eq_map, List.map_cons, List.map_map]
    simp only [Prod.mk.injEq, and_true, List.cons_append, Nat.add_zero]
    congr 2
    · apply List.map_congr_left; intro j _; simp; omega
    · split <;> simp; omega

theorem scriptBatches_closed (n b : Nat) (hb : 0 < b) :
    scriptBatches n b = .ok ((List.range (n / b)).map (fun j => (j, b)) ++
      (if n % b ≠ 0 then [(n / b, n % b)] else [])) := by
  have hN : (((n : Int) - 1) / (b : Int) + 1).toNat = n / b + if n % b = 0 then 0 else 1 := by
    have hd := Nat.div_add_mod n b
    have hm := Nat.mod_lt n hb
    have hbz : (0 : Int) < b := by exact_mod_cast hb
    have hcast : (n : Int) = b * (n / b : Nat) + (n % b : Nat) := by exact_mod_cast hd.symm
    have hq : (0 : Int) ≤ (n / b : Nat) := Int.natCast_nonneg _
    by_cases h0 : n % b = 0
    · have : ((n : Int) - 1) / (b : Int) = (n / b : Nat) - 1 := by
        have e : (n : Int) - 1 = ((b : Int) - 1) + (b : Int) * ((n / b : Nat) - 1) := by
          rw [hcast, h0, Int.mul_sub]; simp
        rw [e, Int.add_mul_ediv_left _ _ (by omega), Int.ediv_eq_zero_of_lt (by omega) (by omega)]; omega
      rw [this, if_pos h0]; omega
    · have : ((n : Int) - 1) / (b : Int) = (n / b : Nat) := by
        have e : (n : Int) - 1 = ((n % b : Nat) - 1 : Int) + (b : Int) * (n / b : Nat) := by
          omega
        rw [e, Int.add_mul_ediv_left _ _ (by omega), Int.ediv_eq_zero_of_lt (by omega) (by omega)]; omega
      rw [this, if_neg h0]; omega
  have hb0 : b ≠ 0 := by omega
  simp only [scriptBatches, hb0, if_false, hN]
  have := scriptLoop_closed b (n % b) (Nat.mod_lt _ hb) (n / b) 0
  rw [Nat.mul_comm, Nat.div_add_mod] at this
  rw [this]; simp

theorem appBatches_closed (n b : Nat) (hn : 0 < n) (hb : 0 < b) :
    appBatches n b = .ok ((List.range (n / b)).map (fun j => (j, b)) ++
      (if n % b ≠ 0 then [(n / b, n % b)] else [])) := by
  by_cases h : n < b
  · have hn0 : n ≠ 0 := by omega
    simp [appBatches, h, hn0, Nat.div_self hn, Nat.div_eq_of_lt h, Nat.mod_eq_of_lt h]
  · have hb0 : b ≠ 0 := by omega
    simp [appBatches, h, hb0]

theorem decimal_inj {a b : Nat} (h : decimal a = decimal b) : a = b := by
  have := congrArg (fun l => Nat.ofDigitChars 10 l 0) h
  simpa [decimal, Nat.ofDigitChars_ten_toDigits] using this

theorem dash_not_mem_decimal (n : Nat) : '-' ∉ decimal n := by
  intro h
  have := Nat.isDigit_of_mem_toDigits (by decide) (by decide) h
  revert this; decide

theorem append_cons_inj {α} {a a' : List α} {c : α} {b b' : List α} (ha : c ∉ a) (ha' : c ∉ a')
    (h : a ++ c :: b = a' ++ c :: b') : a = a' ∧ b = b' := by
  induction a generalizing a' with
  | nil =>
    cases a' with
    | nil => simpa using h
    | cons x a' => simp only [List.nil_append, List.cons_append, List.cons.injEq] at h
                   exact absurd (h.1 ▸ List.mem_cons_self) ha'
  | cons x a ih =>
    cases a' with
    | nil => simp only [List.nil_append, List.cons_append, List.cons.injEq] at h
             exact absurd (h.1 ▸ List.mem_cons_self) ha
    | cons y a' =>
      simp only [List.cons_append, List.cons.injEq] at h
      have := ih (fun hm => ha (List.mem_cons_of_mem _ hm)) (fun hm => ha' (List.mem_cons_of_mem _ hm)) h.2
      exact ⟨by rw [h.1, this.1], this.2⟩

/-! reduction -/

theorem foldl_hist {H} [AddCommMonoid H] (hs : List (Hist H)) (h : Hist H) :
    hs.foldl Hist.add h = ⟨h.I + (hs.map Hist.I).sum, h.E2 + (hs.map Hist.E2).sum⟩ := by
  induction hs generalizing h with
  | nil => simp
  | cons a hs ih => simp [ih, Hist.add, add_assoc]

theorem foldl_add {F} [AddCommMonoid F] (l : List F) (a : F) : l.foldl (· + ·) a = a + l.sum := by
  induction l generalizing a with
  | nil => simp
  | cons x l ih => simp [ih, add_assoc]

theorem slices_flatten {α} (k : Nat) (l : List α) : ∀ m,
    (List.range m).flatMap (fun r => (l.drop (k * r)).take (k * (r + 1) - k * r)) = l.take (k * m) := by
  intro m
  induction m with
  | zero => simp
  | succ m ih =>
    rw [List.range_succ, List.flatMap_append, ih]
    simp only [List.flatMap_cons, List.flatMap_nil, List.append_nil]
    have : k * (m + 1) - k * m = k := by rw [Nat.mul_succ]; omega
    rw [this, Nat.mul_succ, List.take_add]

theorem slices_all {α} (l : List α) (size : Nat) (hs : 0 < size) :
    (List.range size).flatMap (slice l size) = l := by
  have h := slices_flatten ((l.length - 1) / size + 1) l size
  rw [show slice l size = fun r => (l.drop (((l.length - 1) / size + 1) * r)).take
    (((l.length - 1) / size + 1) * (r + 1) - ((l.length - 1) / size + 1) * r) from rfl, h]
  apply List.take_of_length_le
  have := Nat.div_add_mod (l.length - 1) size
  have := Nat.mod_lt (l.length - 1) hs
  rw [Nat.add_mul, Nat.mul_comm]
  omega

theorem slice_length {α β} (l : List α) (l' : List β) (h : l.length = l'.length) (size r : Nat) :
    (slice l size r).length = (slice l' size r).length := by
  simp [slice, h]

/-- the contribution of a rank as a triple of sums -/
theorem localSum_eq {H F} [AddCommMonoid H] [AddCommMonoid F] (hists : List (Hist H)) (mcs : List F)
    (h : hists.length = mcs.length) (size r : Nat) (acc : Hist H × F) :
    recvOne acc (sendAll (localSum hists mcs size r)) =
      some (⟨acc.1.I + ((slice hists size r).map Hist.I).sum, acc.1.E2 + ((slice hists size r).map Hist.E2).sum⟩,
        acc.2 + (slice mcs size r).sum) := by
  have hl := slice_length hists mcs h size r
  simp only [localSum]
  cases hsl : slice hists size r with
  | nil =>
    rw [hsl] at hl
    have : slice mcs size r = [] := List.length_eq_zero_iff.mp hl.symm
    simp [sendAll, recvOne, this]
  | cons a hs =>
    simp [sendAll, recvOne, foldl_hist, foldl_add]

theorem recvFrom_eq {H F} [AddCommMonoid H] [AddCommMonoid F] (hists : List (Hist H)) (mcs : List F)
    (h : hists.length = mcs.length) (size : Nat) (rs : List Nat) : ∀ acc : Hist H × F,
    recvFrom (fun r => sendAll (localSum hists mcs size r)) rs acc =
      some (⟨acc.1.I + ((rs.flatMap (slice hists size)).map Hist.I).sum,
        acc.1.E2 + ((rs.flatMap (slice hists size)).map Hist.E2).sum⟩,
        acc.2 + (rs.flatMap (slice mcs size)).sum) := by
  induction rs with
  | nil => intro acc; simp [recvFrom]
  | cons r rs ih =>
    intro acc
    simp only [recvFrom]
    rw [localSum_eq hists mcs h]
    simp only [Option.bind_some]
    rw [ih]
    simp [add_assoc]

theorem histSumParallel_eq {H F} [AddCommMonoid H] [AddCommMonoid F] (hists : List (Hist H)) (mcs : List F)
    (h : hists.length = mcs.length) (hne : hists ≠ []) (size : Nat) (hs : 0 < size) :
    histSumParallel hists mcs size =
      .ok (some (⟨(hists.map Hist.I).sum, (hists.map Hist.E2).sum⟩, mcs.sum)) := by
  have hl0 : hists.length ≠ 0 := fun hh => hne (List.length_eq_zero_iff.mp hh)
  have hs0 : size ≠ 0 := by omega
  obtain ⟨m, rfl⟩ : ∃ m, size = m + 1 := ⟨size - 1, by omega⟩
  have hsl0 : ∃ a tl, slice hists (m + 1) 0 = a :: tl := by
    cases hc : slice hists (m + 1) 0 with
    | cons a tl => exact ⟨a, tl, rfl⟩
    | nil =>
      have := congrArg List.length hc
      simp only [slice, Nat.mul_zero, List.drop_zero, List.length_take, List.length_nil, Nat.zero_add,
        Nat.mul_one, Nat.sub_zero] at this
      rcases Nat.min_eq_zero_iff.mp this with h1 | h1
      · exact absurd h1 (Nat.succ_ne_zero _)
      · exact absurd h1 hl0
  obtain ⟨a, tl, hsl⟩ := hsl0
  simp only [histSumParallel, h, ne_eq, not_true_eq_false, if_false, hs0]
  rw [if_neg (by rw [← h]; exact hl0)]
  have hloc : localSum hists mcs (m + 1) 0 =
      some (tl.foldl Hist.add a, (slice mcs (m + 1) 0).foldl (· + ·) 0) := by
    simp [localSum, hsl]
  rw [hloc]
  simp only
  have hr : (List.range (m + 1)).drop 1 = (List.range m).map Nat.succ := by
    rw [List.range_succ_eq_map]; rfl
  rw [recvFrom_eq hists mcs h]
  have e1 := slices_all hists (m + 1) hs
  have e2 := slices_all mcs (m + 1) hs
  rw [List.range_succ_eq_map, List.flatMap_cons] at e1 e2
  rw [hr]
  simp only [Except.ok.injEq, Option.some.injEq, Prod.mk.injEq, Hist.mk.injEq, foldl_hist, foldl_add, zero_add]
  refine ⟨⟨?_, ?_⟩, ?_⟩
  · conv_rhs => rw [← e1]
    rw [hsl]; simp [add_assoc]
  · conv_rhs => rw [← e1]
    rw [hsl]; simp [add_assoc]
  · conv_rhs => rw [← e2]
    simp
/-- helper for C10: the closed form is a batching -/
theorem batching_closed (n b : Nat) (hb : 0 < b) :
    IsBatching n b ((List.range (n / b)).map (fun j => (j, b)) ++
      (if n % b ≠ 0 then [(n / b, n % b)] else [])) := by
  have hd := Nat.div_add_mod n b
  have hm := Nat.mod_lt n hb
  refine ⟨?_, ?_, ?_⟩
  · intro k
    have hl : ((List.range (n / b)).map (fun j => (j, b))).length = n / b := by simp
    by_cases hk : k < n / b
    · rw [List.getElem?_append_left (by omega), if_pos (by rw [List.length_append]; omega)]
      simp [hk]
    · rw [List.getElem?_append_right (by omega), hl, List.length_append, hl]
      split
      · by_cases hk2 : k = n / b
        · subst hk2; simp
        · rw [List.getElem?_eq_none (by simp; omega), if_neg (by simp; omega)]; rfl
      · rw [if_neg (by simp; omega)]; simp
  · intro x hx
    rw [List.mem_append] at hx
    rcases hx with hx | hx
    · simp only [List.mem_map] at hx
      obtain ⟨j, -, rfl⟩ := hx
      exact ⟨hb, Nat.le_refl _⟩
    · split at hx
      · rw [List.mem_singleton] at hx; subst hx
        exact ⟨by simp; omega, Nat.le_of_lt hm⟩
      · cases hx
  · rw [List.map_append, List.sum_append, List.map_map]
    have : (List.range (n / b)).map (Prod.snd ∘ fun j => (j, b)) = List.replicate (n / b) b := by
      rw [show (Prod.snd ∘ fun j : Nat => (j, b)) = fun _ => b from rfl, List.map_const', List.length_range]
    rw [this, List.sum_replicate, nsmul_eq_mul_nat, Nat.mul_comm]
    split
    · simp; exact hd
    · simp; omega

/-- the serial reduction is the sum over all files -/
theorem histSum_eq {H F} [AddCommMonoid H] [AddCommMonoid F] (hists : List (Hist H)) (mcs : List F)
    (h : hists.length = mcs.length) (hne : hists ≠ []) :
    histSum hists mcs = .ok (some (⟨(hists.map Hist.I).sum, (hists.map Hist.E2).sum⟩, mcs.sum)) := by
  cases hists with
  | nil => exact absurd rfl hne
  | cons a hs => simp [histSum, h, foldl_hist, foldl_add]


end Verif.Run
