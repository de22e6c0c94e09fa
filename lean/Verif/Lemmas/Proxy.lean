import Verif.Spec.Proxy
import Verif.Lemmas.McMonitors
import Mathlib.Tactic.Linarith
import Mathlib.Tactic.Ring
import Mathlib.Tactic.FieldSimp
import Mathlib.Tactic.Positivity
import Mathlib.Tactic.NormNum
import Mathlib.Data.List.TakeWhile
/-!
Lemmas for the histograms of monitors and the parameters of components.
-/

namespace Verif.Proxy
open McMon McStas Kinem

noncomputable section
open Classical

/-! ### sizes -/

theorem add_size {h h' : Hist} {k : ℤ} {p : ℝ} (H : h.add k p = .ok h') : h'.size = h.size := by
  unfold Hist.add at H
  split_ifs at H
  simp only [Except.ok.injEq] at H
  rw [← H]

theorem map_size {h : Hist} {k : ℤ} {p : ℝ} {e : Event ℝ} {r : Hist × Event ℝ} (H : (h.add k p).map (·, e) = .ok r) :
    r.1.size = h.size := by
  cases hh : h.add k p with
  | error x => rw [hh] at H; cases H
  | ok x =>
    rw [hh] at H
    simp only [Except.map, Except.ok.injEq] at H
    rw [← H]
    exact add_size hh

theorem run_size {S : Type} (size : S → Nat) {trace : S → Event ℝ → Except Err (S × Event ℝ)}
    (ht : ∀ s e r, trace s e = .ok r → size r.1 = size s) : ∀ (es : List (Event ℝ)) (s : S) (r : S × List (Event ℝ)),
    runAll trace s es = .ok r → size r.1 = size s := by
  intro es
  induction es with
  | nil => intro s r h; simp only [runAll, Except.ok.injEq] at h; rw [← h]
  | cons e es ih =>
    intro s r h
    rw [runAll] at h
    cases h1 : trace s e with
    | error x => rw [h1] at h; cases h
    | ok p =>
      rw [h1] at h
      simp only [bind, Except.bind] at h
      cases h2 : runAll trace p.1 es with
      | error x => rw [h2] at h; cases h
      | ok q =>
        rw [h2] at h
        simp only [Except.ok.injEq] at h
        rw [← h]
        exact (ih _ _ h2).trans (ht _ _ _ h1)

theorem eMonitor_size {VS2E : ℝ} {w : Window} {lo hi : ℝ} {n : Nat} {G : Gravity} (s : EState) (e : Event ℝ) (r : EState × Event ℝ)
    (h : eMonitor VS2E w lo hi n G s e = .ok r) : r.1.hist.size = s.hist.size := by
  unfold eMonitor countE at h
  simp only at h
  split_ifs at h
  · set k := chan (VS2E * speed2 (propZ0 G e)) lo hi n
    cases hh : s.hist.add k (propZ0 G e).p with
    | error x => rw [hh] at h; cases h
    | ok x =>
      rw [hh] at h
      simp only [Except.map, Except.ok.injEq] at h
      rw [← h]
      exact add_size hh
  all_goals (simp only [Except.ok.injEq] at h; rw [← h])

theorem lMonitor_size {V2K : ℝ} {w : Window} {lo hi : ℝ} {n : Nat} {G : Gravity} (s : Hist) (e : Event ℝ) (r : Hist × Event ℝ)
    (h : lMonitor V2K w lo hi n G s e = .ok r) : r.1.size = s.size := by
  unfold lMonitor at h
  simp only at h
  by_cases hw : w.has (propZ0 G e)
  · rw [if_pos hw] at h
    cases hd : divD (2 * Real.pi / V2K) (√(speed2 (propZ0 G e))) with
    | none => rw [hd] at h; cases h
    | some L =>
      rw [hd] at h
      simp only at h
      split_ifs at h
      · exact map_size h
      · simp only [Except.ok.injEq] at h; rw [← h]
  · rw [if_neg hw] at h
    simp only [Except.ok.injEq] at h; rw [← h]

theorem tof2_size {w : Window} {lo hi : ℝ} {n : Nat} {G : Gravity} (s : Hist) (e : Event ℝ) (r : Hist × Event ℝ)
    (h : tofMonitor2 w lo hi n G s e = .ok r) : r.1.size = s.size := by
  unfold tofMonitor2 at h
  simp only at h
  by_cases hw : w.has (propZ0 G e)
  · rw [if_pos hw] at h
    cases hd : divD ((propZ0 G e).t - lo) ((hi - lo) / n) with
    | none => rw [hd] at h; cases h
    | some L =>
      rw [hd] at h
      exact map_size h
  · rw [if_neg hw] at h
    simp only [Except.ok.injEq] at h; rw [← h]

theorem hdiv_size {w : Window} {m : ℝ} {n : Nat} {G : Gravity} (s : Hist) (e : Event ℝ) (r : Hist × Event ℝ)
    (h : hdiv w m n G s e = .ok r) : r.1.size = s.size := by
  unfold hdiv at h
  simp only at h
  split_ifs at h
  · exact map_size h
  all_goals (simp only [Except.ok.injEq] at h; rw [← h])

theorem divPos_size {w : Window} {m : ℝ} {n k : Nat} {G : Gravity} (s : Hist) (e : Event ℝ) (r : Hist × Event ℝ)
    (h : divPos w m n k G s e = .ok r) : r.1.size = s.size := by
  unfold divPos at h
  simp only at h
  split_ifs at h
  · exact map_size h
  all_goals (simp only [Except.ok.injEq] at h; rw [← h])

theorem divergence_size {w : Window} {m l : ℝ} {n k : Nat} {G : Gravity} (s : Hist) (e : Event ℝ) (r : Hist × Event ℝ)
    (h : divergence w m l n k G s e = .ok r) : r.1.size = s.size := by
  unfold divergence at h
  simp only at h
  split_ifs at h
  · exact map_size h
  all_goals (simp only [Except.ok.injEq] at h; rw [← h])

theorem psd_size {w : Window} {n k : Nat} {G : Gravity} (s : Hist) (e : Event ℝ) (r : Hist × Event ℝ)
    (h : psd w n k G s e = .ok r) : r.1.size = s.size := by
  unfold psd at h
  simp only at h
  split_ifs at h
  · exact map_size h
  all_goals (simp only [Except.ok.injEq] at h; rw [← h])

theorem iqe_size {a b c : ℝ} {m : IQE} (s : Hist) (e : Event ℝ) (r : Hist × Event ℝ)
    (h : iqe a b c m s e = .ok r) : r.1.size = s.size := by
  unfold iqe at h
  cases hd : sqrtD m.Ei with
  | none => rw [hd] at h; cases h
  | some L =>
    rw [hd] at h
    simp only at h
    split_ifs at h <;> first | exact map_size h | (simp only [Except.ok.injEq] at h; rw [← h])

theorem psd4PI_size {R : ℝ} {n k : Nat} {G : Gravity} (s : Hist) (e : Event ℝ) (r : Hist × Event ℝ)
    (h : psd4PI R n k G s e = .ok r) : r.1.size = s.size := by
  unfold psd4PI at h
  cases hd : sphereIntersect e.r e.v R with
  | none => rw [hd] at h; cases h
  | some L =>
    rw [hd] at h
    cases L with
    | none => simp only [Except.ok.injEq] at h; rw [← h]
    | some p =>
      obtain ⟨t0, t1⟩ := p
      simp only at h
      by_cases ht : t1 > 0
      · rw [if_pos ht] at h
        generalize (if t0 < 0 then t1 else t0) = t at h
        cases hq : Powder.asinD ((propDt G t e).r.y / R) with
        | none => rw [hq] at h; cases h
        | some q => rw [hq] at h; exact map_size h
      · rw [if_neg ht] at h
        simp only [Except.ok.injEq] at h; rw [← h]

/-! ### axes without rounding -/

theorem ceil_eq {x : ℝ} {n : Nat} (h1 : n - 1 < x) (h2 : x ≤ n) : ⌈x⌉₊ = n := by
  rcases Nat.eq_zero_or_pos n with rfl | hn
  · rw [Nat.ceil_eq_zero]; exact_mod_cast h2
  · rw [Nat.ceil_eq_iff hn.ne']
    refine ⟨?_, h2⟩
    rw [Nat.cast_sub hn]
    exact_mod_cast h1

theorem arange_id {s t d : ℝ} (hd : d ≠ 0) : arange id s t d = .ok ((List.range ⌈(t - s) / d⌉₊).map fun (k : Nat) => s + k * d) := by
  unfold arange
  rw [if_neg hd]
  congr 1
  refine List.map_congr_left fun k _ => ?_
  unfold arangeAt
  simp only [id]
  split_ifs with h1 h2
  · subst h1; simp
  · subst h2; simp
  · ring

theorem per_id {x : ℝ} {n : Nat} (hn : 0 < n) : per id x n = .ok (x / n) := by
  unfold per; rw [if_neg hn.ne']; rfl

section
variable {lo hi : ℝ} {n : Nat}

theorem step_pos (hl : lo < hi) (hn : 0 < n) : 0 < (hi - lo) / n := by
  have : (0 : ℝ) < n := by exact_mod_cast hn
  have : 0 < hi - lo := by linarith
  positivity

theorem step_mul (hn : 0 < n) : (hi - lo) / n * n = hi - lo := by
  have : (n : ℝ) ≠ 0 := by exact_mod_cast hn.ne'
  field_simp

theorem count_of {s t d θ : ℝ} (hd : 0 < d) (h : t - s = (n - θ) * d) (h1 : 0 ≤ θ) (h2 : θ < 1) : ⌈(t - s) / d⌉₊ = n := by
  rw [h, mul_div_assoc, div_self hd.ne', mul_one]
  exact ceil_eq (by linarith) (by linarith)

theorem eAxis_id (hl : lo < hi) (hn : 0 < n) : eAxis id lo hi n = .ok ((List.range n).map (middle lo hi n)) := by
  have hd := step_pos hl hn
  have hm := step_mul (lo := lo) (hi := hi) hn
  unfold eAxis middles
  simp only [id, per_id hn, bind, Except.bind]
  have := arange_id (s := lo + (hi - lo) / n / 2) (t := hi) hd.ne'
  unfold id at this
  rw [this, count_of (n := n) (θ := 1 / 2) hd (by linarith) (by norm_num) (by norm_num)]
  congr 1
  refine List.map_congr_left fun k _ => ?_
  unfold middle; ring

theorem lAxis_id (hl : lo < hi) (hn : 0 < n) : lAxis id lo hi n = .ok ((List.range n).map (middle lo hi n)) := by
  have hd := step_pos hl hn
  have hm := step_mul (lo := lo) (hi := hi) hn
  unfold lAxis
  simp only [id, per_id hn, bind, Except.bind]
  have := arange_id (s := lo + (hi - lo) / n / 2) (t := hi + (hi - lo) / n / 2) hd.ne'
  unfold id at this
  rw [this, count_of (n := n) (θ := 0) hd (by linarith) (by norm_num) (by norm_num)]
  congr 1
  refine List.map_congr_left fun k _ => ?_
  unfold middle; ring

theorem tAxis_id (hl : lo < hi) (hn : 0 < n) : tAxis id lo hi n = .ok ((List.range n).map (middle lo hi n)) := by
  have hd := step_pos hl hn
  have hm := step_mul (lo := lo) (hi := hi) hn
  unfold tAxis
  simp only [id, per_id hn, bind, Except.bind]
  have := arange_id (s := lo + (hi - lo) / n / 2) (t := hi + (hi - lo) / n / 2 - 0.1 * ((hi - lo) / n)) hd.ne'
  unfold id at this
  rw [this, count_of (n := n) (θ := 0.1) hd (by linarith) (by norm_num) (by norm_num)]
  congr 1
  refine List.map_congr_left fun k _ => ?_
  unfold middle; ring

theorem divAxis_id {m : ℝ} (hl : 0 < m) (hn : 0 < n) : divAxis id m n = .ok ((List.range n).map (middle (-m) m n)) := by
  rw [← eAxis_id (by linarith) hn]
  unfold divAxis eAxis
  simp only [id]
  rw [show 2 * m = m - -m by ring]

theorem edgeAxis_id (hl : lo < hi) (hn : 0 < n) :
    edgeAxis id lo hi n = .ok ((List.range n).map fun (k : Nat) => lo + k * ((hi - lo) / n)) := by
  have hd := step_pos hl hn
  have hm := step_mul (lo := lo) (hi := hi) hn
  unfold edgeAxis
  simp only [id, per_id hn, bind, Except.bind]
  have := arange_id (s := lo) (t := hi) hd.ne'
  unfold id at this
  rw [this, count_of (n := n) (θ := 0) hd (by linarith) (by norm_num) (by norm_num)]

theorem azimuthAxis_id (hn : 0 < n) : azimuthAxis id n = .ok ((List.range n).map fun (k : Nat) => 0 + k * (360 / n : ℝ)) := by
  have := edgeAxis_id (lo := 0) (hi := 360) (by norm_num) hn
  unfold edgeAxis at this
  unfold azimuthAxis
  simpa using this

theorem latitudeAxis_id (hn : 0 < n) : latitudeAxis id n = .ok ((List.range n).map fun (k : Nat) => -90 + k * (180 / n : ℝ)) := by
  have := edgeAxis_id (lo := -90) (hi := 90) (by norm_num) hn
  unfold edgeAxis at this
  unfold latitudeAxis
  rw [show (90 : ℝ) - -90 = 180 by norm_num] at this
  simpa using this

theorem at_middle {i : Nat} {x : ℝ} : At (middle lo hi n i) ((hi - lo) / n) x ↔ InBin lo hi n i x := by
  unfold At middle InBin
  constructor <;> rintro ⟨a, b⟩ <;> constructor <;> nlinarith

end

theorem intOf_nat (n : Nat) : intOf (n : ℝ) = .ok n := by
  unfold intOf
  rw [round_natCast, if_neg (by norm_num)]
  simp

theorem read_ok {h : Hist} {n : Nat} (hs : h.size = n) : readArr h n = .ok ((List.range n).map h.cell) := by
  unfold readArr
  rw [if_pos hs.ge]

/-- the histogram with one axis -/
theorem hist1_ok {axis : Nat → Except Err (List ℝ)} {f : Nat → ℝ} {n : Nat} {h : Hist} (hs : h.size = n)
    (ha : axis n = .ok ((List.range n).map f)) :
    hist1 axis n h = .ok ⟨(List.range n).map f, (List.range n).map fun i => (h.cell i).p, (List.range n).map fun i => (h.cell i).p2⟩ := by
  unfold hist1
  simp only [read_ok hs, ha, bind, Except.bind, histogram, List.length_map, List.length_range, if_true, List.map_map,
    Function.comp_def]

theorem histogram2_ok {f g : Nat → ℝ} {n m : Nat} {h : Hist} :
    ∃ H, histogram2 ((List.range n).map f) ((List.range m).map g) n m ((List.range (n * m)).map h.cell) = .ok H ∧
      H.xs = (List.range n).map f ∧ H.ys = (List.range m).map g ∧
      ∀ i < n, ∀ j < m, H.I i j = (h.cell (j + i * m)).p ∧ H.E2 i j = (h.cell (j + i * m)).p2 := by
  unfold histogram2
  rw [if_pos (by simp)]
  refine ⟨_, rfl, rfl, rfl, fun i hi j hj => ?_⟩
  have hlt : i * m + j < n * m := by
    calc i * m + j < i * m + m := by omega
      _ = (i + 1) * m := by ring
      _ ≤ n * m := Nat.mul_le_mul_right _ hi
  rw [add_comm j]
  simp [hlt]

/-- the histogram with two axes -/
theorem hist2_ok {xaxis yaxis : Nat → Except Err (List ℝ)} {f g : Nat → ℝ} {n m : Nat} {h : Hist} (hs : h.size = n * m)
    (hx : xaxis n = .ok ((List.range n).map f)) (hy : yaxis m = .ok ((List.range m).map g)) :
    ∃ H, hist2 xaxis yaxis n m h = .ok H ∧ H.xs = (List.range n).map f ∧ H.ys = (List.range m).map g ∧
      ∀ i < n, ∀ j < m, H.I i j = (h.cell (j + i * m)).p ∧ H.E2 i j = (h.cell (j + i * m)).p2 := by
  unfold hist2
  simp only [intOf_nat, read_ok hs, hx, hy, bind, Except.bind]
  exact histogram2_ok

theorem shows_of {axis : Nat → Except Err (List ℝ)} {lo hi : ℝ} {n : Nat} {h : Hist} {q : Event ℝ → ℝ} {sel : Event ℝ → Prop}
    {es : List (Event ℝ)} (hs : h.size = n) (ha : axis n = .ok ((List.range n).map (middle lo hi n)))
    (hc : ∀ i < n, h.cell i = tally (fun e => sel e ∧ InBin lo hi n i (q e)) es) :
    ∃ H, hist1 axis n h = .ok H ∧ Shows H lo hi n q sel es := by
  refine ⟨_, hist1_ok hs ha, by simp, fun i hi => ⟨_, by simp [hi], rfl, ?_⟩⟩
  simp only [at_middle, List.getElem?_map, List.getElem?_range hi, Option.map_some, hc i hi, and_self]

theorem shows2_of {xaxis yaxis : Nat → Except Err (List ℝ)} {lo hi lo' hi' : ℝ} {n m : Nat} {h : Hist} {q q' : Event ℝ → ℝ}
    {sel : Event ℝ → Prop} {es : List (Event ℝ)} (hs : h.size = n * m)
    (hx : xaxis n = .ok ((List.range n).map (middle lo hi n))) (hy : yaxis m = .ok ((List.range m).map (middle lo' hi' m)))
    (hc : ∀ i < n, ∀ j < m, h.cell (j + i * m) = tally (fun e => sel e ∧ InBin lo hi n i (q e) ∧ InBin lo' hi' m j (q' e)) es) :
    ∃ H, hist2 xaxis yaxis n m h = .ok H ∧ Shows2 H lo hi n q lo' hi' m q' sel es := by
  obtain ⟨H, h1, h2, h3, h4⟩ := hist2_ok hs hx hy
  refine ⟨H, h1, ⟨by simp [h2], by simp [h3]⟩, fun i hi j hj =>
    ⟨_, _, ⟨by rw [h2]; simp [hi], rfl⟩, ⟨by rw [h3]; simp [hj], rfl⟩, ?_⟩⟩
  simp only [at_middle, (h4 i hi j hj).1, (h4 i hi j hj).2, hc i hi j hj, and_self]

theorem comes_ex : Comes ⟨false, 0⟩ ⟨⟨0.9, 0.9, -1⟩, ⟨0, 0, 1⟩, 0, 0, 0, 1⟩ ⟨⟨0.9, 0.9, 0⟩, ⟨0, 0, 1⟩, 0, 0, 1, 1⟩ := by
  refine ⟨⟨1, ⟨by norm_num, ?_, fun s h1 h2 h3 => ?_⟩, ?_⟩, .inl ⟨rfl, by norm_num⟩⟩
  · rw [flown_z, accel_off rfl]; norm_num
  · rw [flown_z, accel_off rfl] at h3; norm_num at h3; linarith
  · unfold flown; rw [accel_off rfl]; ext <;> simp

theorem meets_ex : MeetsSphere ⟨false, 0⟩ 1 ⟨0, ⟨0, 0, 1⟩, 0, 0, 0, 1⟩ ⟨⟨0, 0, 1⟩, ⟨0, 0, 1⟩, 0, 0, 1, 1⟩ := by
  refine ⟨1, by norm_num, ?_, fun s hs h => ?_, ?_⟩
  · unfold OnSphere; norm_num
  · unfold OnSphere at h
    simp only [V3.zero_x, V3.zero_y, V3.zero_z] at h
    nlinarith
  · unfold flown accel; ext <;> norm_num

/-! ### rounding -/

theorem nearestEven_le (y : ℝ) : |nearestEven y - y| ≤ 1 / 2 := by
  have h1 := Int.floor_le y
  have h2 := Int.lt_floor_add_one y
  unfold nearestEven
  split_ifs <;> push_cast <;> rw [abs_le] <;> constructor <;> linarith

theorem nearestEven_eq {y : ℝ} {k : ℤ} (h : |y - k| < 1 / 2) : nearestEven y = k := by
  have h1 := abs_le.1 (nearestEven_le y)
  rw [abs_lt] at h
  have a : (nearestEven y : ℝ) < k + 1 := by linarith
  have b : (k : ℝ) < nearestEven y + 1 := by linarith
  have a' : nearestEven y < k + 1 := by exact_mod_cast a
  have b' : k < nearestEven y + 1 := by exact_mod_cast b
  omega

theorem dbl_rounds : Rounds dbl (2 ^ (-53 : ℤ)) := by
  intro x
  unfold dbl
  by_cases hx : x = 0
  · simp [hx]
  · rw [if_neg hx]
    have hpos : 0 < |x| := abs_pos.2 hx
    have hle := Int.zpow_log_le_self (b := 2) (by norm_num) hpos
    push_cast at hle
    set e := Int.log 2 |x|
    have h2 : (0 : ℝ) < 2 ^ (e - 52) := by positivity
    have hx2 : x = x * 2 ^ (52 - e) * 2 ^ (e - 52) := by
      rw [mul_assoc, ← zpow_add₀ (by norm_num)]; simp
    have : (nearestEven (x * 2 ^ (52 - e)) : ℝ) * 2 ^ (e - 52) - x =
        (nearestEven (x * 2 ^ (52 - e)) - x * 2 ^ (52 - e)) * 2 ^ (e - 52) := by
      rw [sub_mul, ← hx2]
    rw [this, abs_mul, abs_of_pos h2]
    calc _ ≤ 1 / 2 * (2 : ℝ) ^ (e - 52) := mul_le_mul_of_nonneg_right (nearestEven_le _) h2.le
      _ = 2 ^ (-53 : ℤ) * 2 ^ e := by
        rw [show (1 / 2 : ℝ) = 2 ^ (-1 : ℤ) by norm_num, ← zpow_add₀ (by norm_num), ← zpow_add₀ (by norm_num)]
        congr 1; ring
      _ ≤ _ := mul_le_mul_of_nonneg_left hle (by positivity)

theorem dbl_eq {x : ℝ} (e k : ℤ) (h1 : (2 : ℝ) ^ e ≤ |x|) (h2 : |x| < 2 ^ (e + 1)) (h3 : |x * 2 ^ (52 - e) - k| < 1 / 2) :
    dbl x = k * 2 ^ (e - 52) := by
  have hpos : 0 < |x| := lt_of_lt_of_le (by positivity) h1
  have he : Int.log 2 |x| = e := by
    apply le_antisymm
    · have := (Int.lt_zpow_iff_log_lt (b := 2) (by norm_num) (x := e + 1) hpos).1 (by push_cast; exact h2)
      omega
    · exact (Int.zpow_le_iff_le_log (b := 2) (by norm_num) hpos).1 (by push_cast; exact h1)
  unfold dbl
  rw [if_neg (abs_pos.1 hpos), he, nearestEven_eq h3]

section
variable {fl : ℝ → ℝ} {u lo hi : ℝ} {n : Nat}

/-- errors relative to the width `D` of a channel -/
structure Err1000 (fl : ℝ → ℝ) (u A D : ℝ) (n : Nat) : Prop where
  D0 : 0 < D
  DA : D ≤ A
  v0 : 0 ≤ u * D
  nv : n * (u * D) ≤ D / 1000
  big : ∀ y c, |y| ≤ c * A → |fl y - y| ≤ c * (D / 1000)
  small : ∀ y c, |y| ≤ c * D → |fl y - y| ≤ c * (u * D)
  near : ∀ y : ℝ, |y| ≤ 2 * n → |fl y - y| ≤ 2 / 1000

theorem errs (hr : Rounds fl u) (hu : 0 ≤ u) (hl : lo < hi) (hn : 0 < n) (hc : n * (|lo| + |hi|) * u ≤ (hi - lo) / 1000) :
    Err1000 fl u (|lo| + |hi|) ((hi - lo) / n) n := by
  have hn' : (1 : ℝ) ≤ n := by exact_mod_cast hn
  have hD := step_pos hl hn
  have hm := step_mul (lo := lo) (hi := hi) hn
  set D := (hi - lo) / n
  have hWA : hi - lo ≤ |lo| + |hi| := by linarith [le_abs_self hi, neg_le_abs lo]
  have hDW : D ≤ hi - lo := by nlinarith
  have huA : u * (|lo| + |hi|) ≤ D / 1000 := by
    have : n * (u * (|lo| + |hi|)) ≤ n * (D / 1000) := by nlinarith
    exact le_of_mul_le_mul_left this (by linarith)
  have hnu : n * u ≤ 1 / 1000 := by
    have h1 : n * u * (hi - lo) ≤ n * u * (|lo| + |hi|) := mul_le_mul_of_nonneg_left hWA (by positivity)
    have h2 : n * u * (hi - lo) ≤ 1 / 1000 * (hi - lo) := by nlinarith
    exact le_of_mul_le_mul_right h2 (by linarith)
  refine ⟨hD, by linarith, by positivity, by nlinarith, fun y c h => ?_, fun y c h => ?_, fun y h => ?_⟩
  · have hA : 0 ≤ |lo| + |hi| := by positivity
    have hc : 0 ≤ c := by
      have := (abs_nonneg y).trans h
      by_contra hneg
      nlinarith
    calc _ ≤ u * |y| := hr y
      _ ≤ u * (c * (|lo| + |hi|)) := mul_le_mul_of_nonneg_left h hu
      _ = c * (u * (|lo| + |hi|)) := by ring
      _ ≤ _ := mul_le_mul_of_nonneg_left huA hc
  · calc _ ≤ u * |y| := hr y
      _ ≤ u * (c * D) := mul_le_mul_of_nonneg_left h hu
      _ = _ := by ring
  · calc _ ≤ u * |y| := hr y
      _ ≤ u * (2 * n) := mul_le_mul_of_nonneg_left h hu
      _ ≤ _ := by linarith

variable {A D : ℝ}

/-- the width of a channel, rounded -/
theorem step_near (E : Err1000 fl u A D n) (hn : 0 < n) : |fl (fl (n * D) / n) - D| ≤ 3 * (u * D) := by
  have hn' : (1 : ℝ) ≤ n := by exact_mod_cast hn
  have h1 := E.small (n * D) n (by rw [abs_of_nonneg (by have := E.D0; positivity)])
  have h2 : |fl (n * D) / n - D| ≤ u * D := by
    rw [show fl (n * D) / n - D = (fl (n * D) - n * D) / n by field_simp, abs_div, abs_of_pos (by linarith : (0 : ℝ) < n)]
    rw [div_le_iff₀ (by linarith)]
    linarith
  have hv := E.v0
  have hnv := E.nv
  have hD := E.D0
  have hle : u * D ≤ D / 1000 := by nlinarith
  have h3 := E.small (fl (n * D) / n) 2 (by rw [abs_le] at h2 ⊢; constructor <;> linarith)
  rw [abs_le] at h2 h3 ⊢
  constructor <;> linarith

/-- the first number of an axis -/
theorem start_near (E : Err1000 fl u A D n) (hn : 0 < n) (hlo : |lo| ≤ A) {d : ℝ} (hd : |d - D| ≤ 3 * (u * D)) :
    |fl (d / 2) - D / 2| ≤ 3 * (D / 1000) ∧ |fl (lo + fl (d / 2)) - (lo + D / 2)| ≤ 6 * (D / 1000) := by
  have hn' : (1 : ℝ) ≤ n := by exact_mod_cast hn
  have hv := E.v0
  have hnv := E.nv
  have hD := E.D0
  have hDA := E.DA
  have hle : u * D ≤ D / 1000 := by nlinarith
  rw [abs_le] at hd
  have h1 := E.small (d / 2) 1 (by rw [abs_le]; constructor <;> linarith)
  rw [abs_le] at h1
  rw [abs_le] at hlo
  have h2 := E.big (lo + fl (d / 2)) 2 (by rw [abs_le]; constructor <;> linarith)
  rw [abs_le] at h2
  constructor <;> rw [abs_le] <;> constructor <;> linarith

/-- the number of the numbers of an axis -/
theorem count_near (E : Err1000 fl u A D n) (hn : 0 < n) {d s t θ : ℝ} (hd : |d - D| ≤ 3 * (u * D)) (h1 : 0.05 ≤ θ) (h2 : θ ≤ 0.5)
    (hx : |fl (t - s) - (n - θ) * D| ≤ 30 * (D / 1000)) : ⌈fl (fl (t - s) / d)⌉₊ = n := by
  have hn' : (1 : ℝ) ≤ n := by exact_mod_cast hn
  have hv := E.v0
  have hnv := E.nv
  have hD := E.D0
  have hle : u * D ≤ D / 1000 := by nlinarith
  rw [abs_le] at hd hx
  have hd0 : 0 < d := by linarith
  set x := fl (t - s)
  have e1 : (n - θ) * (d - D) ≤ 3 * (D / 1000) := by nlinarith
  have e2 : -(3 * (D / 1000)) ≤ (n - θ) * (d - D) := by nlinarith
  have a1 : (n - θ - 0.04) * d ≤ x := by nlinarith
  have a2 : x ≤ (n - θ + 0.04) * d := by nlinarith
  have b1 : n - θ - 0.04 ≤ x / d := (le_div_iff₀ hd0).2 a1
  have b2 : x / d ≤ n - θ + 0.04 := (div_le_iff₀ hd0).2 a2
  have h3 := E.near (x / d) (by rw [abs_le]; constructor <;> linarith)
  rw [abs_le] at h3
  apply ceil_eq <;> linarith

theorem arange_length {s t d : ℝ} (hd : d ≠ 0) : ∃ xs, arange fl s t d = .ok xs ∧ xs.length = ⌈fl (fl (t - s) / d)⌉₊ := by
  unfold arange
  rw [if_neg hd]
  exact ⟨_, rfl, by simp⟩

theorem eAxis_length (hr : Rounds fl u) (hu : 0 ≤ u) (hl : lo < hi) (hn : 0 < n)
    (hc : n * (|lo| + |hi|) * u ≤ (hi - lo) / 1000) : ∃ xs, eAxis fl lo hi n = .ok xs ∧ xs.length = n := by
  have E := errs hr hu hl hn hc
  have hd := step_near E hn
  have hm := step_mul (lo := lo) (hi := hi) hn
  have hn' : (1 : ℝ) ≤ n := by exact_mod_cast hn
  have hv := E.v0
  have hnv := E.nv
  have hD := E.D0
  have hDA := E.DA
  rw [mul_comm (n : ℝ) ((hi - lo) / n), hm] at hd
  have hs := (start_near E hn (by linarith [abs_nonneg hi] : |lo| ≤ _) hd).2
  unfold eAxis middles per
  rw [if_neg hn.ne']
  simp only [bind, Except.bind]
  set d := fl (fl (hi - lo) / n)
  set D := (hi - lo) / n
  set s := fl (lo + fl (d / 2))
  have hle : u * D ≤ D / 1000 := by nlinarith
  have hd' := abs_le.1 hd
  obtain ⟨xs, h1, h2⟩ := arange_length (fl := fl) (s := s) (t := hi) (d := d) (by linarith : 0 < d).ne'
  refine ⟨xs, h1, h2.trans (count_near (θ := 1 / 2) E hn hd (by norm_num) (by norm_num) ?_)⟩
  have hs' := abs_le.1 hs
  have h3 := E.big (hi - s) 3 (by
    have := abs_nonneg lo
    have := abs_nonneg hi
    have := le_abs_self lo
    have := le_abs_self hi
    have := neg_abs_le lo
    have := neg_abs_le hi
    rw [abs_le]; constructor <;> linarith)
  rw [abs_le] at h3 ⊢
  constructor <;> linarith

theorem tAxis_length (hr : Rounds fl u) (hu : 0 ≤ u) (hl : lo < hi) (hn : 0 < n)
    (hc : n * (|lo| + |hi|) * u ≤ (hi - lo) / 1000) : ∃ xs, tAxis fl lo hi n = .ok xs ∧ xs.length = n := by
  have E := errs hr hu hl hn hc
  have hd := step_near E hn
  have hm := step_mul (lo := lo) (hi := hi) hn
  have hn' : (1 : ℝ) ≤ n := by exact_mod_cast hn
  have hv := E.v0
  have hnv := E.nv
  have hD := E.D0
  have hDA := E.DA
  rw [mul_comm (n : ℝ) ((hi - lo) / n), hm] at hd
  obtain ⟨hh, hs⟩ := start_near E hn (by linarith [abs_nonneg hi] : |lo| ≤ _) hd
  unfold tAxis per
  rw [if_neg hn.ne']
  simp only [bind, Except.bind]
  set d := fl (fl (hi - lo) / n)
  set D := (hi - lo) / n
  set h := fl (d / 2)
  set s := fl (lo + h)
  have hle : u * D ≤ D / 1000 := by nlinarith
  have hd' := abs_le.1 hd
  have hh' := abs_le.1 hh
  have hs' := abs_le.1 hs
  have k1 := abs_nonneg lo
  have k2 := abs_nonneg hi
  have k3 := le_abs_self lo
  have k4 := le_abs_self hi
  have k5 := neg_abs_le lo
  have k6 := neg_abs_le hi
  obtain ⟨xs, h1, h2⟩ := arange_length (fl := fl) (s := s) (t := fl (fl (hi + h) - fl (fl 0.1 * d))) (d := d)
    (by linarith : 0 < d).ne'
  refine ⟨xs, h1, h2.trans (count_near (θ := 0.1) E hn hd (by norm_num) (by norm_num) ?_)⟩
  have c1 := abs_le.1 (E.big (hi + h) 2 (by rw [abs_le]; constructor <;> linarith))
  have c2 := abs_le.1 (hr 0.1)
  have hu1 : u ≤ 1 / 1000 := by
    have : u * D ≤ 1 / 1000 * D := by linarith
    exact le_of_mul_le_mul_right this hD
  have c3 : |fl 0.1 * d - 0.1 * D| ≤ D / 1000 := by
    rw [abs_of_nonneg (by norm_num : (0 : ℝ) ≤ 0.1)] at c2
    have e : fl 0.1 * d - 0.1 * D = (fl 0.1 - 0.1) * d + 0.1 * (d - D) := by ring
    have b1 : |(fl 0.1 - 0.1) * d| ≤ 0.1 * u * (2 * D) := by
      rw [abs_mul]
      refine mul_le_mul ?_ ?_ (abs_nonneg _) (by positivity)
      · rw [abs_le]; constructor <;> linarith
      · rw [abs_le]; constructor <;> linarith
    rw [abs_le] at b1
    rw [e, abs_le]; constructor <;> nlinarith
  rw [abs_le] at c3
  have c4 := abs_le.1 (E.big (fl 0.1 * d) 1 (by rw [abs_le]; constructor <;> linarith))
  have c5 := abs_le.1 (E.big (fl (hi + h) - fl (fl 0.1 * d)) 3 (by rw [abs_le]; constructor <;> linarith))
  have c6 := E.big (fl (fl (hi + h) - fl (fl 0.1 * d)) - s) 5 (by rw [abs_le]; constructor <;> linarith)
  rw [abs_le] at c6 ⊢
  constructor <;> linarith

end

/-- 49 channels of the width 1/49 have 50 lower edges -/
theorem edge49 {lo hi : ℝ} (h : hi - lo = 1) : ∃ xs, edgeAxis dbl lo hi 49 = .ok xs ∧ xs.length = 50 := by
  have hW : dbl 1 = 1 := (dbl_eq 0 4503599627370496 (by norm_num) (by norm_num) (by norm_num)).trans (by norm_num)
  have hd : dbl (1 / (49 : Nat)) = 5882252574524729 * 2 ^ (-58 : ℤ) :=
    (dbl_eq (-6) 5882252574524729 (by norm_num) (by norm_num) (by norm_num [abs_lt])).trans (by norm_num)
  have hq : dbl (1 / (5882252574524729 * 2 ^ (-58 : ℤ))) = 6896136929411073 * 2 ^ (-47 : ℤ) :=
    (dbl_eq 5 6896136929411073 (by norm_num) (by norm_num) (by norm_num [abs_lt])).trans (by norm_num)
  obtain ⟨xs, h1, h2⟩ := arange_length (fl := dbl) (s := lo) (t := hi) (d := 5882252574524729 * 2 ^ (-58 : ℤ)) (by positivity)
  refine ⟨xs, ?_, ?_⟩
  · unfold edgeAxis per
    rw [if_neg (by norm_num)]
    simp only [bind, Except.bind, h, hW, hd, h1]
  · rw [h2, h, hW, hq]
    exact ceil_eq (by norm_num) (by norm_num)

end

/-! ### dictionaries -/

theorem find_put (d : Dict) (k k' : String) (v : Val) : (d.put k v).find k' = if k' = k then some v else d.find k' := by
  unfold Dict.put Dict.find
  split_ifs with h1 h2 h2
  · subst h2
    induction d with
    | nil => simp at h1
    | cons x d ih =>
      by_cases hx : x.1 = k'
      · simp [hx]
      · have : (d.any fun x => x.1 == k') = true := by simpa [hx] using h1
        simpa [hx] using ih this
  · clear h1
    congr 1
    induction d with
    | nil => rfl
    | cons x d ih =>
      rw [List.map_cons, List.find?_cons, List.find?_cons, ih]
      by_cases hx : x.1 = k
      · have e1 : (k == k') = false := by simpa using fun h => h2 h.symm
        have e2 : (x.1 == k') = false := by rw [hx]; exact e1
        simp [hx, e1]
      · simp only [beq_iff_eq, hx, if_false]
  · subst h2
    have : d.find? (fun x => x.1 == k') = none := by
      rw [List.find?_eq_none]
      intro x hx h
      exact h1 (List.any_eq_true.2 ⟨x, hx, h⟩)
    simp [List.find?_append, this]
  · simp [List.find?_append, show (k == k') = false by simpa using fun h => h2 h.symm]

theorem has_find (d : Dict) (k : String) : d.has k = true ↔ ∃ v, d.find k = some v := by
  unfold Dict.has Dict.find
  rw [List.any_eq_true]
  constructor
  · rintro ⟨x, hx, h⟩
    cases hf : d.find? (fun x => x.1 == k) with
    | none => exact absurd h (by simpa using List.find?_eq_none.1 hf x hx)
    | some y => exact ⟨y.2, rfl⟩
  · rintro ⟨v, hv⟩
    obtain ⟨y, hy, -⟩ := Option.map_eq_some_iff.1 hv
    exact ⟨y, List.mem_of_find?_eq_some hy, by simpa using List.find?_some hy⟩

theorem has_put (d : Dict) (k k' : String) (v : Val) : (d.put k v).has k' = true ↔ k' = k ∨ d.has k' = true := by
  rw [has_find, has_find, find_put]
  split_ifs with h <;> simp [h]

/-- the last value in a list -/
def last (l : Dict) (k : String) : Option Val := (l.reverse.find? (·.1 == k)).map (·.2)

theorem last_append (a b : Dict) (k : String) : last (a ++ b) k = (last b k).or (last a k) := by
  unfold last
  rw [List.reverse_append, List.find?_append]
  cases b.reverse.find? (fun x => x.1 == k) <;> rfl

theorem last_cons (x : String × Val) (b : Dict) (k : String) :
    last (x :: b) k = (last b k).or (if k = x.1 then some x.2 else none) := by
  rw [show x :: b = [x] ++ b from rfl, last_append]
  congr 1
  unfold last
  by_cases h : x.1 = k
  · simp [h]
  · rw [if_neg fun h' => h h'.symm]
    simp [h]

theorem last_none {l : Dict} {k : String} (h : ∀ x ∈ l, x.1 ≠ k) : last l k = none := by
  unfold last
  rw [List.find?_eq_none.2]
  · rfl
  · intro x hx
    simpa using h x (by simpa using hx)

theorem last_some {l : Dict} {k : String} (h : ∃ x ∈ l, x.1 = k) : ∃ v, last l k = some v := by
  obtain ⟨x, hx, hk⟩ := h
  unfold last
  cases hf : l.reverse.find? (fun x => x.1 == k) with
  | none => exact absurd hk (by simpa using List.find?_eq_none.1 hf x (by simpa using hx))
  | some y => exact ⟨y.2, rfl⟩

theorem find_update (e : Dict) : ∀ (d : Dict) (k : String), (d.update e).find k = (last e k).or (d.find k) := by
  induction e with
  | nil => intro d k; rfl
  | cons x e ih =>
    intro d k
    rw [show d.update (x :: e) = (d.put x.1 x.2).update e from rfl, ih, find_put, last_cons]
    cases last e k <;> simp
    split_ifs <;> rfl

theorem has_update (e d : Dict) (k : String) : (d.update e).has k = true ↔ (∃ x ∈ e, x.1 = k) ∨ d.has k = true := by
  rw [has_find, find_update]
  by_cases h : ∃ x ∈ e, x.1 = k
  · obtain ⟨v, hv⟩ := last_some h
    simp [hv, h]
  · rw [last_none fun x hx hk => h ⟨x, hx, hk⟩]
    simp only [h, false_or, has_find]
    rfl

theorem setAll_cons (o : Obj) (x : String × Val) (l : Dict) : setAll o (x :: l) = setAll (o.set x.1 x.2) l := rfl

theorem set_in {o : Obj} {d : Dict} {k : String} {v : Val} (hd : o.kwds = some d) (hk : d.has k = true) :
    o.set k v = ⟨o.dict, some (d.put k v)⟩ := by
  unfold Obj.set
  rw [hd]
  simp only [hk, if_true]

theorem set_out {o : Obj} {d : Dict} {k : String} {v : Val} (hd : o.kwds = some d) (hk : ¬ d.has k = true) :
    o.set k v = ⟨o.dict.put k v, some d⟩ := by
  unfold Obj.set
  rw [hd]
  simp only [hk]
  rw [← hd]
  rfl

theorem set_none {o : Obj} {k : String} {v : Val} (hd : o.kwds = none) : o.set k v = ⟨o.dict.put k v, none⟩ := by
  unfold Obj.set
  rw [hd]

/-- attributes of an object, after some have been set -/
theorem setAll_some (l : Dict) : ∀ (o : Obj) (d : Dict), o.kwds = some d → ∃ d', (setAll o l).kwds = some d' ∧
    (∀ k, d'.has k = true ↔ d.has k = true) ∧
    (∀ k, d.has k = true → d'.find k = (last l k).or (d.find k) ∧ Dict.find (setAll o l).dict k = Dict.find o.dict k) ∧
    (∀ k, ¬ d.has k = true → Dict.find (setAll o l).dict k = (last l k).or (Dict.find o.dict k)) := by
  induction l with
  | nil => intro o d hd; exact ⟨d, hd, fun k => Iff.rfl, fun k _ => ⟨rfl, rfl⟩, fun k _ => rfl⟩
  | cons x l ih =>
    intro o d hd
    rw [setAll_cons]
    by_cases hx : d.has x.1 = true
    · rw [set_in hd hx]
      obtain ⟨d', h1, h2, h3, h4⟩ := ih ⟨o.dict, some (d.put x.1 x.2)⟩ _ rfl
      refine ⟨d', h1, fun k => ?_, fun k hk => ?_, fun k hk => ?_⟩
      · rw [h2, has_put]
        constructor
        · rintro (rfl | h)
          exacts [hx, h]
        · exact Or.inr
      · obtain ⟨a, b⟩ := h3 k ((has_put _ _ _ _).2 (.inr hk))
        refine ⟨?_, b⟩
        rw [a, find_put, last_cons]
        cases last l k <;> simp
        split_ifs <;> rfl
      · have hne : k ≠ x.1 := by rintro rfl; exact hk hx
        rw [h4 k (by rw [has_put]; simp [hne, hk]), last_cons, if_neg hne]
        cases last l k <;> rfl
    · rw [set_out hd hx]
      obtain ⟨d', h1, h2, h3, h4⟩ := ih ⟨o.dict.put x.1 x.2, some d⟩ _ rfl
      refine ⟨d', h1, h2, fun k hk => ?_, fun k hk => ?_⟩
      · have hne : k ≠ x.1 := by rintro rfl; exact hx hk
        obtain ⟨a, b⟩ := h3 k hk
        rw [a, b, last_cons, if_neg hne]
        simp only [find_put, if_neg hne, and_true]
        cases last l k <;> rfl
      · rw [h4 k hk, last_cons]
        simp only [find_put]
        cases last l k <;> simp
        split_ifs <;> rfl

theorem setAll_none (l : Dict) : ∀ (o : Obj), o.kwds = none → (setAll o l).kwds = none ∧
    ∀ k, Dict.find (setAll o l).dict k = (last l k).or (Dict.find o.dict k) := by
  induction l with
  | nil => intro o hd; exact ⟨hd, fun k => rfl⟩
  | cons x l ih =>
    intro o hd
    rw [setAll_cons, set_none hd]
    obtain ⟨h1, h2⟩ := ih ⟨o.dict.put x.1 x.2, none⟩ rfl
    refine ⟨h1, fun k => ?_⟩
    rw [h2, last_cons]
    simp only [find_put]
    cases last l k <;> simp
    split_ifs <;> rfl

theorem last_put (d : Dict) (k k' : String) (v : Val) : last (d.put k v) k' = if k' = k then some v else last d k' := by
  by_cases h1 : d.any (·.1 == k) = true
  · have h2 : (d.put k v).reverse = Dict.put d.reverse k v := by
      unfold Dict.put
      rw [if_pos h1, if_pos (by simpa using h1), List.map_reverse]
    have := find_put d.reverse k k' v
    unfold last
    rw [h2]
    exact this
  · unfold Dict.put last
    rw [if_neg h1, List.reverse_append]
    by_cases h : k' = k
    · simp [h]
    · rw [if_neg h]
      have e : (k == k') = false := by simpa using fun h' => h h'.symm
      rw [List.reverse_singleton, List.singleton_append, List.find?_cons]
      simp only [e]

/-- the keywords with the positional argument -/
def keywords (args : List Val) (kwds : Dict) : Dict := match args with
  | a :: _ => Dict.put kwds "name" a
  | [] => kwds

theorem last_keywords {args : List Val} (kwds : Dict) (h : args.length ≤ 1) (k : String) :
    last (keywords args kwds) k = last (given args kwds) k := by
  match args, h with
  | [], _ => simp [keywords, given]
  | [a], _ =>
    unfold keywords given
    rw [last_put, last_append, List.map_singleton, last_cons]
    simp only [last, List.reverse_nil, List.find?_nil, Option.map_none, Option.none_or]
    split_ifs <;> rfl

theorem last_iff {l : Dict} {k : String} : (∃ v, last l k = some v) ↔ ∃ x ∈ l, x.1 = k := by
  constructor
  · rintro ⟨v, h⟩
    by_contra hn
    rw [last_none fun x hx hk => hn ⟨x, hx, hk⟩] at h
    cases h
  · exact last_some

theorem keywords_iff {args : List Val} (kwds : Dict) (h : args.length ≤ 1) (k : String) :
    (∃ x ∈ keywords args kwds, x.1 = k) ↔ ∃ x ∈ given args kwds, x.1 = k := by
  rw [← last_iff, ← last_iff, last_keywords kwds h]

/-- a new object -/
theorem new_some {params kwds : Dict} {args : List Val} {o : Obj} (h : Obj.new params args kwds = .ok o) :
    ∃ d, o.kwds = some d ∧ (∀ k, d.has k = true ↔ params.has k = true ∨ ∃ x ∈ given args kwds, x.1 = k) ∧
      (∀ k, k ≠ "restore_neutron" → d.find k = (last (given args kwds) k).or (last params k) ∧
        Dict.find o.dict k = last (given args kwds) k) ∧
      (if d.has "restore_neutron" = true then d.find "restore_neutron" = some (.bool false) ∧
        Dict.find o.dict "restore_neutron" = last (given args kwds) "restore_neutron"
       else Dict.find o.dict "restore_neutron" = some (.bool false)) := by
  unfold Obj.new at h
  split_ifs at h with hl
  have h' : Obj.set ⟨(setAll ⟨[], none⟩ (keywords args kwds)).dict, some (Dict.update (Dict.update [] params) (keywords args kwds))⟩
      "restore_neutron" (.bool false) = o := by
    exact Except.ok.inj h
  clear h
  obtain ⟨-, e2⟩ := setAll_none (keywords args kwds) ⟨[], none⟩ rfl
  have e2 : ∀ k, Dict.find (setAll ⟨[], none⟩ (keywords args kwds)).dict k = last (given args kwds) k := by
    intro k
    rw [e2, last_keywords kwds hl]
    cases last (given args kwds) k <;> rfl
  set D := Dict.update (Dict.update [] params) (keywords args kwds) with hD
  have f1 : ∀ k, D.find k = (last (given args kwds) k).or (last params k) := by
    intro k
    rw [hD, find_update, find_update, last_keywords kwds hl]
    cases last (given args kwds) k <;> cases last params k <;> rfl
  have f2 : ∀ k, D.has k = true ↔ params.has k = true ∨ ∃ x ∈ given args kwds, x.1 = k := by
    intro k
    rw [hD, has_update, has_update, keywords_iff kwds hl, or_comm]
    refine or_congr ?_ Iff.rfl
    unfold Dict.has
    simp
  by_cases hr : D.has "restore_neutron" = true
  · rw [set_in rfl hr] at h'
    subst h'
    refine ⟨_, rfl, fun k => ?_, fun k hk => ⟨?_, e2 k⟩, ?_⟩
    · rw [has_put, ← f2]
      constructor
      · rintro (rfl | h)
        exacts [hr, h]
      · exact Or.inr
    · rw [find_put, if_neg hk, f1]
    · rw [if_pos ((has_put _ _ _ _).2 (.inl rfl)), find_put, if_pos rfl]
      exact ⟨rfl, e2 _⟩
  · rw [set_out rfl hr] at h'
    subst h'
    refine ⟨_, rfl, f2, fun k hk => ⟨f1 k, ?_⟩, ?_⟩
    · simp only [find_put, if_neg hk, e2]
    · rw [if_neg hr, find_put, if_pos rfl]

theorem filter_find (d : Dict) {k : String} (hk : k ≠ "restore_neutron") :
    Dict.find (d.filter fun x => x.1 != "restore_neutron") k = d.find k := by
  unfold Dict.find
  rw [List.find?_filter]
  congr 1
  induction d with
  | nil => rfl
  | cons x d ih =>
    rw [List.find?_cons, List.find?_cons, ih]
    by_cases h : x.1 = k
    · simp [h, hk]
    · have e : (x.1 == k) = false := by simpa using h
      simp [e]

theorem filter_has (d : Dict) : ¬ Dict.has (d.filter fun x => x.1 != "restore_neutron") "restore_neutron" = true := by
  unfold Dict.has
  simp

end Verif.Proxy
