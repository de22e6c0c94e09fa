import Verif.Spec.McMonitors
import Verif.Lemmas.McStas
/-!
Lemmas for the monitors of McStas.
-/

namespace Verif.McMon
open McStas Kinem Flight Solid
open Classical

theorem floor_iff {x lo hi : ℝ} (h : lo < hi) {n : Nat} (hn : 0 < n) (i : Nat) : chan x lo hi n = (i : ℤ) ↔ InBin lo hi n i x := by
  unfold chan InBin
  rw [Int.floor_eq_iff]
  have h1 : 0 < hi - lo := by linarith
  have h2 : (0 : ℝ) < n := by exact_mod_cast hn
  rw [le_div_iff₀ h1, div_lt_iff₀ h1]
  push_cast
  constructor
  · rintro ⟨a, b⟩
    constructor
    · rw [← sub_nonneg] at a ⊢
      have : x - (lo + i * ((hi - lo) / n)) = ((x - lo) * n - i * (hi - lo)) / n := by field_simp; ring
      rw [this]; positivity
    · rw [← sub_pos] at b ⊢
      have : lo + (i + 1) * ((hi - lo) / n) - x = ((i + 1) * (hi - lo) - (x - lo) * n) / n := by field_simp; ring
      rw [this]; positivity
  · rintro ⟨a, b⟩
    constructor
    · rw [← sub_nonneg] at a ⊢
      have : (x - lo) * n - i * (hi - lo) = (x - (lo + i * ((hi - lo) / n))) * n := by field_simp; ring
      rw [this]; positivity
    · rw [← sub_pos] at b ⊢
      have : (i + 1) * (hi - lo) - (x - lo) * n = (lo + (i + 1) * ((hi - lo) / n) - x) * n := by field_simp; ring
      rw [this]; positivity

theorem chan_range {x lo hi : ℝ} (h : lo < hi) {n : Nat} (hn : 0 < n) :
    (0 ≤ chan x lo hi n ∧ chan x lo hi n < n) ↔ lo ≤ x ∧ x < hi := by
  unfold chan
  have h1 : 0 < hi - lo := by linarith
  have h2 : (0 : ℝ) < n := by exact_mod_cast hn
  rw [Int.floor_nonneg, Int.floor_lt, div_lt_iff₀ h1]
  push_cast
  constructor
  · rintro ⟨a, b⟩
    have := (div_nonneg_iff.1 a).resolve_right (by rintro ⟨_, c⟩; linarith)
    constructor
    · by_contra hc
      have : (x - lo) * n < 0 := mul_neg_of_neg_of_pos (by linarith) h2
      linarith
    · by_contra hc
      have : (n : ℝ) * (hi - lo) ≤ (x - lo) * n := by nlinarith
      linarith
  · rintro ⟨a, b⟩
    refine ⟨div_nonneg (mul_nonneg (by linarith) h2.le) h1.le, ?_⟩
    nlinarith

theorem div_chan (d m : ℝ) (n : Nat) : ⌊(d + m) * n / (2 * m)⌋ = chan d (-m) m n := by
  unfold chan
  congr 2 <;> ring

theorem has_iff (w : Window) (e : Event ℝ) : w.has e ↔ Inside w e := by
  unfold Window.has Inside; tauto

theorem comes_prop {G : Gravity} {e a : Event ℝ} (h : Comes G e a) : propZ0 G e = a := by
  obtain ⟨⟨s, hs, rfl⟩, h | ⟨h1, h2, h3⟩⟩ := h
  · obtain ⟨h1, h2⟩ := h
    unfold propZ0 propZ0Free
    rw [h1]
    simp only [Bool.false_eq_true, if_false, if_neg h2]
    have h0 := hs.2.1
    rw [flown_z, accel_off h1] at h0
    have : s = -e.r.z / e.v.z := by
      field_simp
      simp only [show (0 : V3 ℝ).z = 0 from rfl] at h0
      linarith
    rw [← this]
    exact propDtFree_eq h1 s e
  · have cz : ∀ s, (flown G e s).r.z = e.r.z + s * e.v.z + s ^ 2 / 2 * G.g.z := by
      intro s; rw [flown_z, accel_on h1]
    obtain ⟨h4, h5⟩ := grav_complete V3.z cz h2 h3 hs
    unfold propZ0 propZ0Grav
    rw [h1, h4]
    simp only [if_true, gt_iff_lt, h5]
    exact propDtGrav_eq h1 s e

theorem tally_nil (sel : Event ℝ → Prop) : tally sel [] = ⟨0, 0, 0⟩ := by simp [tally]

/-- sum of two cells -/
def Cell.plus (a b : Cell) : Cell := ⟨a.N + b.N, a.p + b.p, a.p2 + b.p2⟩

theorem plus_tally (c : Cell) (sel : Event ℝ → Prop) (e : Event ℝ) (es : List (Event ℝ)) :
    c.plus (tally sel (e :: es)) = (if sel e then c.inc e.p else c).plus (tally sel es) := by
  unfold tally
  by_cases h : sel e
  · rw [List.filter_cons_of_pos (by simpa using h), if_pos h]
    simp only [Cell.plus, Cell.inc, List.length_cons, List.map_cons, List.sum_cons]
    ext <;> push_cast <;> ring
  · rw [List.filter_cons_of_neg (by simpa using h), if_neg h]

theorem zero_plus (c : Cell) : Cell.plus ⟨0, 0, 0⟩ c = c := by ext <;> simp [Cell.plus]

theorem tally_congr {f g : Event ℝ → Prop} {es : List (Event ℝ)} (h : ∀ e ∈ es, f e ↔ g e) : tally f es = tally g es := by
  have : es.filter (f ·) = es.filter (g ·) := List.filter_congr fun e he => by simpa using h e he
  unfold tally
  rw [this]

theorem run_from {trace : Hist → Event ℝ → Except Err (Hist × Event ℝ)} {sel : Event ℝ → Prop} {idx : Event ℝ → ℤ}
    {a : Event ℝ → Event ℝ} {n : Nat} : ∀ (es : List (Event ℝ)) (h : Hist), h.size = n →
    (∀ e ∈ es, ∀ h : Hist, h.size = n → trace h e = if sel (a e) then (h.add (idx (a e)) (a e).p).map (·, a e) else .ok (h, a e)) →
    (∀ e ∈ es, sel (a e) → 0 ≤ idx (a e) ∧ idx (a e) < n) →
    ∃ h', runAll trace h es = .ok (h', es.map a) ∧
      ∀ i : Nat, h'.cell i = (h.cell i).plus (tally (fun e => sel e ∧ idx e = i) (es.map a))
  | [], h, _, _, _ => ⟨h, rfl, fun i => by simp only [List.map_nil, tally_nil]; ext <;> simp [Cell.plus]⟩
  | e :: es, h, hh, ht, hi => by
    have h1 := ht e (by simp) h hh
    by_cases hs : sel (a e)
    · have h2 := hi e (by simp) hs
      rw [if_pos hs, Hist.add, if_pos (by rw [hh]; exact h2)] at h1
      obtain ⟨h', h3, h4⟩ := run_from es
        { h with cell := fun m => if (m : ℤ) = idx (a e) then (h.cell m).inc (a e).p else h.cell m } hh (fun x hx => ht x (by simp [hx])) (fun x hx => hi x (by simp [hx]))
      refine ⟨h', ?_, fun i => ?_⟩
      · rw [runAll, h1]
        simp only [Except.map, bind, Except.bind]
        rw [h3]
        rfl
      · rw [h4, List.map_cons, plus_tally]
        simp only [hs, true_and, eq_comm]
    · rw [if_neg hs] at h1
      obtain ⟨h', h3, h4⟩ := run_from es h hh (fun x hx => ht x (by simp [hx])) (fun x hx => hi x (by simp [hx]))
      refine ⟨h', ?_, fun i => ?_⟩
      · rw [runAll, h1]
        simp only [bind, Except.bind]
        rw [h3]
        rfl
      · rw [h4, List.map_cons, plus_tally, if_neg (by tauto)]

theorem run_zero {trace : Hist → Event ℝ → Except Err (Hist × Event ℝ)} {sel : Event ℝ → Prop} {idx : Event ℝ → ℤ}
    {a : Event ℝ → Event ℝ} {n : Nat} {es : List (Event ℝ)}
    (ht : ∀ e ∈ es, ∀ h : Hist, h.size = n →
      trace h e = if sel (a e) then (h.add (idx (a e)) (a e).p).map (·, a e) else .ok (h, a e))
    (hi : ∀ e ∈ es, sel (a e) → 0 ≤ idx (a e) ∧ idx (a e) < n) :
    ∃ h', runAll trace (Hist.zero n) es = .ok (h', es.map a) ∧
      ∀ i : Nat, h'.cell i = tally (fun e => sel e ∧ idx e = i) (es.map a) := by
  obtain ⟨h', h1, h2⟩ := run_from es (Hist.zero n) rfl ht hi
  refine ⟨h', h1, fun i => ?_⟩
  rw [h2]
  exact zero_plus _

/-- the index of an element of a table -/
theorem flat_range {i j : ℤ} {n m : Nat} (hi : 0 ≤ i ∧ i < n) (hj : 0 ≤ j ∧ j < m) : 0 ≤ j + i * m ∧ j + i * m < (n * m : ℕ) := by
  push_cast
  constructor
  · nlinarith [hi.1, hj.1, Int.natCast_nonneg m]
  · nlinarith [hi.2, hj.2, Int.natCast_nonneg m]

theorem flat_iff {i j : ℤ} {m : Nat} {a b : Nat} (hj : 0 ≤ j ∧ j < m) (hb : b < m) :
    j + i * m = ((b + a * m : ℕ) : ℤ) ↔ i = a ∧ j = b := by
  push_cast
  constructor
  · intro h
    have hb' : (b : ℤ) < m := by exact_mod_cast hb
    have hb0 : (0 : ℤ) ≤ b := Int.natCast_nonneg b
    have hd : i = a := by
      by_contra hc
      rcases lt_or_gt_of_ne hc with hc | hc
      · nlinarith [hj.1, hj.2]
      · nlinarith [hj.1, hj.2]
    subst hd
    exact ⟨rfl, by linarith⟩
  · rintro ⟨rfl, rfl⟩; rfl

theorem speed2_eq (e : Event ℝ) : √(speed2 e) = length e.v := by
  rw [length_eq]; rfl

theorem speed2_sq (e : Event ℝ) : speed2 e = length e.v ^ 2 := by
  rw [← speed2_eq, Real.sq_sqrt]
  unfold speed2
  nlinarith [mul_self_nonneg e.v.x, mul_self_nonneg e.v.y, mul_self_nonneg e.v.z]

/-- the sums of the energy monitor -/
theorem run_energy {trace : EState → Event ℝ → Except Err (EState × Event ℝ)} {w : Window} {E : Event ℝ → ℝ} {Emin Emax : ℝ}
    {a : Event ℝ → Event ℝ} {n : Nat} : ∀ (es : List (Event ℝ)) (s : EState), s.hist.size = n →
    (∀ e ∈ es, ∀ s : EState, s.hist.size = n →
      trace s e = if w.has (a e) then countE Emin Emax n s (E (a e)) (a e) else .ok (s, a e)) →
    ∃ s', runAll trace s es = .ok (s', es.map a) ∧
      (∀ i : Nat, s'.hist.cell i = (s.hist.cell i).plus (tally (fun e => Inside w e ∧
        (0 ≤ chan (E e) Emin Emax n ∧ chan (E e) Emin Emax n < n) ∧ chan (E e) Emin Emax n = i) (es.map a))) ∧
      s'.Sp = s.Sp + (((es.map a).filter (Inside w ·)).map (·.p)).sum ∧
      s'.SpE = s.SpE + (((es.map a).filter (Inside w ·)).map fun e => e.p * E e).sum ∧
      s'.SpE2 = s.SpE2 + (((es.map a).filter (Inside w ·)).map fun e => e.p * E e ^ 2).sum
  | [], s, _, _ => ⟨s, rfl, fun i => by simp only [List.map_nil, tally_nil]; ext <;> simp [Cell.plus], by simp, by simp, by simp⟩
  | e :: es, s, hh, ht => by
    have h1 := ht e (by simp) s hh
    by_cases hs : Inside w (a e)
    · rw [if_pos ((has_iff w _).2 hs), countE] at h1
      simp only [ge_iff_le] at h1
      by_cases hc : 0 ≤ chan (E (a e)) Emin Emax n ∧ chan (E (a e)) Emin Emax n < n
      · rw [if_pos hc, Hist.add, if_pos (by rw [hh]; exact hc)] at h1
        obtain ⟨s', h3, h4, h5, h6, h7⟩ := run_energy es
          ⟨{ s.hist with cell := fun m => if (m : ℤ) = chan (E (a e)) Emin Emax n then (s.hist.cell m).inc (a e).p
            else s.hist.cell m }, s.Sp + (a e).p, s.SpE + (a e).p * E (a e), s.SpE2 + (a e).p * E (a e) * E (a e)⟩ hh
          (fun x hx => ht x (by simp [hx]))
        refine ⟨s', ?_, fun i => ?_, ?_, ?_, ?_⟩
        · rw [runAll, h1]
          simp only [Except.map, bind, Except.bind]
          rw [h3]
          rfl
        · rw [h4, List.map_cons, plus_tally]
          simp only [hs, hc, true_and, eq_comm, and_self]
        · rw [h5, List.map_cons, List.filter_cons_of_pos (by simpa using hs), List.map_cons, List.sum_cons]; ring
        · rw [h6, List.map_cons, List.filter_cons_of_pos (by simpa using hs), List.map_cons, List.sum_cons]; ring
        · rw [h7, List.map_cons, List.filter_cons_of_pos (by simpa using hs), List.map_cons, List.sum_cons]; ring
      · rw [if_neg hc] at h1
        obtain ⟨s', h3, h4, h5, h6, h7⟩ := run_energy es
          ⟨s.hist, s.Sp + (a e).p, s.SpE + (a e).p * E (a e), s.SpE2 + (a e).p * E (a e) * E (a e)⟩ hh
          (fun x hx => ht x (by simp [hx]))
        refine ⟨s', ?_, fun i => ?_, ?_, ?_, ?_⟩
        · rw [runAll, h1]
          simp only [bind, Except.bind]
          rw [h3]
          rfl
        · rw [h4, List.map_cons, plus_tally, if_neg (by tauto)]
        · rw [h5, List.map_cons, List.filter_cons_of_pos (by simpa using hs), List.map_cons, List.sum_cons]; ring
        · rw [h6, List.map_cons, List.filter_cons_of_pos (by simpa using hs), List.map_cons, List.sum_cons]; ring
        · rw [h7, List.map_cons, List.filter_cons_of_pos (by simpa using hs), List.map_cons, List.sum_cons]; ring
    · rw [if_neg (fun hc => hs ((has_iff w _).1 hc))] at h1
      obtain ⟨s', h3, h4, h5, h6, h7⟩ := run_energy es s hh (fun x hx => ht x (by simp [hx]))
      refine ⟨s', ?_, fun i => ?_, ?_, ?_, ?_⟩
      · rw [runAll, h1]
        simp only [bind, Except.bind]
        rw [h3]
        rfl
      · rw [h4, List.map_cons, plus_tally, if_neg (by tauto)]
      · rw [h5, List.map_cons, List.filter_cons_of_neg (by simpa using hs)]
      · rw [h6, List.map_cons, List.filter_cons_of_neg (by simpa using hs)]
      · rw [h7, List.map_cons, List.filter_cons_of_neg (by simpa using hs)]

/-- Cauchy-Schwarz for a list with weights -/
theorem cauchy (E : Event ℝ → ℝ) : ∀ es : List (Event ℝ), (∀ e ∈ es, 0 ≤ e.p) →
    0 ≤ (es.map (·.p)).sum ∧ 0 ≤ (es.map fun e => e.p * E e ^ 2).sum ∧
    (es.map fun e => e.p * E e).sum ^ 2 ≤ (es.map (·.p)).sum * (es.map fun e => e.p * E e ^ 2).sum
  | [], _ => by simp
  | e :: es, h => by
    obtain ⟨h1, h2, h3⟩ := cauchy E es fun x hx => h x (by simp [hx])
    have h0 := h e (by simp)
    simp only [List.map_cons, List.sum_cons]
    generalize (es.map (·.p)).sum = A at *
    generalize (es.map fun e => e.p * E e).sum = B at *
    generalize (es.map fun e => e.p * E e ^ 2).sum = C at *
    refine ⟨by positivity, by positivity, ?_⟩
    have key : 0 ≤ A * E e ^ 2 - 2 * B * E e + C := by
      rcases h1.eq_or_lt with hA | hA
      · have : B = 0 := by
          rw [← hA, zero_mul] at h3
          exact pow_eq_zero_iff (two_ne_zero) |>.1 (le_antisymm h3 (sq_nonneg B))
        rw [← hA, this]; simpa using h2
      · have : A * (A * E e ^ 2 - 2 * B * E e + C) = (A * E e - B) ^ 2 + (A * C - B ^ 2) := by ring
        have h5 : 0 ≤ A * (A * E e ^ 2 - 2 * B * E e + C) := by rw [this]; nlinarith [sq_nonneg (A * E e - B)]
        exact (mul_nonneg_iff_of_pos_left hA).1 h5
    nlinarith [mul_nonneg h0 key]

end Verif.McMon
