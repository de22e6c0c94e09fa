import Verif.Spec.McTew
import Verif.Lemmas.McMonitors
import Verif.Props.McStas
import Verif.Props.McMonitors
import Mathlib.Tactic.FieldSimp
import Mathlib.Tactic.Linarith
import Mathlib.Algebra.Order.Chebyshev
/-!
Lemmas for the monitor of position and time, energy or wavelength.
-/

namespace Verif.McTew
open McStas McMon Kinem Flight
open Classical

theorem run_in {trace : Hist → Event ℝ → Except Err (Hist × Event ℝ)} {sel : Event ℝ → Prop} {idx : Event ℝ → ℤ}
    {a : Event ℝ → Event ℝ} {n : Nat} : ∀ (es : List (Event ℝ)) (h : Hist), h.size = n →
    (∀ e ∈ es, ∀ h : Hist, h.size = n → trace h e = if sel e then (h.add (idx e) e.p).map (·, a e) else .ok (h, a e)) →
    (∀ e ∈ es, sel e → 0 ≤ idx e ∧ idx e < n) →
    ∃ h', runAll trace h es = .ok (h', es.map a) ∧ h'.size = n ∧
      ∀ i : Nat, h'.cell i = (h.cell i).plus (tally (fun e => sel e ∧ idx e = i) es)
  | [], h, hh, _, _ => ⟨h, rfl, hh, fun i => by simp only [tally_nil]; ext <;> simp [Cell.plus]⟩
  | e :: es, h, hh, ht, hi => by
    have h1 := ht e (by simp) h hh
    by_cases hs : sel e
    · have h2 := hi e (by simp) hs
      rw [if_pos hs, Hist.add, if_pos (by rw [hh]; exact h2)] at h1
      obtain ⟨h', h3, h5, h4⟩ := run_in es
        { h with cell := fun m => if (m : ℤ) = idx e then (h.cell m).inc e.p else h.cell m } hh (fun x hx => ht x (by simp [hx])) (fun x hx => hi x (by simp [hx]))
      refine ⟨h', ?_, h5, fun i => ?_⟩
      · rw [runAll, h1]
        simp only [Except.map, bind, Except.bind]
        rw [h3]
        rfl
      · rw [h4, plus_tally]
        simp only [hs, true_and, eq_comm]
    · rw [if_neg hs] at h1
      obtain ⟨h', h3, h5, h4⟩ := run_in es h hh (fun x hx => ht x (by simp [hx])) (fun x hx => hi x (by simp [hx]))
      refine ⟨h', ?_, h5, fun i => ?_⟩
      · rw [runAll, h1]
        simp only [bind, Except.bind]
        rw [h3]
        rfl
      · rw [h4, plus_tally, if_neg (by tauto)]

/-- the first time of the box is the entry -/
theorem box_entry {e : Event ℝ} {d : V3 ℝ} (hx : 0 < d.x) (hy : 0 < d.y) (hz : 0 < d.z) (he : Ahead e d) :
    (boxIntersect e.r e.v d = none ∧ ∀ s, ¬ InBox e.r e.v d s) ∨
    ∃ t0 t1, boxIntersect e.r e.v d = some (t0, t1) ∧ Entry e d t0 ∧ 0 ≤ t0 := by
  rcases C165_box_partial hx hy hz he.1 he.2.1 with h | ⟨t0, t1, h1, h2, h3⟩
  · exact .inl h
  · have h0 : InBox e.r e.v d t0 := (h3 _).2 ⟨le_rfl, h2.le⟩
    exact .inr ⟨t0, t1, h1, ⟨h0, fun s hs => ((h3 s).1 hs).1⟩, he.2.2 _ h0⟩

theorem entry_unique {e : Event ℝ} {d : V3 ℝ} {s s' : ℝ} (h : Entry e d s) (h' : Entry e d s') : s = s' :=
  le_antisymm (h.2 _ h'.1) (h'.2 _ h.1)

/-- the channel of a value of the range -/
theorem cell_iff {lo hi x : ℝ} (h : lo < hi) {n i : Nat} (hi' : i < n) (h1 : lo ≤ x) (h2 : x ≤ hi) :
    clamp ⌊(x - lo) / ((hi - lo) / n)⌋ n = i ↔ InCell lo hi n i x := by
  have hn : (0 : ℝ) < n := by exact_mod_cast (Nat.zero_le i).trans_lt hi'
  have hd : 0 < (hi - lo) / n := div_pos (by linarith) hn
  rw [clamp_iff hi', step_iff hd, (step_ends hd n).1, (step_ends hd n).2]
  have e : lo + n * ((hi - lo) / n) = hi := by field_simp; ring
  rw [e]
  unfold InCell InBin
  constructor
  · rintro (h | ⟨_, h⟩ | ⟨h, h3⟩)
    · exact .inl h
    · exact absurd h1 (not_le.2 h)
    · exact .inr ⟨h, le_antisymm h2 h3⟩
  · rintro (h | ⟨h, h3⟩)
    · exact .inl h
    · exact .inr (.inr ⟨h, h3.ge⟩)

theorem flat3 {i j k : ℤ} {nx ny nb a b c : Nat} (hi : 0 ≤ i ∧ i < nx) (hj : 0 ≤ j ∧ j < ny) (hk : 0 ≤ k ∧ k < nb) :
    (0 ≤ flat ny nb i j k ∧ flat ny nb i j k < (nx * ny * nb : ℕ)) ∧
    (b < ny → c < nb → (flat ny nb i j k = ((c + (b + a * ny) * nb : ℕ) : ℤ) ↔ i = a ∧ j = b ∧ k = c)) := by
  have e : flat ny nb i j k = k + (j + i * ny) * nb := by unfold flat; ring
  have h1 := flat_range hi hj
  rw [e]
  refine ⟨flat_range h1 hk, fun hb hc => ?_⟩
  rw [flat_iff hk hc, flat_iff hj hb]
  tauto

theorem sum_sq (ws : List ℝ) (a : ℝ) : (ws.map fun w => (w - a) ^ 2).sum = (ws.map (· ^ 2)).sum - 2 * a * ws.sum + ws.length * a ^ 2 := by
  induction ws with
  | nil => simp
  | cons w ws ih =>
    simp only [List.map_cons, List.sum_cons, List.length_cons, ih]
    push_cast
    ring

theorem spread_eq {ws : List ℝ} (h : ws ≠ []) : spread ws = (ws.map (· ^ 2)).sum - ws.sum ^ 2 / ws.length := by
  have : (ws.length : ℝ) ≠ 0 := by exact_mod_cast fun hc => h (List.length_eq_zero_iff.1 hc)
  unfold spread
  rw [sum_sq]
  field_simp
  ring

theorem spread_nonneg (ws : List ℝ) : 0 ≤ spread ws :=
  List.sum_nonneg fun x hx => by
    obtain ⟨w, _, rfl⟩ := List.mem_map.1 hx
    positivity

theorem sq_le {ws : List ℝ} (h : ∀ w ∈ ws, 0 ≤ w) : 0 ≤ ws.sum ∧ (ws.map (· ^ 2)).sum ≤ ws.sum ^ 2 := by
  induction ws with
  | nil => simp
  | cons w ws ih =>
    obtain ⟨h1, h2⟩ := ih fun x hx => h x (by simp [hx])
    have h0 := h w (by simp)
    simp only [List.map_cons, List.sum_cons]
    exact ⟨by linarith, by nlinarith⟩

theorem sq_lt {ws : List ℝ} (h : ∀ w ∈ ws, 0 < w) (h2 : 2 ≤ ws.length) : 0 < ws.sum ∧ (ws.map (· ^ 2)).sum < ws.sum ^ 2 := by
  match ws, h2 with
  | a :: b :: l, _ =>
    obtain ⟨g1, g2⟩ := sq_le (ws := b :: l) fun x hx => (h x (by simp only [List.mem_cons] at hx ⊢; tauto)).le
    have ha := h a (by simp)
    have hb := h b (by simp)
    have hl : 0 ≤ l.sum := List.sum_nonneg fun x hx => (h x (by simp [hx])).le
    simp only [List.map_cons, List.sum_cons] at g1 g2 ⊢
    exact ⟨by linarith, by nlinarith⟩

/-- the weights of the neutrons with a property, 0 for the other ones -/
theorem tally_weights (sel : Event ℝ → Prop) (es : List (Event ℝ)) :
    (tally sel es).p = (es.map fun e => if sel e then e.p else 0).sum ∧
    (tally sel es).p2 = ((es.map fun e => if sel e then e.p else 0).map (· ^ 2)).sum := by
  induction es with
  | nil => simp [tally]
  | cons e es ih =>
    obtain ⟨h1, h2⟩ := ih
    unfold tally at h1 h2 ⊢
    by_cases h : sel e
    · rw [List.filter_cons_of_pos (by simpa using h)]
      simp only [List.map_cons, List.sum_cons, if_pos h]
      simp only at h1 h2
      exact ⟨by rw [h1], by rw [h2]⟩
    · rw [List.filter_cons_of_neg (by simpa using h)]
      simp only [List.map_cons, List.sum_cons, if_neg h]
      simp only at h1 h2
      exact ⟨by rw [h1, zero_add], by rw [h2]; ring⟩

theorem fold_total (f : ℕ → Cell) (l : List ℕ) (c : Cell) :
    l.foldl (fun s i => (⟨s.N + (f i).N, s.p + (f i).p, s.p2 + (f i).p2⟩ : Cell)) c =
    ⟨c.N + (l.map fun i => (f i).N).sum, c.p + (l.map fun i => (f i).p).sum, c.p2 + (l.map fun i => (f i).p2).sum⟩ := by
  induction l generalizing c with
  | nil => simp
  | cons i l ih =>
    rw [List.foldl_cons, ih]
    simp only [List.map_cons, List.sum_cons, Cell.mk.injEq]
    exact ⟨by ring, by ring, by ring⟩

theorem sum_index (es : List (Event ℝ)) (idx : Event ℝ → ℤ) (sel : Event ℝ → Prop) (w : Event ℝ → ℝ) (n : Nat)
    (hi : ∀ e ∈ es, sel e → 0 ≤ idx e ∧ idx e < n) :
    ((List.range n).map fun i : ℕ => ((es.filter fun e => decide (sel e ∧ idx e = i)).map w).sum).sum = ((es.filter (sel ·)).map w).sum := by
  induction es with
  | nil => simp
  | cons e es ih =>
    have ih := ih fun x hx => hi x (by simp [hx])
    by_cases h : sel e
    · rw [List.filter_cons_of_pos (by simpa using h), List.map_cons, List.sum_cons, ← ih]
      obtain ⟨h1, h2⟩ := hi e (by simp) h
      obtain ⟨k, hk⟩ := Int.eq_ofNat_of_zero_le h1
      have hkn : k < n := by rw [hk] at h2; exact_mod_cast h2
      have : ∀ i : ℕ, (((e :: es).filter fun e => decide (sel e ∧ idx e = i)).map w).sum =
          (if i = k then w e else 0) + ((es.filter fun e => decide (sel e ∧ idx e = i)).map w).sum := by
        intro i
        by_cases hik : i = k
        · rw [List.filter_cons_of_pos (by simp [h, hk, hik]), if_pos hik, List.map_cons, List.sum_cons]
        · rw [List.filter_cons_of_neg (by simp [h, hk]; exact fun hc => hik hc.symm), if_neg hik, zero_add]
      simp only [this]
      rw [List.sum_map_add]
      congr 1
      rw [List.sum_map_ite_eq]
      simp [hkn]
    · rw [List.filter_cons_of_neg (by simpa using h), ← ih]
      congr 1
      refine List.map_congr_left fun i _ => ?_
      rw [List.filter_cons_of_neg (by simp [h])]

theorem total_tally {h : Hist} {n : Nat} (hs : h.size = n) {es : List (Event ℝ)} {sel : Event ℝ → Prop} {idx : Event ℝ → ℤ}
    (hc : ∀ i : ℕ, h.cell i = tally (fun e => sel e ∧ idx e = i) es) (hi : ∀ e ∈ es, sel e → 0 ≤ idx e ∧ idx e < n) :
    total h = tally sel es := by
  unfold total
  rw [fold_total, hs]
  have hone : ∀ l : List (Event ℝ), (l.length : ℝ) = (l.map fun _ => (1 : ℝ)).sum := fun l => by simp
  ext
  · simp only [hc, tally, zero_add, hone]
    convert sum_index es idx sel (fun _ => 1) n hi
  · simp only [hc, tally, zero_add]
    convert sum_index es idx sel (·.p) n hi
  · simp only [hc, tally, zero_add]
    convert sum_index es idx sel (·.p ^ 2) n hi

end Verif.McTew
