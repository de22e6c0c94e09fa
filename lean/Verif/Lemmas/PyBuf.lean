import Verif.Spec.PyBuf
import Mathlib.Tactic.NormNum
import Mathlib.Tactic.Ring
import Mathlib.Tactic.IntervalCases
/-!
Lemmas on buffers of neutrons in python.
-/

namespace Verif.PyBuf

open Spec

variable {E F : Type}

theorem means_start {a : Arg} {i : Nat} (h : Means 0 a i) : toSize (given 0 a) = .ok i := by
  cases h <;> simp [toSize, given]

theorem means_stop {a : Arg} {d j : Nat} (h : Means d a j) : whole (given d a) = .ok (.int j) := by
  cases h <;> rfl

theorem appendNeutrons_means (dflt : E) (h : Heap E) (self src : Nat) {a b : Arg} {i j : Nat}
    (ha : Means 0 a i) (hb : Means (h src).data.length b j) :
    appendNeutrons dflt h self src a b = appendEvents dflt h self src i j := by
  unfold appendNeutrons
  rw [means_stop hb, means_start ha]
  simp [Except.bind, toSize]

theorem resize_data (v : Vec E) (m : Nat) (e : E) : (v.resize (v.data.length + m) e).1.data = v.data ++ List.replicate m e := by
  unfold Vec.resize
  dsimp only
  split <;> simp [List.take_of_length_le]

theorem appendEvents_data (dflt : E) (h : Heap E) (self src i j : Nat) (hij : i ≤ j) (hj : j ≤ (h src).data.length)
    (hc : self ≠ src ∨ (h self).data.length + (j - i) ≤ (h self).cap) :
    ∃ h', appendEvents dflt h self src i j = .ok h' ∧ (h' self).data = (h self).data ++ ((h src).data.take j).drop i ∧ ∀ k, k ≠ self → h' k = h k := by
  have hm : (h self).data.length + j - i = (h self).data.length + (j - i) := by omega
  unfold appendEvents
  rw [if_neg (by omega), if_neg (by omega)]
  dsimp only
  rw [hm]
  have hn : ¬(self = src ∧ ((h self).resize ((h self).data.length + (j - i)) dflt).2 = true) := by
    rintro ⟨e, hr⟩
    rcases hc with hc | hc
    · exact hc e
    · simp [Vec.resize, hc] at hr
  rw [if_neg hn]
  refine ⟨_, rfl, ?_, fun k hk => if_neg hk⟩
  rw [if_pos rfl]
  dsimp only
  rw [resize_data]
  have hl : (((h src).data.take j).drop i).length = j - i := by simp; omega
  by_cases e : self = src
  · subst e
    rw [if_pos rfl]
    have : List.take j ((h self).data ++ List.replicate (j - i) dflt) = List.take j (h self).data := by
      rw [List.take_append_of_le_length hj]
    rw [this]
    unfold copyTo
    rw [hl]
    simp
  · rw [if_neg e]
    unfold copyTo
    rw [hl]
    simp

theorem appended_of_data {h h' : Heap E} {self src i j : Nat} (hij : i ≤ j) (hj : j ≤ (h src).data.length)
    (hd : (h' self).data = (h self).data ++ ((h src).data.take j).drop i) (ho : ∀ k, k ≠ self → h' k = h k) : Appended h h' self src i j := by
  refine ⟨?_, ?_, ?_, ho⟩
  · rw [hd]; simp; omega
  · intro k hk
    rw [hd, List.getElem?_append_left hk]
  · intro k hk
    rw [hd, List.getElem?_append_right (by omega), Nat.add_sub_cancel_left, List.getElem?_drop, List.getElem?_take_of_lt (by omega)]

theorem fromCevent_some (mem : Int → Option F) (a : Int) (h : ∀ c : Nat, c < 10 → (mem (a + c)).isSome) :
    ∃ e, fromCevent mem a = some e := by
  have g : ∀ c : Nat, c < 10 → ∃ x, mem (a + c) = some x := fun c hc => Option.isSome_iff_exists.1 (h c hc)
  obtain ⟨x0, h0⟩ := g 0 (by norm_num)
  obtain ⟨x1, h1⟩ := g 1 (by norm_num)
  obtain ⟨x2, h2⟩ := g 2 (by norm_num)
  obtain ⟨x3, h3⟩ := g 3 (by norm_num)
  obtain ⟨x4, h4⟩ := g 4 (by norm_num)
  obtain ⟨x5, h5⟩ := g 5 (by norm_num)
  obtain ⟨x6, h6⟩ := g 6 (by norm_num)
  obtain ⟨x7, h7⟩ := g 7 (by norm_num)
  obtain ⟨x8, h8⟩ := g 8 (by norm_num)
  obtain ⟨x9, h9⟩ := g 9 (by norm_num)
  push_cast at h0 h1 h2 h3 h4 h5 h6 h7 h8 h9
  rw [add_zero] at h0
  exact ⟨⟨⟨x0, x1, x2⟩, ⟨x3, x4, x5⟩, x6, x7, x8, x9⟩, by simp [fromCevent, h0, h1, h2, h3, h4, h5, h6, h7, h8, h9]⟩

theorem fromCevent_row {mem : Int → Option F} {a : Int} {e : Event F} (h : fromCevent mem a = some e) :
    mem a = some e.r.x ∧ mem (a + 1) = some e.r.y ∧ mem (a + 2) = some e.r.z ∧ mem (a + 3) = some e.v.x ∧ mem (a + 4) = some e.v.y ∧
    mem (a + 5) = some e.v.z ∧ mem (a + 6) = some e.s1 ∧ mem (a + 7) = some e.s2 ∧ mem (a + 8) = some e.t ∧ mem (a + 9) = some e.p := by
  simp only [fromCevent, Option.bind_eq_bind, Option.bind_eq_some_iff, Option.pure_def, Option.some.injEq] at h
  obtain ⟨x0, h0, x1, h1, x2, h2, x3, h3, x4, h4, x5, h5, x6, h6, x7, h7, x8, h8, x9, h9, rfl⟩ := h
  exact ⟨h0, h1, h2, h3, h4, h5, h6, h7, h8, h9⟩

theorem mapM_some {α β : Type} (f : α → Option β) (g : α → β) : ∀ (l : List α), (∀ a ∈ l, f a = some (g a)) → l.mapM f = some (l.map g)
  | [], _ => rfl
  | a :: l, h => by
    rw [List.mapM_cons, h a (by simp), mapM_some f g l fun b hb => h b (by simp [hb])]
    rfl

/-- what is copied, where all memory exists -/
theorem fromCevents_ok (events : List (Event F)) (mem : Int → Option F) (n : Nat) (g : Nat → Event F)
    (h : ∀ i, i < min events.length n → fromCevent mem (10 * (i : Int)) = some (g i)) :
    fromCevents events mem n = .ok ((List.range (min events.length n)).map g ++ events.drop (min events.length n)) := by
  unfold fromCevents
  dsimp only
  rw [mapM_some _ g _ fun i hi => h i (List.mem_range.1 hi)]

theorem contiguous_row {arr : Arr F} (hs : strideOf arr.shape = 10) {r : Nat} {e : Event F}
    (h : fromCevent arr.mem (10 * (r : Int)) = some e) : IsRow arr r e := by
  obtain ⟨h0, h1, h2, h3, h4, h5, h6, h7, h8, h9⟩ := fromCevent_row h
  constructor <;> simp only [entry, hs] <;> push_cast <;> first | assumption | (rw [add_zero]; assumption)

theorem contiguous_some {arr : Arr F} (hw : Whole arr) (hs : strideOf arr.shape = 10) (r : Nat) (hr : r < rowsOf arr.shape) :
    ∃ e, fromCevent arr.mem (10 * (r : Int)) = some e := by
  refine fromCevent_some _ _ fun c hc => ?_
  have := hw r hr c hc
  rwa [entry, hs] at this

theorem fromNpyarr_eq (ev : Event F) (buf : List (Event F)) (arr : Arr F) (hm : ∀ n, arr.shape = .flat n → n % 10 = 0) :
    fromNpyarr ev buf arr = fromCevents (buf.take (rowsOf arr.shape) ++ List.replicate (rowsOf arr.shape - buf.length) ev) arr.mem (rowsOf arr.shape) := by
  unfold fromNpyarr
  cases hsh : arr.shape with
  | flat n => simp [rowsOf, hm n hsh]
  | rows n s => rfl

theorem resized_length (ev : Event F) (buf : List (Event F)) (n : Nat) : (buf.take n ++ List.replicate (n - buf.length) ev).length = n := by
  simp; omega

theorem flatMap_toCevent (l : List (Event F)) (r c : Nat) (hr : r < l.length) (hc : c < 10) :
    (l.flatMap toCevent)[10 * r + c]? = (toCevent l[r])[c]? := by
  induction l generalizing r with
  | nil => simp at hr
  | cons e l ih =>
    rw [List.flatMap_cons]
    have hl : (toCevent e).length = 10 := rfl
    cases r with
    | zero => rw [List.getElem?_append_left (by omega)]; simp
    | succ r =>
      rw [List.getElem?_append_right (by omega), hl]
      have : 10 * (r + 1) + c - 10 = 10 * r + c := by omega
      rw [this, ih r (by simpa using hr)]
      simp

theorem asNpyarr_mem (l : List (Event F)) (r c : Nat) (hr : r < l.length) (hc : c < 10) :
    (asNpyarr l).mem (10 * (r : Int) + c) = (toCevent l[r])[c]? := by
  have h0 : (0 : Int) ≤ 10 * (r : Int) + c := by omega
  have : (10 * (r : Int) + c).toNat = 10 * r + c := by omega
  simp only [asNpyarr, if_pos h0, this]
  exact flatMap_toCevent l r c hr hc

theorem fromCevent_asNpyarr (l : List (Event F)) (r : Nat) (hr : r < l.length) : fromCevent (asNpyarr l).mem (10 * (r : Int)) = some l[r] := by
  have h := fun c hc => asNpyarr_mem l r c hr hc
  have h0 := h 0 (by norm_num)
  have h1 := h 1 (by norm_num)
  have h2 := h 2 (by norm_num)
  have h3 := h 3 (by norm_num)
  have h4 := h 4 (by norm_num)
  have h5 := h 5 (by norm_num)
  have h6 := h 6 (by norm_num)
  have h7 := h 7 (by norm_num)
  have h8 := h 8 (by norm_num)
  have h9 := h 9 (by norm_num)
  push_cast at h0 h1 h2 h3 h4 h5 h6 h7 h8 h9
  rw [add_zero] at h0
  simp [fromCevent, h0, h1, h2, h3, h4, h5, h6, h7, h8, h9, toCevent]

end Verif.PyBuf
