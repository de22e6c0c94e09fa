import Verif.Lemmas.PyBuf
/-!
Properties of buffers of neutrons in python (C352-C354).
-/

namespace Verif.PyBuf

open Spec

variable {E F : Type}

/-- **C352** (partial): `appendNeutrons` adds the neutrons of the region that is asked for, in their order, and changes nothing else. Missing: a buffer that is appended to itself, see `C352_self_false`, and
regions beyond the end, see `C352_range_false`. -/
theorem C352_partial (dflt : E) (h : Heap E) (self src : Nat) (start stop : Arg) (i j : Nat)
    (hi : Means 0 start i) (hj : Means (h src).data.length stop j) (hij : i ≤ j) (hl : j ≤ (h src).data.length)
    (hs : self ≠ src ∨ (h self).data.length + (j - i) ≤ (h self).cap) :
    ∃ h', appendNeutrons dflt h self src start stop = .ok h' ∧ Appended h h' self src i j := by
  rw [appendNeutrons_means dflt h self src hi hj]
  obtain ⟨h', e, hd, ho⟩ := appendEvents_data dflt h self src i j hij hl hs
  exact ⟨h', e, appended_of_data hij hl hd ho⟩

/-- buffers 0 with 1, 2 and memory for four, and all others with 3, 4, 5 -/
def heapExample : Heap Nat := fun k => if k = 0 then ⟨[1, 2], 4⟩ else ⟨[3, 4, 5], 3⟩

example : Means 0 (.int (1 : Nat)) 1 ∧ Means (heapExample 1).data.length .none 3 ∧ 1 ≤ 3 ∧ 3 ≤ (heapExample 1).data.length ∧ (0 : Nat) ≠ 1 :=
  ⟨.int 1, .none, by decide, by decide, by decide⟩

example : ∃ h', appendNeutrons 0 heapExample 0 1 (.int 1) .none = .ok h' ∧ (h' 0).data = [1, 2, 4, 5] ∧ (h' 1).data = [3, 4, 5] :=
  ⟨_, rfl, rfl, rfl⟩

example : ∃ h', appendNeutrons 0 heapExample 0 0 .none .none = .ok h' ∧ (h' 0).data = [1, 2, 1, 2] := ⟨_, rfl, rfl⟩

/-- **C352**: an end that is a whole number but not a python integer (a float, an integer of numpy) is taken for that integer; one that is not whole is refused; a start that is not a python integer is always
refused, even if it is whole. -/
theorem C352_numbers (dflt : E) (h : Heap E) (self src : Nat) (start stop : Arg) (n : Int) (q : ℚ) :
    appendNeutrons dflt h self src start (.number n) = appendNeutrons dflt h self src start (.int n) ∧
    ((∀ m : Int, q ≠ m) → appendNeutrons dflt h self src start (.number q) = .error .assertionError) ∧
    ∃ e, appendNeutrons dflt h self src (.number q) stop = .error e := by
  refine ⟨?_, ?_, ?_⟩
  · have : pyInt (n : ℚ) = n := by unfold pyInt; split <;> simp
    simp [appendNeutrons, given, whole, this]
  · intro hq
    simp [appendNeutrons, given, whole, hq (pyInt q), Except.bind]
  · cases stop with
    | none => exact ⟨.typeError, rfl⟩
    | int i => exact ⟨.typeError, rfl⟩
    | number r =>
      by_cases hr : r = pyInt r
      · exact ⟨.typeError, by simp only [appendNeutrons, given, whole]; rw [if_pos hr]; rfl⟩
      · exact ⟨.assertionError, by simp only [appendNeutrons, given, whole]; rw [if_neg hr]; rfl⟩

example : ∀ m : Int, (1 / 2 : ℚ) ≠ m := by
  intro m h
  have h2 : (1 : ℚ) = ((2 * m : Int) : ℚ) := by push_cast; linarith
  have h3 : (1 : Int) = 2 * m := by exact_mod_cast h2
  omega

/-- **C352** is false where a buffer is appended to itself: unless there is memory to spare, the neutrons are read from memory that was given back. -/
theorem C352_self_false (dflt : E) (h : Heap E) (self : Nat) (hn : (h self).data ≠ []) (hc : (h self).cap = (h self).data.length) :
    appendNeutrons dflt h self self .none .none = .error .undefinedBehaviour := by
  have hp : 0 < (h self).data.length := List.length_pos_iff.2 hn
  rw [appendNeutrons_means dflt h self self .none .none]
  unfold appendEvents
  rw [if_neg (by omega), if_neg (by omega)]
  dsimp only
  rw [if_pos]
  refine ⟨rfl, ?_⟩
  unfold Vec.resize
  dsimp only
  rw [if_neg (by omega)]

example : (heapExample 1).data ≠ [] ∧ (heapExample 1).cap = (heapExample 1).data.length := by decide

/-- **C352** is false for regions beyond the end: there is no exception, memory is read that does not belong to the buffer. -/
theorem C352_range_false (dflt : E) (h : Heap E) (self src : Nat) (start : Arg) (i j : Nat)
    (hi : Means 0 start i) (hl : (h src).data.length < j) :
    appendNeutrons dflt h self src start (.int j) = .error .undefinedBehaviour := by
  rw [appendNeutrons_means dflt h self src hi (.int j)]
  unfold appendEvents
  rw [if_pos (Or.inr hl)]

example : Means 0 .none 0 ∧ (heapExample 0).data.length < 5 := ⟨.none, by decide⟩

/-- **C353** (partial): within the buffer `b[i]` is the neutron of that index, and after `b[i] = n` it is `n` and the others are what they were. Missing: indices outside, see `C353_range_false`, and
`b[i].probability = p`, see `C353_copy_false`. -/
theorem C353_partial (l : List E) (i : Nat) (e : E) (hi : i < l.length) :
    getitem l (.int i) = .ok l[i] ∧
    ∃ l', setitem l (.int i) e = .ok l' ∧ l'.length = l.length ∧ l'[i]? = some e ∧ ∀ k, k ≠ i → l'[k]? = l[k]? := by
  refine ⟨by simp [getitem, toSize, Except.bind, hi], l.set i e, by simp [setitem, toSize, Except.bind, hi], by simp, by simp [hi], ?_⟩
  intro k hk
  rw [List.getElem?_set_ne (Ne.symm hk)]

example : 1 < [3, 4, 5].length := by decide

/-- **C353**: the way to change a neutron of a buffer is to get it, to change it, and to put it back. -/
theorem C353_update (l : List E) (i : Nat) (change : E → E) (hi : i < l.length) :
    ∃ l', updateAt l (.int i) change = .ok l' ∧ l'[i]? = some (change l[i]) ∧ ∀ k, k ≠ i → l'[k]? = l[k]? := by
  obtain ⟨hg, l', hs, _, he, ho⟩ := C353_partial l i (change l[i]) hi
  refine ⟨l', ?_, he, ho⟩
  unfold updateAt
  rw [hg]
  exact hs

example : updateAt [3, 4, 5] (.int 1) (· + 1) = .ok [3, 5, 5] := by decide

/-- **C353** is false for indices: one beyond the end is not an `IndexError`, it reads and writes memory that does not belong to the buffer; a negative one, which counts from the end for python, is an error. -/
theorem C353_range_false (l : List E) (i : Nat) (e : E) (hi : l.length ≤ i) :
    getitem l (.int i) = .error .undefinedBehaviour ∧ setitem l (.int i) e = .error .undefinedBehaviour ∧
    ∀ m : Int, m < 0 → getitem l (.int m) = .error .valueError := by
  refine ⟨by simp [getitem, toSize, Except.bind, List.getElem?_eq_none hi], by simp [setitem, toSize, Except.bind, hi], fun m hm => ?_⟩
  have : ¬ 0 ≤ m := by omega
  simp [getitem, toSize, Except.bind, this]

example : [3, 4, 5].length ≤ 3 := by decide

/-- **C353** is false for attributes: `b[i].probability = p` never changes the buffer, and there is no error. -/
theorem C353_copy_false : (∀ (l : List E) (i : Nat) (change : E → E), i < l.length → setAttrAt l (.int i) change = .ok l) ∧
    ∃ (e : Event ℚ) (p : ℚ), setAttrAt [e] (.int 0) (fun e => { e with p := p }) ≠ .ok [{ e with p := p }] := by
  refine ⟨fun l i change hi => by simp [setAttrAt, getitem, toSize, Except.bind, hi], ⟨⟨0, 0, 0⟩, ⟨0, 0, 0⟩, 0, 0, 0, 1⟩, 2, ?_⟩
  intro h
  simp [setAttrAt, getitem, toSize, Except.bind] at h

/-- **C354** (partial): `from_npyarr` makes the buffer that of the array, row by row, whatever it was before. Missing: views with other distances between rows, see `C354_view_false`. -/
theorem C354_partial (ev : Event F) (buf : List (Event F)) (arr : Arr F) (hw : Whole arr) (hs : strideOf arr.shape = 10)
    (hm : ∀ n, arr.shape = .flat n → n % 10 = 0) :
    ∃ l, fromNpyarr ev buf arr = .ok l ∧ Holds arr l := by
  rw [fromNpyarr_eq ev buf arr hm]
  have hg : ∀ r : Nat, ∃ e, r < rowsOf arr.shape → fromCevent arr.mem (10 * (r : Int)) = some e := fun r => by
    by_cases hr : r < rowsOf arr.shape
    · obtain ⟨e, he⟩ := contiguous_some hw hs r hr
      exact ⟨e, fun _ => he⟩
    · exact ⟨ev, fun h => absurd h hr⟩
  choose g hg using hg
  rw [fromCevents_ok _ _ _ g (by rw [resized_length]; intro i hi; exact hg i (by omega))]
  rw [resized_length, min_self, List.drop_of_length_le (by rw [resized_length]), List.append_nil]
  refine ⟨_, rfl, by simp, ?_⟩
  intro r hr
  have hr' : r < rowsOf arr.shape := by simpa using hr
  have := contiguous_row hs (hg r hr')
  simpa using this

/-- an array of two rows with 0 to 19 -/
def arrExample : Arr ℚ := ⟨fun a => if 0 ≤ a ∧ a < 20 then some (a : ℚ) else none, .flat 20⟩

example : Whole arrExample ∧ strideOf arrExample.shape = 10 ∧ ∀ n, arrExample.shape = .flat n → n % 10 = 0 := by
  refine ⟨fun r hr c hc => ?_, rfl, fun n h => by cases h; rfl⟩
  have hr' : r < 2 := hr
  have h : (0 : Int) ≤ 10 * (r : Int) + c ∧ 10 * (r : Int) + c < 20 := by omega
  show (if (0 : Int) ≤ 10 * (r : Int) + c ∧ 10 * (r : Int) + c < 20 then some (((10 * (r : Int) + c : Int)) : ℚ) else none).isSome = true
  rw [if_pos h]
  rfl

/-- **C354**: an array of numbers that are not a multiple of ten is refused. -/
theorem C354_refused (ev : Event F) (buf : List (Event F)) (mem : Int → Option F) (n : Nat) (hn : n % 10 ≠ 0) :
    fromNpyarr ev buf ⟨mem, .flat n⟩ = .error .valueError := by
  simp [fromNpyarr, hn]

example : 25 % 10 ≠ 0 := by decide

/-- **C354**: `neutrons_from_npyarr` replaces the first neutrons of a buffer by those of the array, and keeps the others; without a buffer it makes one with exactly those of the array. -/
theorem C354_into (ev : Event F) (arr : Arr F) (n : Nat) (hn : arr.shape = .rows n 10) (hw : Whole arr) :
    (∃ l, neutronsFromNpyarr ev arr none = .ok l ∧ Holds arr l) ∧
    ∀ buf : List (Event F), ∃ l, neutronsFromNpyarr ev arr (some buf) = .ok l ∧ l.length = buf.length ∧
      (∀ r e, r < n → l[r]? = some e → IsRow arr r e) ∧ ∀ r, n ≤ r → l[r]? = buf[r]? := by
  have hs : strideOf arr.shape = 10 := by rw [hn]; rfl
  have hR : rowsOf arr.shape = n := by rw [hn]; rfl
  have hg : ∀ r : Nat, ∃ e, r < n → fromCevent arr.mem (10 * (r : Int)) = some e := fun r => by
    by_cases hr : r < n
    · obtain ⟨e, he⟩ := contiguous_some hw hs r (by rw [hR]; exact hr)
      exact ⟨e, fun _ => he⟩
    · exact ⟨ev, fun h => absurd h hr⟩
  choose g hg using hg
  have key : ∀ o : Option (List (Event F)), neutronsFromNpyarr ev arr o =
      .ok ((List.range (min (o.getD (List.replicate n ev)).length n)).map g ++ (o.getD (List.replicate n ev)).drop (min (o.getD (List.replicate n ev)).length n)) := by
    intro o
    have : min (o.getD (List.replicate n ev)).length (min n (o.getD (List.replicate n ev)).length) = min (o.getD (List.replicate n ev)).length n := by omega
    unfold neutronsFromNpyarr
    rw [hn]
    dsimp only
    rw [fromCevents_ok _ _ _ g (fun i hi => hg i (by omega)), this]
  constructor
  · rw [key none]
    refine ⟨_, rfl, by simp [hR], ?_⟩
    intro r hr
    have hr' : r < n := by simpa using hr
    have := contiguous_row hs (hg r hr')
    simpa [hr'] using this
  · intro buf
    rw [key (some buf)]
    dsimp only [Option.getD_some]
    refine ⟨_, rfl, by simp, ?_, ?_⟩
    · intro r e hr he
      by_cases hb : r < buf.length
      · rw [List.getElem?_append_left (by simp; omega), List.getElem?_map, List.getElem?_range (by omega)] at he
        simp only [Option.map_some, Option.some.injEq] at he
        exact he ▸ contiguous_row hs (hg r hr)
      · rw [List.getElem?_eq_none (by simp; omega)] at he
        exact absurd he (by simp)
    · intro r hr
      rw [List.getElem?_append_right (by simp; omega), List.getElem?_drop]
      congr 1
      simp
      omega

example : ∃ n, ({ arrExample with shape := .rows 2 10 } : Arr ℚ).shape = .rows n 10 := ⟨2, rfl⟩

/-- **C354**: neutrons that are copied to an array and back are the same neutrons; the array has ten numbers for each. -/
theorem C354_back (ev : Event F) (l buf : List (Event F)) :
    Whole (toNpyarr l) ∧ Holds (toNpyarr l) l ∧ fromNpyarr ev buf (toNpyarr l) = .ok l ∧ fromNpyarr ev buf (asNpyarr l) = .ok l := by
  have hw : Whole (toNpyarr l) := by
    intro r hr c hc
    have hr' : r < l.length := hr
    show ((asNpyarr l).mem (10 * (r : Int) + c)).isSome = true
    rw [asNpyarr_mem l r c hr' hc]
    have : (toCevent l[r]).length = 10 := rfl
    simp [this, hc]
  have hb : ∀ arr : Arr F, arr.mem = (asNpyarr l).mem → rowsOf arr.shape = l.length → (∀ n, arr.shape = .flat n → n % 10 = 0) → fromNpyarr ev buf arr = .ok l := by
    intro arr hmem hR hm
    rw [fromNpyarr_eq ev buf arr hm, hR, hmem]
    rw [fromCevents_ok _ _ _ (fun r => l[r]?.getD ev) (by
      rw [resized_length, min_self]
      intro i hi
      rw [fromCevent_asNpyarr l i hi]
      simp [hi])]
    rw [resized_length, min_self, List.drop_of_length_le (by rw [resized_length]), List.append_nil]
    congr 1
    apply List.ext_getElem
    · simp
    · intro r h1 h2
      simp [h2]
  refine ⟨hw, ⟨rfl, fun r hr => contiguous_row rfl (fromCevent_asNpyarr l r hr)⟩, ?_, ?_⟩
  · exact hb _ rfl rfl fun n h => by cases h
  · exact hb _ rfl (by simp [asNpyarr, rowsOf]) fun n h => by cases h; simp

/-- **C354** is false for views: of the array of four rows with 0 to 39, the view `a[::2]` has the rows 0 and 2, but the buffer gets the rows 0 and 1, without an error. -/
theorem C354_view_false : ∃ (arr : Arr ℚ) (l : List (Event ℚ)), Whole arr ∧ arr.shape = .rows 2 20 ∧
    (∀ ev buf, fromNpyarr ev buf arr = .ok l) ∧ ¬ Holds arr l := by
  let row : ℚ → Event ℚ := fun a => ⟨⟨a, a + 1, a + 2⟩, ⟨a + 3, a + 4, a + 5⟩, a + 6, a + 7, a + 8, a + 9⟩
  refine ⟨⟨fun a => if 0 ≤ a ∧ a < 40 then some (a : ℚ) else none, .rows 2 20⟩, [row 0, row 10], ?_, rfl, ?_, ?_⟩
  · intro r hr c hc
    have hr' : r < 2 := hr
    have h : (0 : Int) ≤ 20 * (r : Int) + c ∧ 20 * (r : Int) + c < 40 := by omega
    show (if (0 : Int) ≤ 20 * (r : Int) + c ∧ 20 * (r : Int) + c < 40 then some (((20 * (r : Int) + c : Int)) : ℚ) else none).isSome = true
    rw [if_pos h]
    rfl
  · intro ev buf
    rw [fromNpyarr_eq _ _ _ (fun n h => by cases h)]
    rw [fromCevents_ok _ _ _ (fun r => row (10 * r))]
    · rw [resized_length]
      simp only [rowsOf]
      rw [List.drop_of_length_le (by rw [resized_length]; simp)]
      simp [List.range_succ]
    · rw [resized_length]
      intro i hi
      have : i < 2 := by simpa [rowsOf] using hi
      interval_cases i <;> simp [fromCevent, row] <;> norm_num
  · rintro ⟨_, h⟩
    have := (h 1 (by simp)).x
    simp [entry, strideOf, row] at this

end Verif.PyBuf
