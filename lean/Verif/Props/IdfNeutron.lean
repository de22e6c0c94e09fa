import Verif.Lemmas.IdfNeutron
/-!
Property theorems about the idf/Neutron byte format: C04, C58, C59, C60, C61.
-/

namespace Verif.Idf
open Verif.Storage

/-- three records used in the examples -/
def exRows : List (List UInt64) :=
  [[1, 2, 3, 4, 5, 6, 7, 8, 9, 10], [0, 0, 0, 0, 0, 0, 0, 0, 0, 0xFFFFFFFFFFFFFFFF],
   [0x123456789ABCDEF0, 1, 1, 1, 1, 1, 1, 1, 1, 1]]

/-- **C04** `write` produces a file of size header + 80 n whose bytes are the
little-endian words of the neutrons, in order. -/
theorem C04_write_layout (rs : List (List UInt64)) (comment : List UInt8)
    (h : ∀ r ∈ rs, r.length = 10) :
    HoldsRecords (write (.rows rs) comment).1 rs 0 ∧
      (write (.rows rs) comment).1.length = filesize rs.length :=
  write_layout rs comment h

example : HoldsRecords (write (.rows exRows) [72, 105]).1 exRows 0 :=
  (C04_write_layout exRows [72, 105] (by decide)).1

/-- **C04** Whatever is written is read back: file type, version, comment and all
neutrons in order. -/
theorem C04_write_readall (rs : List (List UInt64)) (comment : List UInt8)
    (h : ∀ r ∈ rs, r.length = 10) (hn : rs.length < 256 ^ 8)
    (hc : comment.length ≤ 1024) (hc0 : comment.head? ≠ some 0) (hc1 : comment.getLast? ≠ some 0) :
    readall (write (.rows rs) comment).1 = .ok (filetype, 1, comment, rs) := by
  have := readall_ok filetype version comment rs.length rs (by decide) hn h
  simp only [write, NpArr.data, NpArr.len]
  rw [this, stripZeros_packS commentsize comment hc hc0 hc1, stripZeros_packS titlesize filetype (by decide)
    (by decide) (by decide)]
  rfl

example : readall (write (.rows exRows) [72, 105]).1 = .ok (filetype, 1, [72, 105], exRows) :=
  C04_write_readall exRows [72, 105] (by decide) (by decide) (by decide) (by decide) (by decide)

/-- **C04** Appending any number of further batches: everything is read back, in
order. -/
theorem C04_append_readall (rs : List (List UInt64)) (comment : List UInt8) (batches : List (List (List UInt64)))
    (h : ∀ r ∈ rs, r.length = 10) (hb : ∀ b ∈ batches, ∀ r ∈ b, r.length = 10) (hn : rs.length < 256 ^ 8) :
    ∃ c, readall (batches.foldl (fun f b => append f (.rows b)) (write (.rows rs) comment).1) =
      .ok (filetype, 1, c, rs ++ batches.flatten) := by
  have key : ∀ (bs : List (List (List UInt64))) (f : List UInt8) (acc : List (List UInt64)),
      f = packHeader filetype version comment rs.length ++ tostring acc.flatten →
      bs.foldl (fun f b => append f (.rows b)) f =
        packHeader filetype version comment rs.length ++ tostring (acc ++ bs.flatten).flatten := by
    intro bs
    induction bs with
    | nil => intro f acc hf; simp [hf]
    | cons b bs ih =>
      intro f acc hf
      rw [List.foldl_cons, ih (append f (.rows b)) (acc ++ b)]
      · simp
      · rw [hf, append, NpArr.data, List.append_assoc, ← tostring_append, ← List.flatten_append]
  refine ⟨stripZeros (packS commentsize comment), ?_⟩
  rw [key batches (write (.rows rs) comment).1 rs rfl, readall_ok filetype version comment rs.length _ (by decide) hn]
  · rw [stripZeros_packS titlesize filetype (by decide) (by decide) (by decide)]; rfl
  · intro r hr
    rcases List.mem_append.mp hr with hr | hr
    · exact h r hr
    · obtain ⟨b, hb1, hb2⟩ := List.mem_flatten.mp hr
      exact hb b hb1 r hb2

example : ∃ c, readall (append (append (write (.rows exRows) [1]).1 (.rows exRows)) (.rows [])) =
    .ok (filetype, 1, c, exRows ++ [exRows, []].flatten) :=
  C04_append_readall exRows [1] [exRows, []] (by decide) (by decide) (by decide)

/-- **C04** The number of neutrons is found from the file size, also when a crash
left an incomplete trailing record. -/
theorem C04_count (f : List UInt8) (rs : List (List UInt64)) (t : Nat) (ht : t < 80)
    (h : HoldsRecords f rs t) : count f = rs.length := by
  have hh : (headersize : Int) = 1100 := by decide
  have hs : (neutronsize : Int) = 80 := by decide
  rw [count, h.1, hh, hs]
  omega

example : count (append (write (.rows exRows) []).1 (.flat [7, 8, 9])) = 3 := by
  have h := (C04_write_layout exRows [] (by decide)).1
  refine C04_count _ exRows 24 (by decide) ⟨?_, h.2.1, ?_⟩
  · rw [append, List.length_append, h.1]; rfl
  · intro i j k r w hi hj hk
    have h3 := h.2.2 i j k r w hi hj hk
    rw [append, List.getElem?_append_left (List.getElem?_eq_some_iff.mp h3).1, h3]

/-- **C04** Reading any window of whole records yields exactly those records,
whatever the header says and however many bytes of a torn record follow. -/
theorem C04_read_window (f : List UInt8) (rs : List (List UInt64)) (t : Nat) (h : HoldsRecords f rs t)
    (start n : Nat) (hn : 0 < n) (hin : start + n ≤ rs.length) :
    readWindow f start n = .ok (some ((rs.drop start).take n)) := by
  obtain ⟨hdr, tail, h1, -, rfl⟩ := holds_split f rs t h
  exact readWindow_ok hdr tail rs h1 h.2.1 start n hn (Or.inr hin)

example : readWindow (write (.rows exRows) [5]).1 (1 : Nat) (2 : Nat) = .ok (some (exRows.drop 1)) :=
  C04_read_window _ exRows 0 (C04_write_layout exRows [5] (by decide)).1 1 2 (by decide) (by decide)

/-- **C04** Refinement: on a file without torn record, the byte-level reader is
the record-level reader used in the storage model, for every `start` and `n`. -/
theorem C04_read_refines (f : List UInt8) (rs : List (List UInt64)) (h : HoldsRecords f rs 0)
    (start n : Int) : readWindow f start n = idfRead rs start n := by
  obtain ⟨hdr, tail, h1, ht, rfl⟩ := holds_split f rs 0 h
  have ht : tail = [] := List.length_eq_zero_iff.mp ht
  by_cases hn : n = 0
  · simp [readWindow, idfRead, hn]
  · by_cases hc : start ≥ 0 ∧ n > 0
    · obtain ⟨a, rfl⟩ := Int.eq_ofNat_of_zero_le hc.1
      obtain ⟨b, rfl⟩ := Int.eq_ofNat_of_zero_le (Int.le_of_lt hc.2)
      rw [readWindow_ok hdr tail rs h1 h.2.1 a b (by omega) (Or.inl ht)]
      simp only [idfRead, hn, hc, if_false]
      simp
    · simp only [readWindow, idfRead, hn, hc, if_false]

example : readWindow (write (.rows exRows) [5]).1 2 7 = .ok (some (exRows.drop 2)) := by
  rw [C04_read_refines _ exRows (C04_write_layout exRows [5] (by decide)).1]; rfl

/-- **C04** `load` after `dump` gives the same neutrons. -/
theorem C04_dump_load (ns : List (Neutron UInt64)) (hn : 10 * ns.length < 256 ^ 8) :
    load (dumpFile ns) = .ok ns := by
  have hr : ∀ r ∈ ns.map toWords, r.length = ndbls := by
    intro r hr; simp only [List.mem_map] at hr; obtain ⟨n, -, rfl⟩ := hr; rfl
  have hl : (ns.flatMap toWords).length = 10 * ns.length := by
    rw [List.flatMap_def, length_flatten_const ndbls _ hr]; simp [ndbls]
  have key := readall_ok filetype version [] (10 * ns.length) (ns.map toWords) (by decide) hn hr
  simp only [load, readneutronsAsNpyarr, dumpFile, write, neutronsAsNpyarr, NpArr.len, NpArr.data, hl]
  rw [List.flatMap_def, key, stripZeros_packS titlesize filetype (by decide) (by decide) (by decide)]
  simp only [Except.bind, and_self, if_true, mapM_fromWords]

example : load (dumpFile [⟨1,2,3,4,5,6,7,8,9,10⟩, ⟨0,0,0,0,0,0,0,0,0,3⟩]) =
    .ok [⟨1,2,3,4,5,6,7,8,9,10⟩, ⟨0,0,0,0,0,0,0,0,0,3⟩] := C04_dump_load _ (by decide)

/-- **C58** (negation) After a crash in the middle of appending a record the file
can no longer be loaded, although its complete records are intact. -/
theorem C58_torn_file_load_false :
    ∃ (f : List UInt8) (rs : List (List UInt64)) (t : Nat), t < 80 ∧ HoldsRecords f rs t ∧ rs ≠ [] ∧
      ∃ e, load f = .error e := by
  have h := (C04_write_layout [exRows.head!] [] (by decide)).1
  refine ⟨(write (.rows [exRows.head!]) []).1 ++ [0], [exRows.head!], 1, by decide, ⟨?_, h.2.1, ?_⟩, by simp,
    .valueError, ?_⟩
  · rw [List.length_append, h.1]; rfl
  · intro i j k r w hi hj hk
    have h3 := h.2.2 i j k r w hi hj hk
    rw [List.getElem?_append_left (List.getElem?_eq_some_iff.mp h3).1, h3]
  · simp only [load, readneutronsAsNpyarr, readall, write, NpArr.data, NpArr.len, List.append_assoc]
    rw [unpack_pack _ _ _ _ _ (by decide) (by decide)]
    simp only [Except.bind]
    rw [List.drop_left' (length_packHeader _ _ _ _), fromstring, if_pos]
    rw [List.length_append, length_tostring]; decide

/-- **C58** What does hold: reading with the window reader (default arguments)
still gives all complete records of a torn file.  Missing: `load`/`readall`
refuse such a file. -/
theorem C58_torn_file_read_partial (f : List UInt8) (rs : List (List UInt64)) (t : Nat) (ht : t < 80)
    (h : HoldsRecords f rs t) (hne : rs ≠ []) : readDefault f = .ok (some rs) := by
  have hl : 0 < rs.length := List.length_pos_iff.mpr hne
  have := C04_read_window f rs t h 0 rs.length hl (by omega)
  rw [readDefault, C04_count f rs t ht h]
  simpa using this

example : HoldsRecords (write (.rows exRows) [5]).1 exRows 0 ∧ exRows ≠ [] :=
  ⟨(C04_write_layout exRows [5] (by decide)).1, by decide⟩

/-- **C59** (negation) The neutron count in the header of a file made by `dump`
is not the number of neutrons (it is ten times as large). -/
theorem C59_header_count_false :
    ∃ (ns : List (Neutron UInt64)) (h : Header), unpackHeader (dumpFile ns) = .ok h ∧ h.N ≠ ns.length := by
  refine ⟨[⟨1,2,3,4,5,6,7,8,9,10⟩], ⟨packS titlesize filetype, version, packS commentsize [], 10⟩, ?_, by decide⟩
  simp only [dumpFile, write, neutronsAsNpyarr, NpArr.len]
  exact unpack_pack _ _ _ _ _ (by decide) (by decide)

/-- **C59** What does hold: `write` of an `n × 10` array puts `n` in the header.
Missing: `dump` and every `write` of an array that was written before. -/
theorem C59_header_count_partial (rs : List (List UInt64)) (comment : List UInt8) (hn : rs.length < 256 ^ 8) :
    ∃ h, unpackHeader (write (.rows rs) comment).1 = .ok h ∧ h.N = rs.length := by
  refine ⟨_, unpack_pack _ _ _ _ _ (by decide) hn, rfl⟩

example : exRows.length < 256 ^ 8 := by decide

/-- **C60** (negation) `checkformat` does not answer yes for a file just written:
it raises for every file. -/
theorem C60_checkformat_false (rs : List (List UInt64)) (comment : List UInt8) :
    checkformat (write (.rows rs) comment).1 = .error .nameError := rfl

example : checkformat (write (.rows exRows) []).1 ≠ .ok true := by
  rw [C60_checkformat_false]; simp

/-- **C60** What does hold: the check made by `load` accepts a file exactly when
its header names the right type and version and the body consists of whole
records.  Missing: `checkformat` itself. -/
theorem C60_load_check_partial (f : List UInt8) (rows : List (List UInt64)) :
    readneutronsAsNpyarr f = .ok rows ↔
      ∃ c, readall f = .ok (filetype, 1, c, rows) := by
  simp only [readneutronsAsNpyarr]
  cases hr : readall f with
  | error e => simp [Except.bind]
  | ok r =>
    obtain ⟨ft, v, c, rs⟩ := r
    simp only [Except.bind]
    split
    · next h =>
      obtain ⟨h1, h2⟩ := h
      have h1 : ft = filetype := h1
      have h2 : v = version := h2
      subst h1 h2
      simp [version]
    · next h =>
      simp only [reduceCtorEq, Except.ok.injEq, Prod.mk.injEq, false_iff, not_exists]
      intro c' h'; exact h ⟨h'.1, h'.2.1⟩

example : readneutronsAsNpyarr (write (.rows exRows) [72]).1 = .ok exRows :=
  (C60_load_check_partial _ _).mpr
    ⟨[72], C04_write_readall exRows [72] (by decide) (by decide) (by decide) (by decide) (by decide)⟩

/-- **C61** (negation) Writing changes the caller's array: writing the same array
twice produces two different files. -/
theorem C61_write_changes_argument_false :
    ∃ a : NpArr, (write a []).2 ≠ a ∧
      (unpackHeader (write a []).1).map Header.N ≠ (unpackHeader (write (write a []).2 []).1).map Header.N := by
  refine ⟨.rows exRows, by simp [write], ?_⟩
  simp only [write, NpArr.len, NpArr.data]
  rw [unpack_pack _ _ _ _ _ (by decide) (by decide), unpack_pack _ _ _ _ _ (by decide) (by decide)]
  simp [Except.map, exRows]

/-- **C61** What does hold: the numbers in the array are unchanged, so the
neutrons in a second file are the same.  Missing: the shape. -/
theorem C61_write_keeps_data_partial (a : NpArr) (c : List UInt8) :
    (write a c).2.data = a.data ∧
      (write (write a c).2 c).1.drop headersize = (write a c).1.drop headersize := by
  refine ⟨rfl, ?_⟩
  simp only [write, NpArr.data]
  rw [List.drop_left' (length_packHeader _ _ _ _), List.drop_left' (length_packHeader _ _ _ _)]

example : (write (.rows exRows) []).2.data = exRows.flatten := (C61_write_keeps_data_partial _ _).1

end Verif.Idf
