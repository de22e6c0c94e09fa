import Verif.Lemmas.IdfPhonon
/-!
Property theorems C43, C148: files of phonon data.
-/

namespace Verif.IdfPhonon
open Idf
variable {α : Type}

/-- C43.  Energies that are written to a file are read again, with the comment. -/
theorem C43_energies (c : Codec α) {E : List α} {comment : List Nat} (hc : Plain comment) (hn : E.length < 2 ^ 31)
    (hs : ∀ x ∈ E, Stored c x) :
    ∃ f, writeE c E comment = (f, .ok ()) ∧ readE c f = .ok (⟨"E".toList.map Char.toNat, 1, comment⟩, E) := by
  unfold writeE
  rw [emit_header _ hc.ascii, packInt_ok hn]
  refine ⟨_, rfl, ?_⟩
  simp only [emit, List.append_nil]
  unfold readE
  rw [readInfo_head (by decide) (by decide) hc, readInt_mid _ _ (head_length _ _) hn, ← List.append_assoc]
  simp only [bind, Except.bind]
  rw [readDoubles_end c _ E (by simp [head_length, length_leBytes]) rfl hs]
  rfl

/-- C43.  Momentum transfers that are written to a file are read again with their shape, and the comment. -/
theorem C43_momenta (c : Codec α) {a : Arr α} {n d : Nat} {comment : List Nat} (hc : Plain comment) (ha : Has a [n, d])
    (hs : ∀ x ∈ a.data, Stored c x) :
    ∃ f, writeQ c a comment = (f, .ok ()) ∧ readQ c f = .ok (⟨"Q".toList.map Char.toNat, 1, comment⟩, a) := by
  obtain ⟨shape, data⟩ := a
  obtain ⟨rfl, h2, h3⟩ := ha
  have hn : n < 2 ^ 31 := h3 n (by simp)
  have hd : d < 2 ^ 31 := h3 d (by simp)
  unfold writeQ
  rw [emit_header _ hc.ascii]
  simp only [dim, List.getElem?_cons_succ, List.getElem?_cons_zero, bind, Except.bind, packInt_ok hn, packInt_ok hd]
  refine ⟨_, rfl, ?_⟩
  simp only [emit, List.append_nil]
  unfold readQ
  rw [readInfo_head (by decide) (by decide) hc, readInt_mid _ _ (head_length _ _) hd, ← List.append_assoc,
    readInt_mid _ _ (by simp [head_length, length_leBytes]) hn, ← List.append_assoc]
  simp only [bind, Except.bind]
  rw [readDoubles_end c _ data (by simp [head_length, length_leBytes]) (by simpa using h2) hs]
  rfl

/-- C43.  The same for tables of S(Q, E). -/
theorem C43_table (c : Codec α) {a : Arr α} {n d : Nat} {comment : List Nat} (hc : Plain comment) (ha : Has a [n, d])
    (hs : ∀ x ∈ a.data, Stored c x) :
    ∃ f, writeSqe c a comment = (f, .ok ()) ∧ readSqe c f = .ok (⟨"Sqe".toList.map Char.toNat, 1, comment⟩, a) := by
  obtain ⟨shape, data⟩ := a
  obtain ⟨rfl, h2, h3⟩ := ha
  have hn : n < 2 ^ 31 := h3 n (by simp)
  have hd : d < 2 ^ 31 := h3 d (by simp)
  unfold writeSqe
  rw [emit_header _ hc.ascii]
  simp only [dim, List.getElem?_cons_succ, List.getElem?_cons_zero, bind, Except.bind, packInt_ok hn, packInt_ok hd]
  refine ⟨_, rfl, ?_⟩
  simp only [emit, List.append_nil]
  unfold readSqe
  rw [readInfo_head (by decide) (by decide) hc, readInt_mid _ _ (head_length _ _) hn, ← List.append_assoc,
    readInt_mid _ _ (by simp [head_length, length_leBytes]) hd, ← List.append_assoc]
  simp only [bind, Except.bind]
  rw [readDoubles_end c _ data (by simp [head_length, length_leBytes]) (by simpa using h2) hs]
  rfl

/-- C43, partial.  The same for squares of frequencies.  Missing: a number of branches that is not a multiple of the number of
dimensions. -/
theorem C43_frequencies_partial (c : Codec α) {a : Arr α} {nq nb D : Nat} {comment : List Nat} (hc : Plain comment)
    (ha : Has a [nq, nb * D]) (hD : 0 < D) (hs : ∀ x ∈ a.data, Stored c x) (hDs : D < 2 ^ 31) :
    ∃ f, writeOmega2 c a comment D = (f, .ok ()) ∧ readOmega2 c f = .ok (⟨"Omega2".toList.map Char.toNat, 1, comment⟩, a) := by
  obtain ⟨shape, data⟩ := a
  obtain ⟨rfl, h2, h3⟩ := ha
  have hn : nq < 2 ^ 31 := h3 nq (by simp)
  have hb : nb < 2 ^ 31 := lt_of_le_of_lt (Nat.le_mul_of_pos_right nb hD) (h3 (nb * D) (by simp))
  unfold writeOmega2
  rw [emit_header _ hc.ascii]
  simp only [dim, List.getElem?_cons_succ, List.getElem?_cons_zero, bind, Except.bind, packInt_ok hn, packInt_ok hDs,
    if_neg hD.ne', Nat.mul_div_cancel _ hD, packInt_ok hb]
  refine ⟨_, rfl, ?_⟩
  simp only [emit, List.append_nil]
  unfold readOmega2
  rw [readInfo_head (by decide) (by decide) hc, readInt_mid _ _ (head_length _ _) hDs, ← List.append_assoc,
    readInt_mid _ _ (by simp [head_length, length_leBytes]) hb, ← List.append_assoc,
    readInt_mid _ _ (by simp [head_length, length_leBytes]) hn, ← List.append_assoc]
  simp only [bind, Except.bind]
  rw [readDoubles_end c _ data (by simp [head_length, length_leBytes]) (by simpa [mul_assoc] using h2) hs]
  rfl

/-- C43.  Only files of squares of frequencies are read as squares of frequencies. -/
theorem C43_type (c : Codec α) {f : List UInt8} {info : Info} {a : Arr α} (h : readOmega2 c f = .ok (info, a)) :
    info.filetype = "Omega2".toList.map Char.toNat := by
  unfold readOmega2 at h
  simp only [bind, Except.bind] at h
  repeat' split at h
  all_goals first
    | (cases h; done)
    | (rename_i hc
       cases h
       rw [hc]
       rfl)

/-- C43, partial.  Polarization vectors are read again as an array with real and imaginary parts in a further dimension.  Missing:
a number of branches other than the number of degrees of freedom. -/
theorem C43_polarizations_partial (c : Codec α) {a : Arr (α × α)} {nq nb D : Nat} {comment : List Nat} (hc : Plain comment)
    (ha : Has a [nq, nb * D, nb, D]) (hs : ∀ z ∈ a.data, Stored c z.1 ∧ Stored c z.2) :
    ∃ f, writePol c a comment = (f, .ok ()) ∧ readPol c f =
      .ok (⟨"Polarizations".toList.map Char.toNat, 1, comment⟩, ⟨[nq, nb * D, nb, D, 2], a.data.flatMap fun z => [z.1, z.2]⟩) := by
  obtain ⟨shape, data⟩ := a
  obtain ⟨rfl, h2, h3⟩ := ha
  have hn : nq < 2 ^ 31 := h3 nq (by simp)
  have hb : nb < 2 ^ 31 := h3 nb (by simp)
  have hD : D < 2 ^ 31 := h3 D (by simp)
  have hl : (data.flatMap fun z => [z.1, z.2]).length = nq * nb * D * nb * D * 2 := by
    have : ∀ l : List (α × α), (l.flatMap fun z => [z.1, z.2]).length = l.length * 2 := by
      intro l
      induction l with
      | nil => rfl
      | cons z l ih => rw [List.flatMap_cons, List.length_append, ih]; simp; omega
    rw [this]
    simp only [List.foldl_cons, List.foldl_nil, one_mul] at h2
    rw [h2]; ring
  unfold writePol
  rw [emit_header _ hc.ascii]
  simp only [dim, List.getElem?_cons_succ, List.getElem?_cons_zero, bind, Except.bind, packInt_ok hn, packInt_ok hD,
    packInt_ok hb, List.length_cons, List.length_nil, if_true, zero_add, Nat.reduceAdd]
  refine ⟨_, rfl, ?_⟩
  simp only [emit, List.append_nil, List.nil_append]
  unfold readPol
  rw [readInfo_head (by decide) (by decide) hc, readInt_mid _ _ (head_length _ _) hD, ← List.append_assoc,
    readInt_mid _ _ (by simp [head_length, length_leBytes]) hb, ← List.append_assoc,
    readInt_mid _ _ (by simp [head_length, length_leBytes]) hn, ← List.append_assoc]
  simp only [bind, Except.bind]
  rw [readDoubles_end c _ _ (by simp [head_length, length_leBytes]) hl (by
      intro x hx
      obtain ⟨z, hz, hx⟩ := List.mem_flatMap.1 hx
      obtain ⟨h1, h2⟩ := hs z hz
      simp only [List.mem_cons, List.not_mem_nil, or_false] at hx
      rcases hx with rfl | rfl
      · exact h1
      · exact h2)]
  rfl

/-- numbers that are stored as integers -/
def nats : Codec ℕ := ⟨UInt64.ofNat, UInt64.toNat⟩

theorem nats_stored {n : ℕ} (h : n < 2 ^ 64) : Stored nats n := by
  show (UInt64.ofNat n).toNat = n
  rw [UInt64.toNat_ofNat']
  exact Nat.mod_eq_of_lt h

theorem abc_plain : Plain ("abc".toList.map Char.toNat) := ⟨by decide, by decide, by decide, by decide⟩

theorem empty_plain : Plain [] := ⟨by decide, by decide, by decide, by decide⟩

/-- the hypotheses of the theorems above hold: a comment, numbers, and arrays of the shapes (2, 3) and (1, 6, 2, 3) -/
example : Plain ("abc".toList.map Char.toNat) ∧ (∀ n ∈ [1, 2, 3, 4, 5, 6], Stored nats n) ∧
    Has (⟨[2, 3], [1, 2, 3, 4, 5, 6]⟩ : Arr ℕ) [2, 3] ∧ Has (⟨[2, 3], [1, 2, 3, 4, 5, 6]⟩ : Arr ℕ) [2, 1 * 3] ∧
    Has (⟨[1, 6, 2, 3], List.replicate 36 (1, 2)⟩ : Arr (ℕ × ℕ)) [1, 2 * 3, 2, 3] := by
  refine ⟨abc_plain, fun n hn => nats_stored ?_, ⟨rfl, rfl, by decide⟩, ⟨rfl, rfl, by decide⟩, ⟨rfl, rfl, by decide⟩⟩
  have : ∀ n ∈ [1, 2, 3, 4, 5, 6], n < 7 := by decide
  have := this n hn
  omega

/-- such a file is read, so `C43_type` says something -/
example : ∃ f info, readOmega2 nats f = .ok (info, ⟨[1, 3], [1, 2, 3]⟩) := by
  obtain ⟨f, _, h⟩ := C43_frequencies_partial nats (a := ⟨[1, 3], [1, 2, 3]⟩) (nq := 1) (nb := 1) (D := 3) abc_plain
    ⟨rfl, rfl, by decide⟩ (by decide) (fun n hn => nats_stored (by
      have : ∀ n ∈ [1, 2, 3], n < 7 := by decide
      have := this n hn
      omega)) (by decide)
  exact ⟨f, _, h⟩

/-- C43 is false for squares of frequencies if the number of branches is not a multiple of `D`: the file is written, but cannot be
read. -/
theorem C43_frequencies_false (c : Codec α) (x : α) : ∃ f, writeOmega2 c ⟨[1, 4], [x, x, x, x]⟩ [] 3 = (f, .ok ()) ∧
    readOmega2 c f = .error .valueError := by
  unfold writeOmega2
  rw [emit_header _ (by simp)]
  simp only [dim, List.getElem?_cons_succ, List.getElem?_cons_zero, bind, Except.bind]
  rw [packInt_ok (n := 3) (by norm_num), if_neg (by norm_num), packInt_ok (n := 4 / 3) (by norm_num)]
  refine ⟨_, rfl, ?_⟩
  simp only [emit, List.append_nil]
  unfold readOmega2
  rw [readInfo_head (by decide) (by decide) empty_plain, readInt_mid _ _ (head_length _ _) (by norm_num),
    ← List.append_assoc, readInt_mid _ _ (by simp [head_length, length_leBytes]) (by norm_num), ← List.append_assoc,
    readInt_mid _ _ (by simp [head_length, length_leBytes]) (by norm_num), ← List.append_assoc]
  simp only [bind, Except.bind]
  unfold readDoubles
  rw [List.drop_left' (by simp [head_length, length_leBytes])]
  rw [if_neg]
  simp [doubles, length_tostring, nbytes]

/-- C43 is false for comments with other characters than ascii: the exception comes after the file has been opened, so that a file
that was there before is lost; what remains cannot be read. -/
theorem C43_comment_false (c : Codec α) (E : List α) : ∃ f, writeE c E [960] = (f, .error .valueError) ∧
    readE c f = .error .valueError := by
  refine ⟨packS 64 tE ++ leBytes 4 1, ?_, ?_⟩
  · simp [writeE, header, ascii, Except.map, emit]
  · unfold readE readInfo slice
    have h1 : (packS 64 tE ++ leBytes 4 1).length = 68 := by simp [length_packS, length_leBytes]
    have h2 : ((packS 64 tE ++ leBytes 4 1).drop 68).length = 0 := by rw [List.length_drop, h1]
    have h3 : List.take 64 (List.drop 0 (packS 64 tE ++ leBytes 4 1)) = packS 64 tE := by
      rw [List.drop_zero, List.take_left' (length_packS _ _)]
    have h4 : readInt (packS 64 tE ++ leBytes 4 1) 64 = .ok 1 := by
      have := readInt_mid (packS 64 tE) [] (i := 64) (n := 1) (length_packS _ _) (by norm_num)
      simpa using this
    rw [h3, h4]
    simp only [length_packS, if_true, bind, Except.bind]
    rw [if_neg]
    rw [List.length_take, h2]
    simp

/-- C43 is false for comments of more than 1024 characters: what is too long is dropped. -/
theorem C43_long_false (c : Codec α) (n : Nat) :
    writeE c [] (List.replicate (1024 + n) 97) = writeE c [] (List.replicate 1024 97) := by
  have h : ∀ k, packS 1024 (List.map UInt8.ofNat (List.replicate (1024 + k) 97)) = List.replicate 1024 97 := by
    intro k
    unfold packS
    rw [List.map_replicate, List.take_replicate, List.length_replicate, Nat.min_eq_left (Nat.le_add_right _ _),
      Nat.sub_eq_zero_of_le (Nat.le_add_right _ _), List.replicate_zero, List.append_nil]
    rfl
  unfold writeE
  have hc : ∀ k, ∀ c ∈ List.replicate k 97, c < 128 := fun k c hc => by rw [List.eq_of_mem_replicate hc]; norm_num
  rw [emit_header _ (hc _), emit_header _ (hc _)]
  unfold head
  have h0 := h 0
  rw [add_zero] at h0
  rw [h n, h0]

/-- C43, partial.  A density of states that is written to a file is read again, and the frequencies are the multiples of the
distance of the first two: they are those written if these are equidistant and start at 0. -/
theorem C43_dos_partial (c : Codec ℝ) (h : ℝ) (old : List UInt8) {e0 e1 : ℝ} {E Z : List ℝ} {comment : List Nat} (hc : Plain comment)
    (hn : Z.length < 2 ^ 31) (hs : ∀ x ∈ Z, Stored c x) (hd : Stored c (e1 - e0)) (hne : e1 ≠ e0) :
    ∃ f, writeDOS c h old (e0 :: e1 :: E) Z comment .teraHz = (f, .ok ()) ∧
      readDOSFile c f = .ok (⟨"DOS".toList.map Char.toNat, 1, comment⟩,
        (List.range Z.length).map (fun (i : ℕ) => (i : ℝ) * (e1 - e0)), Z) := by
  unfold writeDOS
  simp only [List.getElem?_cons_succ, List.getElem?_cons_zero]
  rw [emit_header _ hc.ascii, packInt_ok hn]
  refine ⟨_, rfl, ?_⟩
  simp only [emit, List.append_nil]
  have hl : (doubles c [e1 - e0]).length = 8 := by simp [doubles, length_tostring, nbytes]
  unfold readDOSFile
  rw [readInfo_head (by decide) (by decide) hc, readInt_mid _ _ (head_length _ _) hn, ← List.append_assoc,
    List.drop_left' (by simp [head_length, length_leBytes]), List.take_left' hl]
  have := readDoubles_end c [] (i := 0) (n := 1) [e1 - e0] rfl rfl (by simpa using hd)
  rw [List.nil_append] at this
  rw [this, ← List.append_assoc]
  simp only [bind, Except.bind]
  rw [readDoubles_end c _ Z (by simp [head_length, length_leBytes, hl]) rfl hs]
  simp only [List.getD_cons_zero]
  rw [arange_eq _ (sub_ne_zero.2 hne)]
  rfl

/-- numbers that are stored as integers -/
noncomputable def reals : Codec ℝ := ⟨fun x => UInt64.ofNat ⌊x⌋₊, fun w => (w.toNat : ℝ)⟩

theorem reals_stored {n : ℕ} (h : n < 2 ^ 64) : Stored reals (n : ℝ) := by
  show (((UInt64.ofNat ⌊(n : ℝ)⌋₊).toNat : ℕ) : ℝ) = n
  rw [Nat.floor_natCast, UInt64.toNat_ofNat', Nat.mod_eq_of_lt h]

/-- the hypotheses of `C43_dos_partial` hold for the frequencies 0, 2, 4, which are read again -/
example : (∀ x ∈ [(0 : ℝ), 5, 7], Stored reals x) ∧ Stored reals ((2 : ℝ) - 0) ∧
    (List.range 3).map (fun (i : ℕ) => (i : ℝ) * (2 - 0)) = [0, 2, 4] := by
  refine ⟨?_, ?_, ?_⟩
  · intro x hx
    simp only [List.mem_cons, List.not_mem_nil, or_false] at hx
    rcases hx with rfl | rfl | rfl
    · exact_mod_cast reals_stored (n := 0) (by norm_num)
    · exact_mod_cast reals_stored (n := 5) (by norm_num)
    · exact_mod_cast reals_stored (n := 7) (by norm_num)
  · rw [sub_zero]; exact_mod_cast reals_stored (n := 2) (by norm_num)
  · simp [List.range_succ]; norm_num

/-- C43 is false for a density of states that does not start at 0: it is moved to 0 without notice. -/
theorem C43_dos_false : ∃ f, writeDOS reals 1 [] [10, 11, 12] [1, 2, 1] [] .teraHz = (f, .ok ()) ∧
    ∃ info, readDOSFile reals f = .ok (info, [0, 1, 2], [1, 2, 1]) := by
  have hs : ∀ x ∈ [(1 : ℝ), 2, 1], Stored reals x := by
    intro x hx
    simp only [List.mem_cons, List.not_mem_nil, or_false] at hx
    rcases hx with rfl | rfl | rfl
    · exact_mod_cast reals_stored (n := 1) (by norm_num)
    · exact_mod_cast reals_stored (n := 2) (by norm_num)
    · exact_mod_cast reals_stored (n := 1) (by norm_num)
  have hd : Stored reals ((11 : ℝ) - 10) := by
    rw [show (11 : ℝ) - 10 = ((1 : ℕ) : ℝ) by norm_num]
    exact reals_stored (by norm_num)
  obtain ⟨f, h1, h2⟩ := C43_dos_partial reals 1 [] (E := [12]) empty_plain (by simp) hs hd (by norm_num)
  refine ⟨f, h1, ⟨"DOS".toList.map Char.toNat, 1, []⟩, ?_⟩
  rw [h2]
  simp [List.range_succ]
  norm_num

/-- C43, partial.  Energies in meV: `readDOS` gives the energies that `write` was given, if they are equidistant and start
at 0. -/
theorem C43_units_partial (c : Codec ℝ) {h d : ℝ} (old : List UInt8) {Z : List ℝ} {comment : List Nat} (hc : Plain comment)
    (hn : Z.length < 2 ^ 31) (hl : 2 ≤ Z.length) (hs : ∀ x ∈ Z, Stored c x) (hh : h ≠ 0) (hd : d ≠ 0)
    (hq : Stored c (d / h / 1e12 / 2 / Real.pi)) :
    ∃ f, writeDOS c h old ((List.range Z.length).map fun (i : ℕ) => (i : ℝ) * d) Z comment .meV = (f, .ok ()) ∧
      readDOS c h f = .ok ((List.range Z.length).map (fun (i : ℕ) => (i : ℝ) * d), Z) := by
  obtain ⟨n, hn2⟩ : ∃ n, Z.length = n + 2 := ⟨Z.length - 2, by omega⟩
  have hpi := Real.pi_ne_zero
  obtain ⟨E, hE⟩ : ∃ E, ((List.range Z.length).map fun (i : ℕ) => (i : ℝ) * d).map (fun e => e / h / 1e12 / 2 / Real.pi) =
      0 :: (d / h / 1e12 / 2 / Real.pi) :: E := by
    rw [hn2, List.range_succ_eq_map, List.range_succ_eq_map]
    exact ⟨_, by simp; rfl⟩
  have hsub : d / h / 1e12 / 2 / Real.pi - 0 = d / h / 1e12 / 2 / Real.pi := sub_zero _
  obtain ⟨f, h1, h2⟩ := C43_dos_partial c h old (e0 := 0) (e1 := d / h / 1e12 / 2 / Real.pi) (E := E) (Z := Z) hc hn hs
    (by rw [hsub]; exact hq) (by positivity)
  refine ⟨f, ?_, ?_⟩
  · rw [← h1]
    unfold writeDOS
    simp only [hE]
  · unfold readDOS
    rw [h2]
    simp only [bind, Except.bind, List.map_map]
    congr 2
    apply List.map_congr_left
    intro i _
    simp only [Function.comp, sub_zero]
    field_simp

/-- the hypotheses of `C43_units_partial` hold for a suitable unit -/
example : ∃ h d : ℝ, h ≠ 0 ∧ d ≠ 0 ∧ Stored reals (d / h / 1e12 / 2 / Real.pi) := by
  have hpi := Real.pi_ne_zero
  refine ⟨1, 3 * 1e12 * 2 * Real.pi, one_ne_zero, by positivity, ?_⟩
  rw [show 3 * 1e12 * 2 * Real.pi / 1 / 1e12 / 2 / Real.pi = ((3 : ℕ) : ℝ) by push_cast; field_simp]
  exact reals_stored (by norm_num)

/-- C148, partial.  A histogram S(Q, E) that is written is read again, if its axes are Q and energy in this order.  Missing: the
errors. -/
theorem C148_histogram_partial [Zero α] (c : Codec α) {q e : List α} {a : Arr α} {errs : List α}
    (ha : Has a [q.length - 1, e.length - 1]) (hq : q.length < 2 ^ 31) (he : e.length < 2 ^ 31)
    (hs : ∀ x ∈ a.data, Stored c x) (hsq : ∀ x ∈ q, Stored c x) (hse : ∀ x ∈ e, Stored c x) :
    ∃ f, writeSQE c ⟨[("Q", q), ("energy", e)], a, errs⟩ = .ok f ∧
      readSQE c f = .ok ⟨[("Q", q), ("energy", e)], a, List.replicate a.data.length 0⟩ := by
  obtain ⟨f1, w1, r1⟩ := C43_momenta c (a := ⟨[q.length, 1], q⟩) (n := q.length) (d := 1) empty_plain
    ⟨rfl, by simp, by simpa using hq⟩ hsq
  obtain ⟨f2, w2, r2⟩ := C43_energies c (E := e) empty_plain he hse
  obtain ⟨f3, w3, r3⟩ := C43_table c empty_plain ha hs
  refine ⟨(f1, f2, f3), ?_, ?_⟩
  · unfold writeSQE boundaries
    simp [w1, w2, w3, bind, Except.bind]
  · unfold readSQE
    simp only [r1, r2, r3, bind, Except.bind]
    rw [if_pos ha.form]

/-- a histogram of 2 by 2 with the axes in the given order -/
def square (l : List (String × List ℕ)) : Hist ℕ := ⟨l, ⟨[2, 2], [1, 2, 3, 4]⟩, [1, 2, 3, 4]⟩

/-- the hypotheses of `C148_histogram_partial` hold -/
example : Has (square []).data [[5, 6, 7].length - 1, [1, 2, 3].length - 1] ∧ (∀ x ∈ (square []).data.data, Stored nats x) := by
  refine ⟨⟨rfl, rfl, by decide⟩, fun n hn => nats_stored ?_⟩
  have : ∀ n ∈ (square []).data.data, n < 5 := by decide
  have := this n hn
  omega

/-- C148 is false for a histogram with the axes energy and Q in this order: what is read has the data exchanged, with the value at
the first energy and second Q in the place of the first Q and the second energy; the errors are lost in any case. -/
theorem C148_order_false : ∃ f, writeSQE nats (square [("energy", [1, 2, 3]), ("Q", [5, 6, 7])]) = .ok f ∧
    readSQE nats f = .ok ⟨[("Q", [5, 6, 7]), ("energy", [1, 2, 3])], ⟨[2, 2], [1, 2, 3, 4]⟩, [0, 0, 0, 0]⟩ := by
  have hs : ∀ l : List ℕ, (∀ n ∈ l, n < 8) → ∀ n ∈ l, Stored nats n := fun l h n hn => nats_stored (by have := h n hn; omega)
  obtain ⟨f, h1, h2⟩ := C148_histogram_partial nats (q := [5, 6, 7]) (e := [1, 2, 3]) (a := (square []).data) (errs := [])
    ⟨rfl, rfl, by decide⟩ (by norm_num) (by norm_num) (hs _ (by decide)) (hs _ (by decide)) (hs _ (by decide))
  refine ⟨f, ?_, h2⟩
  rw [← h1]
  unfold writeSQE boundaries
  simp [square]

end Verif.IdfPhonon
