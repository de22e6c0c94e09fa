import Verif.Lemmas.Storage
/-!
Property theorems for the neutron storage: C01, C02, C03, C51-C54.
-/

namespace Verif.Storage
open Verif.Spec

/-- Specification: all neutrons handed over by a history of calls, in order. -/
def handed {α} (ops : List (WOp α)) : List α :=
  ops.flatMap fun op => match op with
    | .write ns => ns
    | _ => []

/-- **C01** Any history of `write`/`flush` calls, interleaved with any activity
of the io layer, succeeds, and closing the storage afterwards leaves exactly the
old content followed by everything handed to `write`, in order. -/
theorem C01_close_log {α} (bufsize : Nat) (existing : List α) (ops : List (WOp α)) :
    ∃ w w', wrun (openWrite bufsize existing) ops = .ok w ∧ close w = .ok w' ∧
      w'.disk = existing ++ handed ops := by
  obtain ⟨w, e, hr, hc, -, ha, -⟩ := wrun_ok ops (openWrite bufsize existing) rfl rfl (Or.inl rfl)
  obtain ⟨w', e', hd, -⟩ := close_ok w hr hc
  refine ⟨w, w', e, e', ?_⟩
  rw [hd, ha]
  simp only [Writer.all, openWrite, List.append_nil, handed, List.flatMap_def]
  congr 2
  apply List.map_congr_left
  intro op _
  cases op <;> rfl

example : ∃ w w', wrun (openWrite 3 [0]) [.write [1, 2], .drain 1, .write [3, 4], .flush, .drain 7, .write [5]] = .ok w ∧
    close w = .ok w' ∧ w'.disk = [0, 1, 2, 3, 4, 5] :=
  C01_close_log 3 [0] [.write [1, 2], .drain 1, .write [3, 4], .flush, .drain 7, .write [5]]

/-- **C01** At every moment of every history the file is a prefix of (old content
++ everything handed over so far), and what has not even reached the stream is
less than one buffer (nothing, if the buffer size is 0). -/
theorem C01_prefix_and_bounded_loss {α} (bufsize : Nat) (existing : List α) (ops : List (WOp α))
    (w : Writer α) (h : wrun (openWrite bufsize existing) ops = .ok w) :
    ∃ inIoBuffer lost, existing ++ handed ops = w.disk ++ inIoBuffer ++ lost ∧
      inIoBuffer = w.pending ∧ (lost = [] ∨ lost.length < bufsize) := by
  obtain ⟨w', e, -, -, -, ha, hb⟩ := wrun_ok ops (openWrite bufsize existing) rfl rfl (Or.inl rfl)
  rw [e] at h
  cases h
  refine ⟨w.pending, w.buffer, ?_, rfl, hb⟩
  have : existing ++ handed ops = w.all := by
    rw [ha]
    simp only [Writer.all, openWrite, List.append_nil, handed, List.flatMap_def]
    congr 2
    apply List.map_congr_left
    intro op _
    cases op <;> rfl
  exact this

example : ∃ w, wrun (openWrite 3 [0]) [.write [1, 2], .write [3, 4], .drain 2, .write [5]] = .ok w ∧
    w.disk = [0, 1, 2] ∧ w.pending = [3, 4] ∧ w.buffer = [5] :=
  ⟨_, rfl, rfl, rfl, rfl⟩

/-- **C01** The records in the file only ever grow: a longer history has the
file content of the shorter one as a prefix (crash points are ordered). -/
theorem C01_monotone {α} (w w' : Writer α) (op : WOp α) (h : wstep w op = .ok w') :
    w.disk <+: w'.disk := by
  cases op with
  | write ns =>
    simp only [wstep, write, dump, writeNeutrons] at h
    split at h
    · cases h
    · split at h
      · split at h
        · cases h
        · simp only [bind, Except.bind, pure, Except.pure] at h
          split at h
          · cases h
          · rename_i h2; split at h2
            · cases h2
            · cases h2; cases h; exact List.prefix_rfl
      · cases h; exact List.prefix_rfl
  | flush =>
    simp only [wstep, flush, writeNeutrons] at h
    split at h
    · cases h
    · cases h; exact List.prefix_rfl
  | drain k =>
    simp only [wstep] at h
    cases h
    exact List.prefix_append _ _

example : wstep (openWrite 3 [0]) (.write [1, 2, 3, 4]) =
    .ok { openWrite 3 [0] with pending := [1, 2, 3, 4] } := rfl

/-- **C01** `write` on a storage opened for reading is refused. -/
theorem C01_readonly_refused {α} (w : Writer α) (ns : List α) (h : w.readonly = true) :
    write w ns = .error .runtimeError := by
  simp [write, h]

example : write { openWrite 3 [0] with readonly := true } [1] = .error .runtimeError :=
  C01_readonly_refused _ _ rfl

/-- **C51** (negation) After `flush` the neutrons need not be visible in the
file: `flush` hands them to the Python stream but does not flush the stream. -/
theorem C51_flush_not_durable_false :
    ∃ (w w' : Writer Nat), write (openWrite 10000 []) [1, 2, 3] = .ok w ∧ flush w = .ok w' ∧
      w'.disk = [] := ⟨_, _, rfl, rfl, rfl⟩

/-- **C51** What does hold: after `flush` nothing is left in the storage's own
buffer, and once the io layer has drained its buffer the file is complete.
Missing from the full statement: `flush` alone should make the file complete. -/
theorem C51_flush_partial {α} (bufsize : Nat) (existing : List α) (ops : List (WOp α)) (w w' : Writer α)
    (h : wrun (openWrite bufsize existing) ops = .ok w) (hf : flush w = .ok w') :
    w'.buffer = [] ∧ (drain w' w'.pending.length).disk = existing ++ handed ops := by
  obtain ⟨io, lost, hall, hio, -⟩ := C01_prefix_and_bounded_loss bufsize existing ops w h
  obtain ⟨w1, e, hr, hc, -, ha, hb⟩ := wrun_ok ops (openWrite bufsize existing) rfl rfl (Or.inl rfl)
  rw [e] at h; cases h
  have hall2 : existing ++ handed ops = w.all := by
    rw [ha]
    simp only [Writer.all, openWrite, List.append_nil, handed, List.flatMap_def]
    congr 2
    apply List.map_congr_left
    intro op _
    cases op <;> rfl
  simp only [flush, writeNeutrons, hc] at hf
  cases hf
  refine ⟨rfl, ?_⟩
  rw [hall2]
  simp [drain, Writer.all]
  rw [← List.length_append, List.take_length]

example : ∃ w w', wrun (openWrite 4 [0]) [.write [1, 2], .write [3]] = .ok w ∧ flush w = .ok w' ∧
    (drain w' w'.pending.length).disk = [0, 1, 2, 3] := ⟨_, _, rfl, rfl, rfl⟩

/-- **C52** (negation) Writing to a closed storage can succeed silently, and the
neutrons never reach the file, not even through a second `close`. -/
theorem C52_write_after_close_lost_false :
    ∃ (w w1 w2 w3 : Writer Nat), wrun (openWrite 10000 []) [.write [7]] = .ok w ∧ close w = .ok w1 ∧
      write w1 [1, 2, 3] = .ok w2 ∧ close w2 = .ok w3 ∧ w3.disk = [7] :=
  ⟨_, _, _, _, rfl, rfl, rfl, rfl, rfl⟩

/-- **C52** What does hold: a closed storage never changes its file, and a write
that fills the buffer is reported.  Missing: small writes are not reported. -/
theorem C52_write_after_close_partial {α} (w : Writer α) (ns : List α) (hr : w.readonly = false)
    (hc : w.closed = true) :
    (w.bufsize ≤ w.buffer.length + ns.length → write w ns = .error .valueError) ∧
    (∀ w', write w ns = .ok w' → w'.disk = w.disk ∧ w'.pending = w.pending) := by
  constructor
  · intro h
    simp [write, hr, dump, h, writeNeutrons, hc, bind, Except.bind]
  · intro w' h
    simp only [write, hr, dump, writeNeutrons, hc] at h
    split at h
    · cases h
    · split at h
      · cases h
      · cases h; exact ⟨rfl, rfl⟩

example : write { openWrite 2 [0] with closed := true } [1, 2] = .error .valueError :=
  (C52_write_after_close_partial _ _ rfl rfl).1 (by decide)

/-! ### reading -/

/-- **C02** `read(n)` with `n>0` and the cursor inside the file returns the
cyclic window of length `n` at the cursor and advances the cursor modulo the
number of records. -/
theorem C02_read_cyclic {α} (s : Reader α) (p n : Nat) (hpos : tell s = p) (hp : p < s.file.length)
    (hn : 0 < n) :
    ∃ out s', read s (some (n : Int)) true = .ok (some out, s') ∧
      IsCyclicWindow s.file p n out ∧ tell s' = ((p + n) % s.file.length : Nat) ∧ s'.file = s.file := by
  obtain ⟨out, e, hw⟩ := read_wrap s p n hpos hp hn
  exact ⟨out, _, e, hw, rfl, rfl⟩

example : ∃ s', read { file := [10, 11, 12], pos := 2, packetsize := none } (some 8) true =
    .ok (some [12, 10, 11, 12, 10, 11, 12, 10], s') ∧ tell s' = 1 := ⟨_, rfl, rfl⟩

/-- **C02** Reading in pieces is the same as reading at once: any sequence of
positive read sizes delivers the cyclic window of their sum. -/
theorem C02_split_reads {α} (s : Reader α) (p : Nat) (ns : List Nat) (hpos : tell s = p)
    (hp : p < s.file.length) (hn : ∀ n ∈ ns, 0 < n) :
    ∃ out s', readMany s (ns.map Int.ofNat) = .ok (out, s') ∧ IsCyclicWindow s.file p ns.sum out ∧
      tell s' = ((p + ns.sum) % s.file.length : Nat) := by
  obtain ⟨out, e, hw⟩ := readMany_window ns s p hpos hp hn
  exact ⟨out, _, e, hw, rfl⟩

example : ∃ s', readMany (openRead [10, 11, 12]) [2, 2, 5] =
    .ok ([10, 11, 12, 10, 11, 12, 10, 11, 12], s') ∧ tell s' = 0 := ⟨_, rfl, rfl⟩

/-- **C02** Two histories of reads with the same total deliver the same neutrons. -/
theorem C02_chunking_irrelevant {α} (s : Reader α) (p : Nat) (ns ms : List Nat) (hpos : tell s = p)
    (hp : p < s.file.length) (hn : ∀ n ∈ ns, 0 < n) (hm : ∀ n ∈ ms, 0 < n) (hs : ns.sum = ms.sum) :
    ∃ out s', readMany s (ns.map Int.ofNat) = .ok (out, s') ∧ readMany s (ms.map Int.ofNat) = .ok (out, s') := by
  obtain ⟨a, ea, wa⟩ := readMany_window ns s p hpos hp hn
  obtain ⟨b, eb, wb⟩ := readMany_window ms s p hpos hp hm
  rw [hs] at ea wa
  have := window_unique wa wb
  subst this
  exact ⟨a, _, ea, eb⟩

example : readMany (openRead [10, 11, 12]) [2, 2] = readMany (openRead [10, 11, 12]) [1, 3] := rfl

/-- **C02** Without wrapping, `read(n)` returns the records from the cursor up to
the end of the file at most. -/
theorem C02_read_nowrap {α} (s : Reader α) (p n : Nat) (hpos : tell s = p) (hp : p < s.file.length)
    (hn : 0 < n) :
    ∃ s', read s (some (n : Int)) false = .ok (some ((s.file.drop p).take n), s') ∧
      tell s' = (min (p + n) s.file.length : Nat) := by
  have hpos' : s.pos = p := hpos
  have hn0 : ¬ ((n : Int) = 0) := by omega
  by_cases hlt : p + n < s.file.length
  · refine ⟨{ s with pos := p + n }, ?_, ?_⟩
    · simp only [read, orDefault, if_neg hn0, hpos']
      rw [if_pos (by omega)]
      simp only [idfRead_ok s.file p n hn, bind, Except.bind, pure, Except.pure]
    · simp only [tell]; omega
  · refine ⟨{ s with pos := s.file.length }, ?_, ?_⟩
    · simp only [read, orDefault, if_neg hn0, hpos']
      rw [if_neg (by omega)]
      have h1 : (s.file.length : Int) - (p : Int) = ((s.file.length - p : Nat) : Int) := by omega
      rw [h1]
      simp only [idfRead_ok s.file p (s.file.length - p) (by omega), bind, Except.bind, pure, Except.pure]
      have : (s.file.drop p).take n = (s.file.drop p).take (s.file.length - p) := by
        rw [List.take_of_length_le (by simp; omega), List.take_of_length_le (by simp)]
      simp [this]
    · simp only [tell]; omega

example : ∃ s', read { file := [10, 11, 12], pos := 1, packetsize := none } (some 8) false =
    .ok (some [11, 12], s') ∧ tell s' = 3 := ⟨_, rfl, rfl⟩

/-- **C02** `read()` without a size returns everything from the cursor to the
end; this is how whole files are loaded when merging. -/
theorem C02_read_all {α} (s : Reader α) (p : Nat) (hpos : tell s = p) (hp : p < s.file.length)
    (hk : s.packetsize = none) :
    ∃ s', read s none true = .ok (some (s.file.drop p), s') ∧ tell s' = 0 ∧ s'.file = s.file := by
  have hpos' : s.pos = p := hpos
  refine ⟨{ s with pos := 0 }, ?_, rfl, rfl⟩
  have h1 : (s.file.length : Int) - (p : Int) = ((s.file.length - p : Nat) : Int) := by omega
  have e1 := idfRead_ok s.file p (s.file.length - p) (by omega)
  have hfin : (s.file.drop p).take (s.file.length - p) = s.file.drop p :=
    List.take_of_length_le (by simp)
  rw [hfin] at e1
  simp only [read, orDefault, hk, hpos', h1]
  rw [if_neg (by omega), if_neg (by omega)]
  simp only [e1, readWrap, bind, Except.bind, pure, Except.pure, if_true, Int.sub_self]
  rw [if_neg (by omega)]
  simp

example : ∃ s', read { file := [10, 11, 12], pos := 1, packetsize := none } none true =
    .ok (some [11, 12], s') ∧ tell s' = 0 := ⟨_, rfl, rfl⟩

/-- **C53** (negation) `read(0)` does not read nothing: it reads everything from
the cursor on and resets the cursor to the start of the file. -/
theorem C53_read_zero_false :
    ∃ (s s' : Reader Nat), tell s = 1 ∧ read s (some 0) true = .ok (some [11, 12], s') ∧ tell s' = 0 :=
  ⟨{ file := [10, 11, 12], pos := 1, packetsize := none }, _, rfl, rfl, rfl⟩

/-- **C53** What does hold: the cursor never leaves the file through a wrapping
read, whatever the size (0 included), and the file is never changed.
Missing: `read(0)` returns nothing. -/
theorem C53_read_cursor_stays_partial {α} (s s' : Reader α) (n : Nat) (out : Option (List α))
    (hpos : 0 ≤ tell s ∧ tell s < s.file.length) (hk : s.packetsize = none)
    (h : read s (some (n : Int)) true = .ok (out, s')) :
    0 ≤ tell s' ∧ tell s' < s'.file.length ∧ s'.file = s.file := by
  obtain ⟨p, hp⟩ : ∃ p : Nat, s.pos = p := ⟨s.pos.toNat, by simp only [tell] at hpos; omega⟩
  have hlt : p < s.file.length := by simp only [tell] at hpos; omega
  by_cases hn : n = 0
  · subst hn
    have h0 : read s (some ((0 : Nat) : Int)) true = read s none true := by
      simp [read, orDefault]
    obtain ⟨s1, e1, t1, f1⟩ := C02_read_all s p hp hlt hk
    rw [h0, e1] at h
    cases h
    exact ⟨by omega, by rw [f1]; omega, f1⟩
  · obtain ⟨o, e, -⟩ := read_wrap s p n hp hlt (by omega)
    rw [e] at h
    cases h
    have : (p + n) % s.file.length < s.file.length := Nat.mod_lt _ (by omega)
    simp only [tell, and_true]; omega

example : ∃ s', read { file := [10, 11, 12], pos := 1, packetsize := none } (some ((0 : Nat) : Int)) true =
    .ok (some [11, 12], s') := ⟨_, rfl⟩

/-- **C55** (negation) After a non-wrapping read has reached the end of the file,
a wrapping read does not start over from the beginning: it raises. -/
theorem C55_wrap_after_end_false :
    ∃ (s s1 : Reader Nat) (e : Err), read s (some 3) false = .ok (some [10, 11, 12], s1) ∧
      read s1 (some 2) true = .error e :=
  ⟨openRead [10, 11, 12], _, .valueError, rfl, rfl⟩

/-- **C55** What does hold: reading at the end of the file never delivers wrong
neutrons — it raises for every positive size and leaves the file alone.
Missing: it should start over. -/
theorem C55_wrap_after_end_partial {α} (s : Reader α) (n : Nat) (hn : 0 < n)
    (hpos : tell s = s.file.length) : ∃ e, read s (some (n : Int)) true = .error e := by
  have hpos' : s.pos = s.file.length := hpos
  have hn0 : ¬ ((n : Int) = 0) := by omega
  have e0 : idfRead s.file (s.file.length : Int) 0 = .ok none := by simp [idfRead]
  simp only [read, orDefault, if_neg hn0, hpos']
  rw [if_neg (by omega)]
  simp only [Int.sub_self, e0, bind, Except.bind, pure, Except.pure, if_true, readWrap, Int.sub_zero]
  by_cases hbig : (n : Int) ≥ (s.file.length : Int)
  · rw [if_pos hbig]
    by_cases hz : (s.file.length : Int) = 0
    · rw [if_pos hz]; exact ⟨_, rfl⟩
    · rw [if_neg hz, idfReadAll_ok s.file (by omega)]
      have hq : 0 < (n : Int) / (s.file.length : Int) := by
        have h1 : (1 : Int) * s.file.length ≤ n := by omega
        have := Int.le_ediv_of_mul_le (by omega : (0 : Int) < s.file.length) h1
        omega
      obtain ⟨k, hk⟩ : ∃ k : Nat, ((n : Int) / (s.file.length : Int)).toNat = k + 1 :=
        ⟨((n : Int) / (s.file.length : Int)).toNat - 1, by omega⟩
      simp only [hk, repeatConcat, npConcat, bind, Except.bind]
      exact ⟨_, rfl⟩
  · rw [if_neg hbig]
    have hpos2 : (n : Int) > 0 := by omega
    simp only [if_pos hpos2]
    have : idfRead s.file 0 (n : Int) = .ok (some ((s.file.drop 0).take n)) := idfRead_ok s.file 0 n hn
    simp only [this, npConcat]
    exact ⟨_, rfl⟩

example : read { file := [10, 11], pos := 2, packetsize := none } (some 5) true = .error .valueError := rfl

/-! ### seek / tell -/

/-- Specification of the reference point of a seek. -/
def seekBase {α} (s : Reader α) : Whence → Option Int
  | .start => some 0
  | .current => some (tell s)
  | .end => some s.file.length
  | .other => none

/-- **C03** `seek` with wrapping followed by `tell` gives the target modulo the
number of records, always a valid record number. -/
theorem C03_seek_wrap {α} (s : Reader α) (offset base : Int) (w : Whence) (hN : 0 < s.file.length)
    (hw : seekBase s w = some base) :
    (seek s offset w true).1 = .ok () ∧
    tell (seek s offset w true).2 = (base + offset) % s.file.length ∧
    0 ≤ tell (seek s offset w true).2 ∧ tell (seek s offset w true).2 < s.file.length := by
  have hne : ¬ ((s.file.length : Int) = 0) := by omega
  have key : ∀ p : Int, 0 ≤ p % (s.file.length : Int) ∧ p % (s.file.length : Int) < s.file.length :=
    fun p => ⟨Int.emod_nonneg _ hne, Int.emod_lt_of_pos _ (by omega)⟩
  cases w <;> simp only [seekBase, Option.some.injEq] at hw
  · subst hw; simp only [seek, if_neg hne, tell, if_true, Int.zero_add, true_and]; exact key _
  · subst hw; simp only [seek, if_neg hne, tell, if_true, true_and]; exact key _
  · subst hw; simp only [seek, if_neg hne, tell, if_true, true_and]; exact key _
  · cases hw

example : tell (seek (openRead [10, 11, 12]) (-4) .end true).2 = 2 := rfl

/-- **C03** `seek` without wrapping accepts exactly the targets inside the file
and stores them unchanged. -/
theorem C03_seek_nowrap {α} (s : Reader α) (offset base : Int) (w : Whence)
    (hw : seekBase s w = some base) :
    (0 ≤ base + offset ∧ base + offset < s.file.length →
      (seek s offset w false).1 = .ok () ∧ tell (seek s offset w false).2 = base + offset) ∧
    (¬ (0 ≤ base + offset ∧ base + offset < s.file.length) →
      (seek s offset w false).1 = .error .runtimeError) := by
  cases w <;> simp only [seekBase, Option.some.injEq] at hw <;> try (cases hw)
  all_goals
    constructor
    · intro h
      try simp only [tell] at h
      simp only [tell]
      simp only [seek, Bool.false_eq_true, if_false]
      rw [if_neg (by omega)]
      simp
    · intro h
      try simp only [tell] at h
      simp only [seek, Bool.false_eq_true, if_false]
      rw [if_pos (by omega)]

example : (seek (openRead [10, 11, 12]) 2 .start false).1 = .ok () ∧
    (seek (openRead [10, 11, 12]) 3 .start false).1 = .error .runtimeError := ⟨rfl, rfl⟩

/-- **C54** (negation) A refused `seek` still moves the cursor, outside the file;
the next `read` then fails. -/
theorem C54_failed_seek_moves_cursor_false :
    ∃ (s : Reader Nat) (e : Err), tell s = 0 ∧ (seek s (-1) .start false).1 = .error e ∧
      tell (seek s (-1) .start false).2 = -1 ∧
      read (seek s (-1) .start false).2 (some 1) true = .error .assertionError :=
  ⟨openRead [10, 11], .runtimeError, rfl, rfl, rfl, rfl⟩

/-- **C54** What does hold: a `seek` refused because of its `whence` argument
leaves the reader unchanged, and every refused seek leaves the file content
unchanged.  Missing: out-of-bound seeks leave the cursor alone. -/
theorem C54_failed_seek_partial {α} (s : Reader α) (offset : Int) (w : Whence) (wrap : Bool) (e : Err)
    (h : (seek s offset w wrap).1 = .error e) :
    (seek s offset w wrap).2.file = s.file ∧ (e = .valueError → (seek s offset w wrap).2 = s) := by
  cases w <;> cases wrap <;> simp only [seek, if_true, Bool.false_eq_true, if_false] at h ⊢ <;>
    (try split at h) <;> simp_all
  all_goals (first | (intro he; subst he; simp at h) | skip)

example : (seek (openRead [1, 2]) 0 .other false).1 = .error .valueError := rfl

end Verif.Storage
