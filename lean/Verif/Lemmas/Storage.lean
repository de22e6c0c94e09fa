import Verif.Model.Storage
import Verif.Spec.Storage
/-! Helper lemmas about the storage model. -/

namespace Verif.Storage
open Verif.Spec

/-! ### writer -/

/-- Everything the writer has accepted so far. -/
def Writer.all {α} (w : Writer α) : List α := w.disk ++ w.pending ++ w.buffer

/-- neutrons carried by one step -/
def WOp.payload {α} : WOp α → List α
  | .write ns => ns
  | .flush => []
  | .drain _ => []

theorem wstep_ok {α} (w : Writer α) (op : WOp α) (hr : w.readonly = false) (hc : w.closed = false) :
    ∃ w', wstep w op = .ok w' ∧ w'.readonly = false ∧ w'.closed = false ∧ w'.bufsize = w.bufsize ∧
      w'.all = w.all ++ op.payload ∧
      ((w.buffer = [] ∨ w.buffer.length < w.bufsize) → (w'.buffer = [] ∨ w'.buffer.length < w.bufsize)) := by
  cases op with
  | write ns =>
    by_cases h : w.buffer.length + ns.length ≥ w.bufsize
    · refine ⟨{ w with pending := w.pending ++ w.buffer ++ ns, buffer := [] }, ?_, ?_⟩
      · simp [wstep, write, dump, writeNeutrons, hr, hc, h, bind, Except.bind, pure, Except.pure]
      · simp [hr, hc, Writer.all, WOp.payload]
    · refine ⟨{ w with buffer := w.buffer ++ ns }, ?_, ?_⟩
      · simp [wstep, write, dump, hr, h]
      · refine ⟨hr, hc, rfl, ?_, ?_⟩
        · simp [Writer.all, WOp.payload]
        · intro _; right; simp; omega
  | flush =>
    refine ⟨{ w with pending := w.pending ++ w.buffer, buffer := [] }, ?_, ?_⟩
    · simp [wstep, flush, writeNeutrons, hc, bind, Except.bind, pure, Except.pure]
    · simp [hr, hc, Writer.all, WOp.payload]
  | drain k =>
    refine ⟨drain w k, rfl, ?_⟩
    refine ⟨hr, hc, rfl, ?_, ?_⟩
    · simp only [Writer.all, WOp.payload, drain, List.append_nil]
      rw [List.append_assoc, List.append_assoc, List.append_assoc, ← List.append_assoc (w.pending.take k),
        List.take_append_drop]
    · simp [drain]

theorem wrun_ok {α} (ops : List (WOp α)) : ∀ (w : Writer α), w.readonly = false → w.closed = false →
    (w.buffer = [] ∨ w.buffer.length < w.bufsize) →
    ∃ w', wrun w ops = .ok w' ∧ w'.readonly = false ∧ w'.closed = false ∧ w'.bufsize = w.bufsize ∧
      w'.all = w.all ++ (ops.map WOp.payload).flatten ∧
      (w'.buffer = [] ∨ w'.buffer.length < w.bufsize) := by
  induction ops with
  | nil => intro w hr hc hb; exact ⟨w, rfl, hr, hc, rfl, by simp, hb⟩
  | cons op ops ih =>
    intro w hr hc hb
    obtain ⟨w1, e1, hr1, hc1, hs1, ha1, hb1⟩ := wstep_ok w op hr hc
    obtain ⟨w2, e2, hr2, hc2, hs2, ha2, hb2⟩ := ih w1 hr1 hc1 (by rw [hs1]; exact hb1 hb)
    refine ⟨w2, ?_, hr2, hc2, by rw [hs2, hs1], ?_, by rw [← hs1]; exact hb2⟩
    · simp [wrun, e1, e2, bind, Except.bind]
    · rw [ha2, ha1]; simp

theorem close_ok {α} (w : Writer α) (hr : w.readonly = false) (hc : w.closed = false) :
    ∃ w', close w = .ok w' ∧ w'.disk = w.all ∧ w'.pending = [] ∧ w'.buffer = [] ∧ w'.closed = true := by
  refine ⟨{ w with disk := w.disk ++ (w.pending ++ w.buffer), pending := [], buffer := [], closed := true }, ?_, ?_⟩
  · simp [close, flush, writeNeutrons, drain, hr, hc, bind, Except.bind, pure, Except.pure]
    rw [← List.length_append, List.take_length]
  · simp [Writer.all]

/-! ### windows -/

theorem window_unique {α} {file : List α} {p n : Nat} {a b : List α}
    (ha : IsCyclicWindow file p n a) (hb : IsCyclicWindow file p n b) : a = b := by
  apply List.ext_getElem?
  intro k
  by_cases hk : k < n
  · rw [ha.2 k hk, hb.2 k hk]
  · rw [List.getElem?_eq_none, List.getElem?_eq_none]
    · have := hb.1; omega
    · have := ha.1; omega

theorem window_nil {α} (file : List α) (p : Nat) : IsCyclicWindow file p 0 [] :=
  ⟨rfl, by intro k hk; omega⟩

theorem window_slice {α} (file : List α) (p n : Nat) (h : p + n ≤ file.length) :
    IsCyclicWindow file p n ((file.drop p).take n) := by
  refine ⟨by simp; omega, ?_⟩
  intro k hk
  rw [List.getElem?_take_of_lt hk, List.getElem?_drop, Nat.mod_eq_of_lt (by omega)]

theorem window_append {α} {file : List α} {p n m : Nat} {a b : List α}
    (ha : IsCyclicWindow file p n a) (hb : IsCyclicWindow file ((p + n) % file.length) m b) :
    IsCyclicWindow file p (n + m) (a ++ b) := by
  refine ⟨by simp [ha.1, hb.1], ?_⟩
  intro k hk
  by_cases h : k < n
  · rw [List.getElem?_append_left (by rw [ha.1]; exact h), ha.2 k h]
  · have hle : n ≤ k := Nat.le_of_not_lt h
    rw [List.getElem?_append_right (by rw [ha.1]; exact hle), ha.1, hb.2 (k - n) (by omega)]
    congr 1
    rw [Nat.mod_add_mod]
    congr 1; omega

theorem window_whole {α} (file : List α) : IsCyclicWindow file 0 file.length file := by
  have := window_slice file 0 file.length (by omega)
  simpa using this

/-- the copies-of-the-whole-file loop -/
theorem repeatConcat_window {α} (file : List α) (p : Nat) : ∀ (k n : Nat) (a : List α),
    IsCyclicWindow file p n a → (p + n) % file.length = 0 →
    ∃ b, repeatConcat (some a) (some file) k = .ok (some b) ∧
      IsCyclicWindow file p (n + k * file.length) b := by
  intro k
  induction k with
  | zero => intro n a ha _; exact ⟨a, rfl, by simpa using ha⟩
  | succ k ih =>
    intro n a ha h0
    have hw : IsCyclicWindow file p (n + file.length) (a ++ file) := by
      apply window_append ha; rw [h0]; exact window_whole file
    obtain ⟨b, e, hb⟩ := ih (n + file.length) (a ++ file) hw (by
      rw [← Nat.add_assoc, Nat.add_mod_right]; exact h0)
    refine ⟨b, ?_, ?_⟩
    · simp [repeatConcat, npConcat, e, bind, Except.bind]
    · have : n + (k + 1) * file.length = n + file.length + k * file.length := by
        rw [Nat.add_mul]; omega
      rw [this]; exact hb

theorem idfRead_ok {α} (file : List α) (start n : Nat) (hn : 0 < n) :
    idfRead file (start : Int) (n : Int) = .ok (some ((file.drop start).take n)) := by
  have h1 : ¬ ((n : Int) = 0) := by omega
  have h2 : (start : Int) ≥ 0 ∧ (n : Int) > 0 := by omega
  simp only [idfRead, if_neg h1, if_pos h2, Int.toNat_natCast]

theorem idfReadAll_ok {α} (file : List α) (h : 0 < file.length) :
    idfReadAll file = .ok (some file) := by
  have := idfRead_ok file 0 file.length h
  simpa [idfReadAll] using this

/-- closed form of `read` with wrapping, positive size and cursor inside the file -/
theorem read_wrap {α} (s : Reader α) (p n : Nat) (hpos : s.pos = p) (hp : p < s.file.length) (hn : 0 < n) :
    ∃ out, read s (some (n : Int)) true = .ok (some out, { s with pos := (((p + n) % s.file.length : Nat) : Int) }) ∧
      IsCyclicWindow s.file p n out := by
  have hN : 0 < s.file.length := by omega
  have hn0 : ¬ ((n : Int) = 0) := by omega
  by_cases hlt : p + n < s.file.length
  · refine ⟨(s.file.drop p).take n, ?_, window_slice _ _ _ (by omega)⟩
    have h1 : s.pos + (n : Int) < (s.file.length : Int) := by omega
    have e := idfRead_ok s.file p n hn
    simp only [read, orDefault, if_neg hn0, hpos]
    rw [if_pos (by omega)]
    simp only [e, bind, Except.bind, pure, Except.pure]
    rw [Nat.mod_eq_of_lt hlt]
    simp
  · have hge : ¬ (s.pos + (n : Int) < (s.file.length : Int)) := by omega
    obtain ⟨n1, hn1⟩ : ∃ n1 : Nat, n1 = s.file.length - p := ⟨_, rfl⟩
    obtain ⟨n2, hn2⟩ : ∃ n2 : Nat, n2 = n - n1 := ⟨_, rfl⟩
    have hnn : n = n1 + n2 := by omega
    have hn1' : (s.file.length : Int) - (p : Int) = (n1 : Int) := by omega
    have hn2' : (n : Int) - (n1 : Int) = (n2 : Int) := by omega
    have hwrap0 : (p + n1) % s.file.length = 0 := by
      have : p + n1 = s.file.length := by omega
      rw [this, Nat.mod_self]
    have e1 : idfRead s.file (p : Int) (n1 : Int) = .ok (some ((s.file.drop p).take n1)) :=
      idfRead_ok s.file p n1 (by omega)
    have w1 : IsCyclicWindow s.file p n1 ((s.file.drop p).take n1) := window_slice _ _ _ (by omega)
    -- result of the wrapping branch
    have key : ∃ out, readWrap s (n : Int) (n1 : Int) (some ((s.file.drop p).take n1)) =
        .ok (some out, ((n2 % s.file.length : Nat) : Int)) ∧ IsCyclicWindow s.file p n out := by
      by_cases hbig : s.file.length ≤ n2
      · obtain ⟨b, eb, wb⟩ := repeatConcat_window s.file p (n2 / s.file.length) n1 _ w1 hwrap0
        have hall := idfReadAll_ok s.file hN
        have c1 : (n2 : Int) ≥ (s.file.length : Int) := by omega
        have c2 : ¬ ((s.file.length : Int) = 0) := by omega
        have hdiv : ((n2 : Int) / (s.file.length : Int)) = ((n2 / s.file.length : Nat) : Int) := by
          exact (Int.natCast_ediv n2 s.file.length).symm
        have hmod : (n2 : Int) - ((n2 / s.file.length : Nat) : Int) * (s.file.length : Int)
            = ((n2 % s.file.length : Nat) : Int) := by
          have := Nat.div_add_mod n2 s.file.length
          have h2 : ((s.file.length * (n2 / s.file.length) + n2 % s.file.length : Nat) : Int) = (n2 : Int) := by
            rw [this]
          rw [Int.natCast_add, Int.natCast_mul, Int.mul_comm] at h2
          omega
        have hmlt : n2 % s.file.length < s.file.length := Nat.mod_lt _ hN
        have c3 : ((n2 % s.file.length : Nat) : Int) < (s.file.length : Int) := by omega
        have hpn : (p + (n1 + n2 / s.file.length * s.file.length)) % s.file.length = 0 := by
          rw [← Nat.add_assoc, Nat.add_mul_mod_self_right]; exact hwrap0
        have hnsum : n = n1 + n2 / s.file.length * s.file.length + n2 % s.file.length := by
          have := Nat.div_add_mod n2 s.file.length
          rw [Nat.mul_comm] at this; omega
        by_cases hm : n2 % s.file.length = 0
        · refine ⟨b, ?_, ?_⟩
          · simp only [readWrap, hn2', if_pos c1, if_neg c2, hall, hdiv, Int.toNat_natCast, eb, hmod,
              if_pos c3, bind, Except.bind, pure, Except.pure]
            rw [if_neg (by omega)]
          · rw [hnsum, hm, Nat.add_zero]; exact wb
        · have hmp : 0 < n2 % s.file.length := by omega
          have e2 := idfRead_ok s.file 0 (n2 % s.file.length) hmp
          refine ⟨b ++ (s.file.drop 0).take (n2 % s.file.length), ?_, ?_⟩
          · simp only [readWrap, hn2', if_pos c1, if_neg c2, hall, hdiv, Int.toNat_natCast, eb, hmod,
              if_pos c3, bind, Except.bind, pure, Except.pure]
            rw [if_pos (by omega)]
            have e2' : idfRead s.file 0 ((n2 % s.file.length : Nat) : Int) =
              .ok (some ((s.file.drop 0).take (n2 % s.file.length))) := e2
            simp only [e2', npConcat]
          · have w2 := window_append wb (by
              rw [hpn]; exact window_slice s.file 0 (n2 % s.file.length) (by omega))
            rw [← hnsum] at w2; exact w2
      · have hlt2 : n2 < s.file.length := by omega
        have c1 : ¬ ((n2 : Int) ≥ (s.file.length : Int)) := by omega
        rw [Nat.mod_eq_of_lt hlt2]
        by_cases hm : n2 = 0
        · refine ⟨(s.file.drop p).take n1, ?_, ?_⟩
          · simp only [readWrap, hn2', if_neg c1, bind, Except.bind, pure, Except.pure]
            rw [if_neg (by omega)]
          · rw [hnn, hm, Nat.add_zero]; exact w1
        · have e2 : idfRead s.file 0 (n2 : Int) = .ok (some ((s.file.drop 0).take n2)) :=
            idfRead_ok s.file 0 n2 (by omega)
          refine ⟨(s.file.drop p).take n1 ++ (s.file.drop 0).take n2, ?_, ?_⟩
          · simp only [readWrap, hn2', if_neg c1, bind, Except.bind, pure, Except.pure]
            rw [if_pos (by omega)]
            simp only [e2, npConcat]
          · have w2 := window_append w1 (by
              rw [hwrap0]; exact window_slice s.file 0 n2 (by omega))
            rw [← hnn] at w2; exact w2
    obtain ⟨out, eo, wo⟩ := key
    refine ⟨out, ?_, wo⟩
    have hpp : (p + n) % s.file.length = n2 % s.file.length := by
      have : p + n = s.file.length + n2 := by omega
      rw [this, Nat.add_mod_left]
    simp only [read, orDefault, if_neg hn0, hpos]
    rw [if_neg (by omega)]
    simp only [hn1', e1, eo, bind, Except.bind, pure, Except.pure, hpp]
    simp

theorem readMany_window {α} (ns : List Nat) : ∀ (s : Reader α) (p : Nat), s.pos = p → p < s.file.length →
    (∀ n ∈ ns, 0 < n) →
    ∃ out, readMany s (ns.map Int.ofNat) =
        .ok (out, { s with pos := (((p + ns.sum) % s.file.length : Nat) : Int) }) ∧
      IsCyclicWindow s.file p ns.sum out := by
  induction ns with
  | nil =>
    intro s p hpos hp _
    refine ⟨[], ?_, by simpa using window_nil s.file p⟩
    simp [readMany, Nat.mod_eq_of_lt hp, ← hpos]
  | cons n ns ih =>
    intro s p hpos hp hall
    obtain ⟨a, ea, wa⟩ := read_wrap s p n hpos hp (hall n (by simp))
    have hN : 0 < s.file.length := by omega
    obtain ⟨b, eb, wb⟩ := ih { s with pos := (((p + n) % s.file.length : Nat) : Int) }
      ((p + n) % s.file.length) rfl (Nat.mod_lt _ hN) (fun m hm => hall m (by simp [hm]))
    refine ⟨a ++ b, ?_, ?_⟩
    · simp only [List.map_cons, readMany, Int.ofNat_eq_natCast, ea, bind, Except.bind, pure, Except.pure]
      have eb' := eb
      rw [show (List.map Int.ofNat ns) = List.map (fun n : Nat => (n : Int)) ns from rfl] at *
      rw [eb']
      simp [Nat.add_assoc]
    · simp only [List.sum_cons]
      exact window_append wa wb

end Verif.Storage
