import Mathlib.Algebra.BigOperators.Group.List.Basic
import Mathlib.Algebra.BigOperators.Ring.List
import Mathlib.Tactic.FieldSimp
import Mathlib.Tactic.Ring
import Verif.Model.StorageFiles
import Verif.Lemmas.Storage
/-! Helper lemmas about whole-file operations. -/

namespace Verif.Storage
open Verif.Spec

theorem write_ok {α} (w : Writer α) (ns : List α) (hr : w.readonly = false) (hc : w.closed = false) :
    ∃ w', write w ns = .ok w' ∧ w'.readonly = false ∧ w'.closed = false ∧ w'.all = w.all ++ ns := by
  obtain ⟨w', e, h1, h2, -, h3, -⟩ := wstep_ok w (.write ns) hr hc
  exact ⟨w', e, h1, h2, h3⟩

theorem read_whole {α} (file : List α) (h : 0 < file.length) :
    ∃ s', read (openRead file) none = .ok (some file, s') := by
  refine ⟨{ openRead file with pos := 0 }, ?_⟩
  have e1 := idfRead_ok file 0 file.length h
  simp only [List.drop_zero, List.take_length] at e1
  have e1' : idfRead file 0 (file.length : Int) = .ok (some file) := e1
  simp only [read, orDefault, openRead, Int.sub_zero, Int.zero_add]
  rw [if_neg (by omega), if_neg (by omega)]
  simp only [e1', readWrap, bind, Except.bind, pure, Except.pure, if_true, Int.sub_self]
  rw [if_neg (by omega)]
  simp

theorem read_empty {α} : read (openRead ([] : List α)) none = .ok (none, openRead []) := rfl

theorem mergeLoop_ok {α} (fs : FS α) : ∀ (paths : List String) (out : Writer α),
    out.readonly = false → out.closed = false → (∀ p ∈ paths, (fs p).isSome) →
    ∃ out', mergeLoop fs paths out = (out', none) ∧ out'.readonly = false ∧ out'.closed = false ∧
      out'.all = out.all ++ paths.flatMap (fun p => (fs p).getD []) := by
  intro paths
  induction paths with
  | nil => intro out hr hc _; exact ⟨out, rfl, hr, hc, by simp⟩
  | cons p ps ih =>
    intro out hr hc hall
    obtain ⟨file, hf⟩ : ∃ file, fs p = some file := Option.isSome_iff_exists.mp (hall p (by simp))
    have hps : ∀ q ∈ ps, (fs q).isSome := fun q hq => hall q (by simp [hq])
    cases file with
    | nil =>
      obtain ⟨out', e, h1, h2, h3⟩ := ih out hr hc hps
      refine ⟨out', ?_, h1, h2, ?_⟩
      · simp [mergeLoop, hf, read_empty, e]
      · simp [h3, hf]
    | cons a l =>
      obtain ⟨s', es⟩ := read_whole (a :: l) (by simp)
      obtain ⟨w', ew, hr', hc', ha'⟩ := write_ok out (a :: l) hr hc
      obtain ⟨out', e, h1, h2, h3⟩ := ih w' hr' hc' hps
      refine ⟨out', ?_, h1, h2, ?_⟩
      · simp [mergeLoop, hf, es, ew, e]
      · simp [h3, ha', hf]

theorem FS.set_same {α} (fs : FS α) (p : String) (c : Option (List α)) : (fs.set p c) p = c := by
  simp [FS.set]

theorem FS.set_other {α} (fs : FS α) (p q : String) (c : Option (List α)) (h : q ≠ p) :
    (fs.set p c) q = fs q := by simp [FS.set, h]

theorem FS.set_set {α} (fs : FS α) (p : String) (c d : Option (List α)) :
    (fs.set p c).set p d = fs.set p d := by
  funext q; simp only [FS.set]; split <;> rfl

theorem normalizeLoop_ok {α} (f : α → α) (chunk : Nat) (hchunk : 0 < chunk) :
    ∀ (remain : Nat) (input : Reader α) (out : Writer α),
    (remain ≠ 0 → input.pos = ((input.file.length - remain : Nat) : Int)) → remain ≤ input.file.length →
    out.readonly = false → out.closed = false →
    ∃ out', normalizeLoop f chunk remain input out = .ok out' ∧ out'.readonly = false ∧ out'.closed = false ∧
      out'.all = out.all ++ (input.file.drop (input.file.length - remain)).map f := by
  intro remain
  induction remain using Nat.strongRecOn with
  | _ remain ih =>
    intro input out hpos hle hr hc
    by_cases h0 : remain = 0
    · refine ⟨out, ?_, hr, hc, ?_⟩
      · unfold normalizeLoop; simp [h0]
      · simp [h0]
    · unfold normalizeLoop
      have hne : ¬ (remain = 0 ∨ chunk = 0) := by omega
      rw [dif_neg hne]
      have hp := hpos h0
      obtain ⟨a, ea, wa⟩ := read_wrap input (input.file.length - remain) (min remain chunk) hp
        (by omega) (by omega)
      have ha : a = (input.file.drop (input.file.length - remain)).take (min remain chunk) :=
        window_unique wa (window_slice _ _ _ (by omega))
      obtain ⟨w', ew, hr', hc', hall'⟩ := write_ok out (a.map f) hr hc
      obtain ⟨out', e, h1, h2, h3⟩ := ih (remain - min remain chunk) (by omega)
        { input with pos := (((input.file.length - remain + min remain chunk) % input.file.length : Nat) : Int) }
        w' (by
          intro hne0
          have : input.file.length - remain + min remain chunk < input.file.length := by omega
          simp only [Nat.mod_eq_of_lt this]
          congr 1; omega) (by simp only; omega) hr' hc'
      refine ⟨out', ?_, h1, h2, ?_⟩
      · simp only [ea, ew, e]
      · rw [h3, hall', ha]
        simp only [List.append_assoc, ← List.map_append]
        congr 2
        have : input.file.length - (remain - min remain chunk) =
            input.file.length - remain + min remain chunk := by omega
        rw [this, ← List.drop_drop, List.take_append_drop]

/-! ### crash states -/

theorem runOps_append {α} (fs : FS α) (a b : List (FsOp α)) :
    runOps fs (a ++ b) = runOps (runOps fs a) b := by
  simp [runOps]

theorem crash_untouched {α} (file : String) (c : Option (List α)) : ∀ (ops : List (FsOp α)) (fs fs' : FS α),
    fs file = c →
    (∀ op ∈ ops, (match op with
      | .create p => p ≠ file | .append p _ => p ≠ file | .remove p => p ≠ file
      | .rename a b => a ≠ file ∧ b ≠ file)) →
    (Crash fs ops fs' ∨ fs' = runOps fs ops) → fs' file = c := by
  intro ops
  induction ops with
  | nil =>
    intro fs fs' h _ hcr
    rcases hcr with hcr | hcr
    · cases hcr; exact h
    · subst hcr; exact h
  | cons op ops ih =>
    intro fs fs' h hop hcr
    have hop1 := hop op (by simp)
    have happ : (op.apply fs) file = c := by
      cases op <;> simp only [FsOp.apply] at *
      · rw [FS.set_other _ _ _ _ (Ne.symm hop1), h]
      · rw [FS.set_other _ _ _ _ (Ne.symm hop1), h]
      · rw [FS.set_other _ _ _ _ (Ne.symm hop1), h]
      · rw [FS.set_other _ _ _ _ (Ne.symm hop1.1), FS.set_other _ _ _ _ (Ne.symm hop1.2), h]
    rcases hcr with hcr | hcr
    · cases hcr with
      | torn ht =>
        cases ht with
        | before => exact h
        | after => exact happ
        | middle p rs k =>
          simp only [FsOp.apply]
          simp only at hop1
          rw [FS.set_other _ _ _ _ (Ne.symm hop1), h]
      | later hl =>
        exact ih (op.apply fs) fs' happ (fun o ho => hop o (by simp [ho])) (Or.inl hl)
    · exact ih (op.apply fs) fs' happ (fun o ho => hop o (by simp [ho])) (Or.inr hcr)

theorem crash_append {α} : ∀ (a b : List (FsOp α)) (fs fs' : FS α), Crash fs (a ++ b) fs' →
    Crash fs a fs' ∨ Crash (runOps fs a) b fs' := by
  intro a
  induction a with
  | nil => intro b fs fs' h; exact Or.inr h
  | cons op a ih =>
    intro b fs fs' h
    cases h with
    | torn ht => exact Or.inl (.torn ht)
    | later hl =>
      rcases ih b (op.apply fs) fs' hl with h | h
      · exact Or.inl (.later h)
      · exact Or.inr h

theorem runOps_appends {α} (tmp : String) : ∀ (batches : List (List α)) (fs : FS α) (c : List α),
    fs tmp = some c → (runOps fs (batches.map (.append tmp))) tmp = some (c ++ batches.flatten) := by
  intro batches
  induction batches with
  | nil => intro fs c h; simp [runOps, h]
  | cons b bs ih =>
    intro fs c h
    have := ih (FsOp.apply fs (.append tmp b)) (c ++ b) (by simp [FsOp.apply, FS.set, h])
    simpa [runOps, List.append_assoc] using this

/-! ### intensities -/

theorem sum_scale {F} [Field F] (k : F) (l : List (Neutron F)) :
    ((l.map (scaleRow k)).map Neutron.p).sum = (l.map Neutron.p).sum / k := by
  induction l with
  | nil => simp
  | cons a l ih =>
    simp only [List.map_cons, List.sum_cons, ih, scaleRow]
    ring

/-! ### replay -/

theorem replayRank_ok {α} (file : List α) (hN : 0 < file.length) (cursor i n : Nat) (hn : 0 < n)
    (s : Reader α) (hs : s.file = file) :
    ∃ a s', replayRank (cursor : Int) i n s = .ok (a, s') ∧ s'.file = file ∧
      IsCyclicWindow file ((cursor + i * n) % file.length) n a := by
  subst hs
  have hne : ¬ ((s.file.length : Int) = 0) := by omega
  have e1 : seek s ((cursor : Int) + i * n) .start true =
      (.ok (), { s with pos := (((cursor + i * n) % s.file.length : Nat) : Int) }) := by
    simp only [seek, if_true, if_neg hne]
    congr 1
  obtain ⟨a, ea, wa⟩ := read_wrap { s with pos := (((cursor + i * n) % s.file.length : Nat) : Int) }
    ((cursor + i * n) % s.file.length) n rfl (Nat.mod_lt _ hN) hn
  refine ⟨a, { s with pos := (((cursor + i * n) % s.file.length + n) % s.file.length : Nat) }, ?_, rfl, wa⟩
  simp only [replayRank, e1, ea]

theorem replayRanks_ok {α} (file : List α) (hN : 0 < file.length) (cursor n : Nat) (hn : 0 < n) :
    ∀ (ss : List (Reader α)) (i : Nat), (∀ s ∈ ss, s.file = file) →
    ∃ as ss', replayRanks (cursor : Int) n i ss = .ok (as, ss') ∧ ss'.length = ss.length ∧
      as.length = ss.length ∧ (∀ s ∈ ss', s.file = file) ∧
      (∀ j, j < ss.length → ∃ a, as[j]? = some a ∧
        IsCyclicWindow file ((cursor + (i + j) * n) % file.length) n a) ∧
      IsCyclicWindow file ((cursor + i * n) % file.length) (ss.length * n) as.flatten := by
  intro ss
  induction ss with
  | nil =>
    intro i _
    exact ⟨[], [], rfl, rfl, rfl, by simp, by simp, by simpa using window_nil file _⟩
  | cons s ss ih =>
    intro i hall
    obtain ⟨a, s', ea, hs', wa⟩ := replayRank_ok file hN cursor i n hn s (hall s (by simp))
    obtain ⟨as, ss', eas, hl, hl2, hf, hj, hw⟩ := ih (i + 1) (fun t ht => hall t (by simp [ht]))
    refine ⟨a :: as, s' :: ss', ?_, by simp [hl], by simp [hl2], ?_, ?_, ?_⟩
    · simp [replayRanks, ea, eas, bind, Except.bind, pure, Except.pure]
    · intro t ht
      rcases List.mem_cons.mp ht with rfl | ht
      · exact hs'
      · exact hf t ht
    · intro j hjl
      cases j with
      | zero => exact ⟨a, rfl, by simpa using wa⟩
      | succ j =>
        obtain ⟨b, hb, wb⟩ := hj j (by simp at hjl; omega)
        refine ⟨b, by simpa using hb, ?_⟩
        rw [show i + (j + 1) = i + 1 + j by omega]; exact wb
    · simp only [List.flatten_cons, List.length_cons]
      have : (ss.length + 1) * n = n + ss.length * n := by rw [Nat.add_mul]; omega
      rw [this]
      apply window_append wa
      have : ((cursor + i * n) % file.length + n) % file.length = (cursor + (i + 1) * n) % file.length := by
        rw [Nat.mod_add_mod, Nat.add_assoc, Nat.add_mul, Nat.one_mul]
      rw [this]; exact hw

theorem replay_ok {α} (file : List α) (hN : 0 < file.length) :
    ∀ (ns : List Nat) (cursor : Nat) (ss : List (Reader α)), (∀ s ∈ ss, s.file = file) →
    (∀ n ∈ ns, 0 < n) →
    ∃ out, replay (cursor : Int) ss ns = .ok out ∧ out.length = ns.length ∧
      (∀ t n, ns[t]? = some n → ∀ j, j < ss.length → ∃ as a, out[t]? = some as ∧ as[j]? = some a ∧
        IsCyclicWindow file ((cursor + ss.length * (ns.take t).sum + j * n) % file.length) n a) ∧
      IsCyclicWindow file (cursor % file.length) (ss.length * ns.sum) out.flatten.flatten := by
  intro ns
  induction ns with
  | nil => intro cursor ss _ _; exact ⟨[], rfl, rfl, by simp, by simpa using window_nil file _⟩
  | cons n ns ih =>
    intro cursor ss hall hpos
    obtain ⟨as, ss', e, hl, hl2, hf, hj, hw⟩ := replayRanks_ok file hN cursor n (hpos n (by simp)) ss 0 hall
    obtain ⟨rest, e2, hl3, hj2, hw2⟩ := ih (cursor + ss.length * n) ss' hf (fun m hm => hpos m (by simp [hm]))
    have e2' : replay ((cursor : Int) + (ss.length : Int) * (n : Int)) ss' ns = .ok rest := by
      have : (cursor : Int) + (ss.length : Int) * (n : Int) = ((cursor + ss.length * n : Nat) : Int) := by
        simp
      rw [this]; exact e2
    refine ⟨as :: rest, ?_, by simp [hl3], ?_, ?_⟩
    · simp only [replay, e, bind, Except.bind, pure, Except.pure, e2']
    · intro t m htm j hjl
      cases t with
      | zero =>
        simp only [List.getElem?_cons_zero, Option.some.injEq] at htm
        subst htm
        obtain ⟨a, ha, wa⟩ := hj j hjl
        exact ⟨as, a, rfl, ha, by simpa using wa⟩
      | succ t =>
        simp only [List.getElem?_cons_succ] at htm
        obtain ⟨bs, b, hbs, hb, wb⟩ := hj2 t m htm j (by omega)
        refine ⟨bs, b, by simpa using hbs, hb, ?_⟩
        rw [hl] at wb
        simp only [List.take_succ_cons, List.sum_cons]
        have : cursor + ss.length * n + ss.length * (ns.take t).sum + j * m =
            cursor + ss.length * (n + (ns.take t).sum) + j * m := by ring
        rw [← this]; exact wb
    · simp only [List.flatten_cons, List.flatten_append, List.sum_cons]
      rw [Nat.mul_add]
      apply window_append
      · simpa using hw
      · rw [hl] at hw2
        rw [Nat.mod_add_mod]; exact hw2

end Verif.Storage
